import Verif.DG2D.Split
import Verif.DG2D.ModesProps
import Verif.DG2D.GatherProps
import Verif.Blitz.ReshapeProps
import Mathlib.Algebra.Order.Floor.Ring
import Mathlib.Algebra.Order.Archimedean.Real.Basic

/-! Properties C44 (sub-triangles) and C45 (quadrilateral output cells). -/

namespace Blitzdg.DG2D

open Blitzdg.Sparse (DMat)
open Blitzdg.Blitz (rdI reshapeMatTo1D C10_flatten pos)

/-! ### The lattice loop -/

theorem pos_inj {N : Nat} {p q : Nat × Nat} (hp : p.2 ≤ N) (hq : q.2 ≤ N)
    (h : p.1 * (N + 1) + p.2 = q.1 * (N + 1) + q.2) : p = q := by
  obtain ⟨a, b⟩ := p
  obtain ⟨c, d⟩ := q
  simp only at *
  have h1 : (a * (N + 1) + b) / (N + 1) = a := by
    rw [Nat.add_comm, Nat.add_mul_div_right _ _ (by omega), Nat.div_eq_of_lt (by omega)]; omega
  have h2 : (c * (N + 1) + d) / (N + 1) = c := by
    rw [Nat.add_comm, Nat.add_mul_div_right _ _ (by omega), Nat.div_eq_of_lt (by omega)]; omega
  have : a = c := by rw [← h1, ← h2, h]
  subst this
  simp only [Prod.mk.injEq, true_and]; omega

theorem pos_lt {N n m : Nat} (hn : n ≤ N) (hm : m ≤ N) : n * (N + 1) + m < (N + 1) * (N + 1) := by
  calc n * (N + 1) + m < n * (N + 1) + (N + 1) := by omega
    _ = (n + 1) * (N + 1) := by ring
    _ ≤ (N + 1) * (N + 1) := Nat.mul_le_mul_right _ (by omega)

theorem lattice_ok (N np : Nat) (order : List (Nat × Nat)) (hnd : order.Nodup) (hb : ∀ p ∈ order, p.1 ≤ N ∧ p.2 ≤ N)
    (hl : order.length ≤ np) :
    ∃ L, lattice N np order = .ok L ∧ L.count = order.length ∧ L.counter.length = (N + 1) * (N + 1) ∧ L.pts.length = np ∧
      (∀ (i n m : Nat), order[i]? = some (n, m) → L.counter[n * (N + 1) + m]? = some (i : Int) ∧ L.pts[i]? = some (m, n)) ∧
      ∀ n m, n ≤ N → m ≤ N → (n, m) ∉ order → L.counter[n * (N + 1) + m]? = some (-1) := by
  induction order using List.reverseRecOn with
  | nil =>
    refine ⟨_, rfl, rfl, by simp, by simp, by simp, fun n m hn hm _ => ?_⟩
    simp only
    rw [List.getElem?_replicate, if_pos (pos_lt hn hm)]
  | append_singleton l p ih =>
    rw [List.nodup_append] at hnd
    obtain ⟨hnl, -, hdis⟩ := hnd
    have hpl : p ∉ l := fun h => hdis p h p (by simp) rfl
    simp only [List.length_append, List.length_singleton] at hl
    obtain ⟨L, h1, h2, h3, h4, h5, h6⟩ := ih hnl (fun q hq => hb q (by simp [hq])) (by omega)
    obtain ⟨hp1, hp2⟩ := hb p (by simp)
    have hpos := pos_lt hp1 hp2
    refine ⟨{ counter := L.counter.set (p.1 * (N + 1) + p.2) (l.length : Int), pts := L.pts.set l.length (p.2, p.1), count := l.length + 1 },
      ?_, by simp, by simp [h3], by simp [h4], ?_, ?_⟩
    · have h1' : loopM (latticeStep N) { counter := List.replicate ((N + 1) * (N + 1)) (-1), pts := List.replicate np (0, 0), count := 0 } l
        = .ok L := h1
      unfold lattice
      rw [loopM_append, h1', Out.bind_ok, loopM_cons]
      simp only [latticeStep, h2, wr_of_lt (show l.length < L.pts.length by omega), Out.bind_ok, if_pos (And.intro hp1 hp2),
        wr_of_lt (show p.1 * (N + 1) + p.2 < L.counter.length by omega), Out.pure_eq, loopM_nil]
    · intro i n m hi
      by_cases hil : i < l.length
      · rw [List.getElem?_append_left hil] at hi
        obtain ⟨a1, a2⟩ := h5 i n m hi
        have hmem : (n, m) ∈ l := List.mem_of_getElem? hi
        have hne : p.1 * (N + 1) + p.2 ≠ n * (N + 1) + m := by
          intro h
          have := pos_inj (p := p) (q := (n, m)) hp2 (hb (n, m) (by simp [hmem])).2 h
          exact hpl (this ▸ hmem)
        refine ⟨?_, ?_⟩
        · simp only
          rw [List.getElem?_set_ne hne]; exact a1
        · simp only
          rw [List.getElem?_set_ne (by omega)]; exact a2
      · have hil' : i = l.length := by
          have := (List.getElem?_eq_some_iff.1 hi).1
          simp at this; omega
        subst hil'
        rw [List.getElem?_append_right (le_refl _)] at hi
        simp at hi
        subst hi
        refine ⟨?_, ?_⟩
        · simp only
          rw [List.getElem?_set_self (by simp only at hpos; omega)]
        · simp only
          rw [List.getElem?_set_self (by omega)]
    · intro n m hn hm hnot
      simp only [List.mem_append, List.mem_singleton, not_or] at hnot
      have hne : p.1 * (N + 1) + p.2 ≠ n * (N + 1) + m := fun h => hnot.2 (pos_inj (p := p) (q := (n, m)) hp2 hm h).symm
      simp only
      rw [List.getElem?_set_ne hne]
      exact h6 n m hn hm hnot.1

theorem lattice_short (N np : Nat) (order : List (Nat × Nat)) (hnd : order.Nodup) (hb : ∀ p ∈ order, p.1 ≤ N ∧ p.2 ≤ N)
    (hl : np < order.length) : lattice N np order = .ub := by
  have e : order = order.take np ++ order.drop np := (List.take_append_drop _ _).symm
  obtain ⟨L, h1, h2, -, h4, -, -⟩ := lattice_ok N np (order.take np) (hnd.sublist (List.take_sublist _ _))
    (fun p hp => hb p (List.mem_of_mem_take hp)) (by simp)
  have h1' : loopM (latticeStep N) { counter := List.replicate ((N + 1) * (N + 1)) (-1), pts := List.replicate np (0, 0), count := 0 } (order.take np)
        = .ok L := h1
  unfold lattice
  rw [e, loopM_append, h1', Out.bind_ok]
  obtain ⟨q, qs, hq⟩ : ∃ q qs, order.drop np = q :: qs := by
    cases hd : order.drop np with
    | nil => rw [List.drop_eq_nil_iff] at hd; omega
    | cons q qs => exact ⟨q, qs, rfl⟩
  rw [hq, loopM_cons]
  have : ¬ L.count < L.pts.length := by rw [h2, h4]; simp; omega
  simp [latticeStep, wr, this]

theorem triLattice_eq (N : Nat) : triLattice N = triPairs N := by
  unfold triLattice triPairs
  have : ∀ n ∈ List.range (N + 1), ((List.range (N + 2 - (n + 1))).map fun m => (n, m)) = ((List.range (N - n + 1)).map fun m => (n, m)) := by
    intro n hn
    rw [List.mem_range] at hn
    congr 2; omega
  exact List.flatMap_congr this

theorem quadLattice_eq (N : Nat) : quadLattice N = quadPairs N := rfl

/-! ### Cells -/

theorem loopM_flatMap {σ β : Type} (f : List σ → β → Out (List σ)) (g : β → List σ) (l : List β)
    (h : ∀ acc, ∀ b ∈ l, f acc b = .ok (acc ++ g b)) (acc : List σ) : loopM f acc l = .ok (acc ++ l.flatMap g) := by
  induction l generalizing acc with
  | nil => simp
  | cons b l ih =>
    rw [loopM_cons, h acc b (by simp), Out.bind_ok, ih fun a c hc => h a c (by simp [hc])]
    simp

/-- The triangles of the cell with lower left corner `(m, n)`, as lattice points `(column, row)`. -/
def cellTris (N : Nat) (p : Nat × Nat) : List (List (Nat × Nat)) :=
  [[(p.2, p.1), (p.2 + 1, p.1), (p.2, p.1 + 1)]] ++
    if p.1 + p.2 + 2 ≤ N then [[(p.2 + 1, p.1), (p.2 + 1, p.1 + 1), (p.2, p.1 + 1)]] else []

/-- All sub-triangles, as lattice points. -/
def tris (N : Nat) : List (List (Nat × Nat)) := (triCells N).flatMap (cellTris N)

theorem mem_triCells {N : Nat} {p : Nat × Nat} : p ∈ triCells N ↔ p.1 + p.2 < N := by
  obtain ⟨n, m⟩ := p
  simp only [triCells, List.mem_flatMap, List.mem_range, List.mem_map, Prod.mk.injEq]
  constructor
  · rintro ⟨a, ha, b, hb, rfl, rfl⟩; omega
  · intro h; exact ⟨n, by omega, m, by omega, rfl, rfl⟩

theorem localTris_ok (N np : Nat) (h : triNp N ≤ np) :
    ∃ L, lattice N np (triLattice N) = .ok L ∧
      (∀ n m, n + m ≤ N → L.pts[triNum N n m]? = some (m, n)) ∧
      localTris N L.counter = .ok ((tris N).map fun t => t.map fun p => ((triNum N p.2 p.1 : Nat) : Int)) := by
  rw [triLattice_eq]
  obtain ⟨L, h1, h2, h3, h4, h5, h6⟩ := lattice_ok N np (triPairs N) (triPairs_nodup N)
    (fun p hp => by have := mem_triPairs.1 hp; omega) (by rw [triPairs_length]; exact h)
  refine ⟨L, h1, fun n m hnm => (h5 _ n m (triPairs_get hnm)).2, ?_⟩
  have hc : ∀ n m, n + m ≤ N → counterAt N L.counter n m = .ok ((triNum N n m : Nat) : Int) := by
    intro n m hnm
    rw [counterAt, if_pos (by omega), rd_eq_ok]
    exact (h5 _ n m (triPairs_get hnm)).1
  have hc' : ∀ n m, n ≤ N → m ≤ N → N < n + m → counterAt N L.counter n m = .ok (-1) := by
    intro n m hn hm hnm
    rw [counterAt, if_pos (by omega), rd_eq_ok]
    exact h6 n m hn hm (by rw [mem_triPairs]; simp only; omega)
  unfold localTris
  rw [loopM_flatMap (triStep N L.counter) (fun p => (cellTris N p).map fun t => t.map fun q => ((triNum N q.2 q.1 : Nat) : Int))]
  · simp only [List.nil_append, tris, List.map_flatMap]
  · intro acc p hp
    have hp := mem_triCells.1 hp
    unfold triStep
    rw [hc p.1 p.2 (by omega), Out.bind_ok, hc p.1 (p.2 + 1) (by omega), Out.bind_ok, hc (p.1 + 1) p.2 (by omega), Out.bind_ok]
    by_cases hle : p.1 + p.2 + 2 ≤ N
    · rw [hc (p.1 + 1) (p.2 + 1) (by omega), Out.bind_ok]
      simp [cellTris, hle]
    · rw [hc' (p.1 + 1) (p.2 + 1) (by omega) (by omega) (by omega), Out.bind_ok]
      simp [cellTris, hle]

theorem rowTris_length (N n t : Nat) (h : n + t ≤ N) : (((List.range t).map fun m => (n, m)).flatMap (cellTris N)).length
    = if n + t = N then 2 * t - 1 else 2 * t := by
  induction t with
  | zero => simp
  | succ t ih =>
    rw [List.range_succ, List.map_append, List.flatMap_append, List.length_append, ih (by omega)]
    simp only [List.map_cons, List.map_nil, List.flatMap_cons, List.flatMap_nil, List.append_nil, cellTris]
    by_cases h2 : n + t + 2 ≤ N
    · rw [if_pos h2, if_neg (by omega), if_neg (by omega)]; simp; omega
    · rw [if_neg h2, if_neg (by omega), if_pos (by omega)]; simp; omega

theorem tris_length (N : Nat) : (tris N).length = N ^ 2 := by
  have key : ∀ t ≤ N, (((List.range t).flatMap fun n => (List.range (N + 1 - (n + 1))).map fun m => (n, m)).flatMap (cellTris N)).length
      + (N - t) ^ 2 = N ^ 2 := by
    intro t ht
    induction t with
    | zero => simp
    | succ t ih =>
      rw [List.range_succ, List.flatMap_append, List.flatMap_append, List.length_append]
      simp only [List.flatMap_cons, List.flatMap_nil, List.append_nil]
      rw [rowTris_length N t _ (by omega), if_pos (by omega)]
      have := ih (by omega)
      obtain ⟨d, hd⟩ : ∃ d, N - t = d + 1 := ⟨N - t - 1, by omega⟩
      have e1 : N - (t + 1) = d := by omega
      have e2 : N + 1 - (t + 1) = d + 1 := by omega
      rw [e1, e2]
      rw [hd] at this
      have e3 : (d + 1) ^ 2 = d ^ 2 + (2 * (d + 1) - 1) := by
        rw [show 2 * (d + 1) - 1 = 2 * d + 1 by omega]; ring
      rw [e3] at this
      omega
  have h1 := key N (le_refl _)
  simp only [Nat.sub_self] at h1
  unfold tris triCells
  rw [List.range_succ, List.flatMap_append, List.flatMap_append, List.length_append]
  simp only [List.flatMap_cons, List.flatMap_nil, List.append_nil, Nat.sub_self, List.range_zero, List.map_nil, List.length_nil]
  omega

theorem mem_tris {N : Nat} {t : List (Nat × Nat)} : t ∈ tris N ↔
    (∃ n m, n + m < N ∧ t = [(m, n), (m + 1, n), (m, n + 1)]) ∨ (∃ n m, n + m + 2 ≤ N ∧ t = [(m + 1, n), (m + 1, n + 1), (m, n + 1)]) := by
  simp only [tris, List.mem_flatMap, mem_triCells, cellTris]
  constructor
  · rintro ⟨⟨n, m⟩, h, ht⟩
    simp only at h ht
    by_cases h2 : n + m + 2 ≤ N
    · rw [if_pos h2] at ht
      simp at ht
      rcases ht with ht | ht
      · exact .inl ⟨n, m, h, ht⟩
      · exact .inr ⟨n, m, h2, ht⟩
    · rw [if_neg h2] at ht
      simp at ht
      exact .inl ⟨n, m, h, ht⟩
  · rintro (⟨n, m, h, rfl⟩ | ⟨n, m, h, rfl⟩)
    · exact ⟨(n, m), h, by simp⟩
    · exact ⟨(n, m), by simp only; omega, by simp [h]⟩

theorem tris_nodup (N : Nat) : (tris N).Nodup := by
  rw [tris, List.nodup_flatMap]
  constructor
  · rintro ⟨n, m⟩ _
    unfold cellTris
    split
    · simp
    · simp
  · have hnd : (triCells N).Nodup := by
      rw [triCells, List.nodup_flatMap]
      refine ⟨fun i _ => List.nodup_range.map fun a b h => by simpa using h, ?_⟩
      refine List.Pairwise.imp_of_mem ?_ (List.nodup_range (n := N + 1))
      intro a b _ _ hab
      simp only [Function.onFun, List.disjoint_left, List.mem_map, List.mem_range]
      rintro p ⟨_, _, rfl⟩ ⟨_, _, h⟩
      exact hab (Prod.mk.inj h).1.symm
    refine List.Pairwise.imp ?_ hnd
    rintro ⟨n, m⟩ ⟨n', m'⟩ hne
    simp only [Function.onFun, List.disjoint_left]
    intro t h1 h2
    apply hne
    have a1 : t = [(m, n), (m + 1, n), (m, n + 1)] ∨ t = [(m + 1, n), (m + 1, n + 1), (m, n + 1)] := by
      unfold cellTris at h1; split at h1 <;> simp at h1 <;> tauto
    have a2 : t = [(m', n'), (m' + 1, n'), (m', n' + 1)] ∨ t = [(m' + 1, n'), (m' + 1, n' + 1), (m', n' + 1)] := by
      unfold cellTris at h2; split at h2 <;> simp at h2 <;> tauto
    rcases a1 with rfl | rfl <;> rcases a2 with h | h <;> simp at h <;> simp <;> omega

/-! ### Picking the values -/

theorem tabM_list {α β : Type} (l : List α) (f : α → Out β) (g : α → β) (h : ∀ a ∈ l, f a = .ok (g a)) :
    tabM (fun i => rd l i >>= f) l.length = .ok (l.map g) := by
  cases l with
  | nil => rfl
  | cons a0 l =>
    have e : (a0 :: l).map g = (List.range (a0 :: l).length).map fun i => g ((a0 :: l).getD i a0) := by
      apply List.ext_getElem?
      intro i
      rw [List.getElem?_map, List.getElem?_map]
      by_cases hi : i < (a0 :: l).length
      · rw [List.getElem?_range hi, List.getElem?_eq_getElem hi]
        simp only [Option.map_some, List.getD_eq_getElem?_getD, List.getElem?_eq_getElem hi, Option.getD_some]
      · rw [List.getElem?_eq_none (by omega), List.getElem?_eq_none (by simpa using hi)]; rfl
    rw [e]
    apply tabM_ok
    intro i hi
    rw [rd_of_lt hi, Out.bind_ok, h _ (List.getElem_mem hi)]
    rw [List.getD_eq_getElem?_getD, List.getElem?_eq_getElem hi]; rfl

theorem pick_ok {α : Type} (vec : List α) (cells : List (List Int)) (F : Int → α)
    (h : ∀ row ∈ cells, ∀ v ∈ row, rdI vec v = .ok (F v)) : pick vec cells = .ok (cells.map fun row => row.map F) := by
  unfold pick
  exact tabM_list cells _ _ fun row hrow => tabM_list row _ _ fun v hv => h row hrow v hv

theorem allCells_get (cells : List (List Int)) (np K k l : Nat) (hk : k < K) (hl : l < cells.length) :
    (allCells cells np K)[k * cells.length + l]? = some (cells[l].map (· + ((k * np : Nat) : Int))) := by
  unfold allCells
  have hlen : ∀ m, ((List.range m).flatMap fun k => cells.map fun row => row.map (· + ((k * np : Nat) : Int))).length = m * cells.length := by
    intro m; simp [List.length_flatMap]
  rw [← hlen k, flatMap_get _ _ _ _ hk (by simpa using hl), List.getElem?_map, List.getElem?_eq_getElem hl]
  rfl

theorem allCells_length (cells : List (List Int)) (np K : Nat) : (allCells cells np K).length = K * cells.length := by
  simp [allCells, List.length_flatMap]

theorem mem_allCells {cells : List (List Int)} {np K : Nat} {row : List Int} (h : row ∈ allCells cells np K) :
    ∃ k < K, ∃ c ∈ cells, row = c.map (· + ((k * np : Nat) : Int)) := by
  simp only [allCells, List.mem_flatMap, List.mem_range, List.mem_map] at h
  obtain ⟨k, hk, c, hc, rfl⟩ := h
  exact ⟨k, hk, c, hc, rfl⟩

/-- Common part of both `splitElements`: with cells of valid local numbers `num p`, entry `c` of column `k*L+l` is the value at that node of element `k`. -/
theorem pick_cells {α : Type} (res : DMat α) (vec0 : List α) (hv : vec0.length = res.rows * res.cols)
    (T : List (List (Nat × Nat))) (num : Nat × Nat → Nat) (hnum : ∀ t ∈ T, ∀ p ∈ t, num p < res.rows) :
    ∃ vec out, reshapeMatTo1D res vec0 false = .ok vec ∧
      pick vec (allCells (T.map fun t => t.map fun p => ((num p : Nat) : Int)) res.rows res.cols) = .ok out ∧
      out.length = res.cols * T.length ∧
      ∀ k < res.cols, ∀ l (hl : l < T.length), out[k * T.length + l]? = some (T[l].map fun p => res.at' (num p) k) := by
  obtain ⟨vec, h1, h2, h3, -⟩ := C10_flatten res vec0 false (by omega)
  set cells := T.map fun t => t.map fun p => ((num p : Nat) : Int) with hcells
  have hval : ∀ k < res.cols, ∀ t ∈ T, ∀ p ∈ t, rdI vec (((num p : Nat) : Int) + ((k * res.rows : Nat) : Int)) = .ok (res.at' (num p) k) := by
    intro k hk t ht p hp
    have hn := hnum t ht p hp
    have e : ((num p : Nat) : Int) + ((k * res.rows : Nat) : Int) = ((k * res.rows + num p : Nat) : Int) := by push_cast; ring
    rw [e, rdI, if_neg (by omega), rd_eq_ok, Int.toNat_natCast]
    have := h3 (num p) k hn hk
    simpa [pos] using this
  have hp := pick_ok vec (allCells cells res.rows res.cols) (fun v => res.at' (v.toNat % res.rows) (v.toNat / res.rows)) (by
    intro row hrow v hv
    obtain ⟨k, hk, c, hc, rfl⟩ := mem_allCells hrow
    obtain ⟨t, ht, rfl⟩ := List.mem_map.1 hc
    obtain ⟨u, hu, rfl⟩ := List.mem_map.1 hv
    obtain ⟨p, hp, rfl⟩ := List.mem_map.1 hu
    rw [hval k hk t ht p hp]
    have hn := hnum t ht p hp
    have e : ((num p : Nat) : Int) + ((k * res.rows : Nat) : Int) = ((num p + k * res.rows : Nat) : Int) := by push_cast; ring
    rw [e, Int.toNat_natCast, Nat.add_mul_mod_self_right, Nat.mod_eq_of_lt hn, Nat.add_mul_div_right _ _ (by omega), Nat.div_eq_of_lt hn,
      Nat.zero_add])
  refine ⟨vec, _, h1, hp, ?_, ?_⟩
  · rw [List.length_map, allCells_length]; simp [hcells]
  · intro k hk l hl
    have hlc : l < cells.length := by simpa [hcells] using hl
    have hg := allCells_get cells res.rows res.cols k l hk hlc
    have hlen : cells.length = T.length := by simp [hcells]
    rw [hlen] at hg
    rw [List.getElem?_map, hg]
    simp only [Option.map_some, Option.some.injEq, hcells, List.getElem_map, List.map_map]
    apply List.map_congr_left
    intro p hp
    have hn := hnum _ (List.getElem_mem hl) p hp
    simp only [Function.comp]
    have e : ((num p : Nat) : Int) + ((k * res.rows : Nat) : Int) = ((num p + k * res.rows : Nat) : Int) := by push_cast; ring
    rw [e, Int.toNat_natCast, Nat.add_mul_mod_self_right, Nat.mod_eq_of_lt hn, Nat.add_mul_div_right _ _ (by omega), Nat.div_eq_of_lt hn,
      Nat.zero_add]

/-! ### C44: specification -/

/-- Twice the signed area of a triangle given by three lattice points. -/
def latticeCross (t : List (Nat × Nat)) : Int :=
  match t with
  | [p, q, o] => ((q.1 : Int) - p.1) * ((o.2 : Int) - p.2) - ((o.1 : Int) - p.1) * ((q.2 : Int) - p.2)
  | _ => 0

/-- `(x, y)` is a convex combination of the vertices of the lattice triangle. -/
def InTri (t : List (Nat × Nat)) (x y : ℝ) : Prop :=
  ∃ p q o, t = [p, q, o] ∧ ∃ a b c : ℝ, 0 ≤ a ∧ 0 ≤ b ∧ 0 ≤ c ∧ a + b + c = 1 ∧
    x = a * p.1 + b * q.1 + c * o.1 ∧ y = a * p.2 + b * q.2 + c * o.2

/-- ... with positive weights. -/
def InsideTri (t : List (Nat × Nat)) (x y : ℝ) : Prop :=
  ∃ p q o, t = [p, q, o] ∧ ∃ a b c : ℝ, 0 < a ∧ 0 < b ∧ 0 < c ∧ a + b + c = 1 ∧
    x = a * p.1 + b * q.1 + c * o.1 ∧ y = a * p.2 + b * q.2 + c * o.2

/-- `T` is a triangulation of the lattice triangle of side `N` by counter-clockwise triangles of area 1/2 (the whole has area `N²/2`)
whose vertices are lattice points and use all of them; the triangles cover the whole and do not overlap. -/
structure Triangulation (N : Nat) (T : List (List (Nat × Nat))) : Prop where
  number : T.length = N ^ 2
  shape : ∀ t ∈ T, t.length = 3 ∧ latticeCross t = 1 ∧ ∀ p ∈ t, p.1 + p.2 ≤ N
  allNodes : ∀ m n, m + n ≤ N → ∃ t ∈ T, (m, n) ∈ t
  covers : ∀ x y : ℝ, 0 ≤ x → 0 ≤ y → x + y ≤ N → ∃ t ∈ T, InTri t x y
  disjoint : ∀ (i j : Nat) (hi : i < T.length) (hj : j < T.length) (x y : ℝ), InsideTri T[i] x y → InsideTri T[j] x y → i = j

theorem covers_aux (N : Nat) (hN : 1 ≤ N) (x y : ℝ) (hx : 0 ≤ x) (hy : 0 ≤ y) (hxy : x + y ≤ N) : ∃ t ∈ tris N, InTri t x y := by
  have fx := Nat.floor_le hx
  have fy := Nat.floor_le hy
  have lx := Nat.lt_floor_add_one x
  have ly := Nat.lt_floor_add_one y
  set m := ⌊x⌋₊
  set n := ⌊y⌋₊
  have hmn : m + n ≤ N := by
    have : ((m + n : Nat) : ℝ) ≤ N := by push_cast; linarith
    exact_mod_cast this
  have low : ∀ a b : Nat, a + b < N → (a : ℝ) ≤ x → (b : ℝ) ≤ y → x + y ≤ a + b + 1 → ∃ t ∈ tris N, InTri t x y := by
    intro a b hab hax hby hs
    refine ⟨_, mem_tris.2 (.inl ⟨b, a, by omega, rfl⟩), _, _, _, rfl, 1 - (x - a) - (y - b), x - a, y - b, by linarith, by linarith, by linarith,
      by ring, ?_, ?_⟩ <;> push_cast <;> ring
  by_cases hlt : m + n < N
  · by_cases hs : x + y ≤ m + n + 1
    · exact low m n hlt fx fy hs
    · push Not at hs
      have h2 : n + m + 2 ≤ N := by
        have : ((m + n + 1 : Nat) : ℝ) < N := by push_cast; linarith
        have : m + n + 1 < N := by exact_mod_cast this
        omega
      refine ⟨_, mem_tris.2 (.inr ⟨n, m, h2, rfl⟩), _, _, _, rfl, 1 - (y - n), x - m + (y - n) - 1, 1 - (x - m), by linarith, by linarith,
        by linarith, by ring, ?_, ?_⟩ <;> push_cast <;> ring
  · have hmnN : m + n = N := by omega
    have hcast : (m : ℝ) + n = N := by exact_mod_cast hmnN
    have ex : x = m := by linarith
    have ey : y = n := by linarith
    by_cases hm : 1 ≤ m
    · refine low (m - 1) n (by omega) ?_ (by linarith) ?_
      · rw [ex]; exact_mod_cast Nat.sub_le _ _
      · have : ((m - 1 : Nat) : ℝ) = m - 1 := by push_cast [hm]; ring
        rw [this]; linarith
    · refine low m (n - 1) (by omega) (by linarith) ?_ ?_
      · rw [ey]; exact_mod_cast Nat.sub_le _ _
      · have : ((n - 1 : Nat) : ℝ) = n - 1 := by push_cast [show 1 ≤ n by omega]; ring
        rw [this]; linarith

/-- Which triangle a point is inside of is determined by the point. -/
theorem inside_unique {N : Nat} {t u : List (Nat × Nat)} (ht : t ∈ tris N) (hu : u ∈ tris N) {x y : ℝ} (h1 : InsideTri t x y)
    (h2 : InsideTri u x y) : t = u := by
  have low : ∀ n m : Nat, InsideTri [(m, n), (m + 1, n), (m, n + 1)] x y → (m : ℝ) < x ∧ (n : ℝ) < y ∧ x + y < m + n + 1 := by
    rintro n m ⟨p, q, o, he, a, b, c, ha, hb, hc, hs, ex, ey⟩
    simp only [List.cons.injEq, and_true] at he
    obtain ⟨rfl, rfl, rfl⟩ := he
    push_cast at ex ey
    have e1 : x = m + b := by rw [ex]; linear_combination (m : ℝ) * hs
    have e2 : y = n + c := by rw [ey]; linear_combination (n : ℝ) * hs
    refine ⟨by linarith, by linarith, by linarith⟩
  have up : ∀ n m : Nat, InsideTri [(m + 1, n), (m + 1, n + 1), (m, n + 1)] x y → x < m + 1 ∧ y < n + 1 ∧ (m : ℝ) + n + 1 < x + y := by
    rintro n m ⟨p, q, o, he, a, b, c, ha, hb, hc, hs, ex, ey⟩
    simp only [List.cons.injEq, and_true] at he
    obtain ⟨rfl, rfl, rfl⟩ := he
    push_cast at ex ey
    have e1 : x = m + 1 - c := by rw [ex]; linear_combination ((m : ℝ) + 1) * hs
    have e2 : y = n + 1 - a := by rw [ey]; linear_combination ((n : ℝ) + 1) * hs
    refine ⟨by linarith, by linarith, by linarith⟩
  have cmp : ∀ a b : Nat, (a : ℝ) < b + 1 → a ≤ b := by
    intro a b h
    have : (a : ℝ) < ((b + 1 : Nat) : ℝ) := by push_cast; exact h
    have : a < b + 1 := by exact_mod_cast this
    omega
  rcases mem_tris.1 ht with ⟨n, m, _, rfl⟩ | ⟨n, m, _, rfl⟩ <;> rcases mem_tris.1 hu with ⟨n', m', _, rfl⟩ | ⟨n', m', _, rfl⟩
  · obtain ⟨a1, a2, a3⟩ := low _ _ h1
    obtain ⟨b1, b2, b3⟩ := low _ _ h2
    have := cmp m m' (by linarith); have := cmp m' m (by linarith); have := cmp n n' (by linarith); have := cmp n' n (by linarith)
    obtain rfl : m = m' := by omega
    obtain rfl : n = n' := by omega
    rfl
  · obtain ⟨a1, a2, a3⟩ := low _ _ h1
    obtain ⟨b1, b2, b3⟩ := up _ _ h2
    have := cmp m m' (by linarith); have := cmp m' m (by linarith); have := cmp n n' (by linarith); have := cmp n' n (by linarith)
    obtain rfl : m = m' := by omega
    obtain rfl : n = n' := by omega
    linarith
  · obtain ⟨a1, a2, a3⟩ := up _ _ h1
    obtain ⟨b1, b2, b3⟩ := low _ _ h2
    have := cmp m m' (by linarith); have := cmp m' m (by linarith); have := cmp n n' (by linarith); have := cmp n' n (by linarith)
    obtain rfl : m = m' := by omega
    obtain rfl : n = n' := by omega
    linarith
  · obtain ⟨a1, a2, a3⟩ := up _ _ h1
    obtain ⟨b1, b2, b3⟩ := up _ _ h2
    have := cmp m m' (by linarith); have := cmp m' m (by linarith); have := cmp n n' (by linarith); have := cmp n' n (by linarith)
    obtain rfl : m = m' := by omega
    obtain rfl : n = n' := by omega
    rfl

theorem tris_triangulation (N : Nat) (hN : 1 ≤ N) : Triangulation N (tris N) where
  number := tris_length N
  shape := by
    intro t ht
    rcases mem_tris.1 ht with ⟨n, m, h, rfl⟩ | ⟨n, m, h, rfl⟩
    · refine ⟨rfl, by simp [latticeCross], ?_⟩
      intro p hp
      simp at hp
      rcases hp with rfl | rfl | rfl <;> simp only <;> omega
    · refine ⟨rfl, by simp [latticeCross], ?_⟩
      intro p hp
      simp at hp
      rcases hp with rfl | rfl | rfl <;> simp only <;> omega
  allNodes := by
    intro m n h
    by_cases hlt : m + n < N
    · exact ⟨_, mem_tris.2 (.inl ⟨n, m, by omega, rfl⟩), by simp⟩
    · by_cases hm : 1 ≤ m
      · exact ⟨_, mem_tris.2 (.inl ⟨n, m - 1, by omega, rfl⟩), by simp; omega⟩
      · exact ⟨_, mem_tris.2 (.inl ⟨n - 1, m, by omega, rfl⟩), by simp; omega⟩
  covers := covers_aux N hN
  disjoint := by
    intro i j hi hj x y h1 h2
    have := inside_unique (List.getElem_mem hi) (List.getElem_mem hj) h1 h2
    exact (List.Nodup.getElem_inj_iff (tris_nodup N)).1 this

/-- C44.  For every order `N ≥ 1` and number of elements, `splitElements` on fields with one value per node of the element succeeds without
undefined behaviour; there is a triangulation `T` of the reference triangle (in units of the lattice spacing) into `N²` triangles and a
bijective node numbering `num` of the lattice points, such that the interpolation points are generated in the order of `num`, and column
`k N² + l` of the result holds the values of element `k` at the three vertices of triangle `l`, counter-clockwise. -/
theorem C44_split {α : Type} (N : Nat) (hN : 1 ≤ N) (res : DMat α) (vec0 : List α) (hr : res.rows = (N + 1) * (N + 2) / 2)
    (hv : vec0.length = res.rows * res.cols) :
    ∃ (T : List (List (Nat × Nat))) (num : Nat × Nat → Nat) (L : Lattice) (out : List (List α)), Triangulation N T ∧
      Set.BijOn num {p | p.1 + p.2 ≤ N} {c | c < res.rows} ∧
      lattice N res.rows (triLattice N) = .ok L ∧ L.pts.length = res.rows ∧ (∀ p : Nat × Nat, p.1 + p.2 ≤ N → L.pts[num p]? = some p) ∧
      splitTri N res vec0 = .ok out ∧ out.length = res.cols * N ^ 2 ∧
      ∀ k < res.cols, ∀ l (hl : l < T.length), out[k * N ^ 2 + l]? = some (T[l].map fun p => res.at' (num p) k) := by
  have hr' : triNp N = res.rows := hr.symm
  obtain ⟨L, h1, h2, h3⟩ := localTris_ok N res.rows (by omega)
  have hL : L.pts.length = res.rows := by
    obtain ⟨L', g1, -, -, g4, -, -⟩ := lattice_ok N res.rows (triPairs N) (triPairs_nodup N)
      (fun p hp => by have := mem_triPairs.1 hp; omega) (by rw [triPairs_length]; omega)
    rw [triLattice_eq, g1] at h1
    cases h1; exact g4
  have hbij := triNum_bij N
  obtain ⟨vec, out, g1, g2, g3, g4⟩ := pick_cells res vec0 hv (tris N) (fun p => triNum N p.2 p.1) (by
    intro t ht p hp
    rw [← hr']
    exact triNum_lt (by have := ((tris_triangulation N hN).shape t ht).2.2 p hp; omega))
  refine ⟨tris N, fun p => triNum N p.2 p.1, L, out, tris_triangulation N hN, ?_, h1, hL, fun p hp => h2 p.2 p.1 (by omega), ?_, ?_, ?_⟩
  · rw [← hr']
    refine ⟨fun p hp => triNum_lt (by simp only [Set.mem_ofPred_eq] at hp; omega), ?_, ?_⟩
    · intro p hp q hq h
      simp only [Set.mem_ofPred_eq] at hp hq
      have := hbij.2.1 (show (p.2, p.1) ∈ {p : Nat × Nat | p.1 + p.2 ≤ N} by simp only [Set.mem_ofPred_eq]; omega)
        (show (q.2, q.1) ∈ {p : Nat × Nat | p.1 + p.2 ≤ N} by simp only [Set.mem_ofPred_eq]; omega) h
      simp only [Prod.mk.injEq] at this
      exact Prod.ext this.2 this.1
    · intro c hc
      obtain ⟨p, hp, rfl⟩ := hbij.2.2 hc
      exact ⟨(p.2, p.1), by simp only [Set.mem_ofPred_eq] at *; omega, rfl⟩
  · unfold splitTri
    rw [h1, Out.bind_ok, h3, Out.bind_ok, g1, Out.bind_ok, g2]
  · rw [g3, tris_length]
  · intro k hk l hl
    have := g4 k hk l hl
    rwa [tris_length] at this

/-- Fewer rows than nodes: the point arrays are overrun. -/
theorem C44_short {α : Type} (N : Nat) (res : DMat α) (vec0 : List α) (hr : res.rows < (N + 1) * (N + 2) / 2) : splitTri N res vec0 = .ub := by
  unfold splitTri
  rw [triLattice_eq, lattice_short N res.rows (triPairs N) (triPairs_nodup N) (fun p hp => by have := mem_triPairs.1 hp; omega)
    (by rw [triPairs_length]; exact hr)]
  rfl

/-- Order two, one element: four triangles. -/
example : splitTri 2 { rows := 6, cols := 1, at' := fun i _ => i * 10 } (List.replicate 6 0)
    = .ok [[0, 10, 30], [10, 40, 30], [10, 20, 40], [30, 40, 50]] := by decide

/-! ### C45 -/

/-- The lattice corners of the output cells of a quadrilateral, in the order of `splitElements`. -/
def quadsOf (N : Nat) : List (List (Nat × Nat)) :=
  (quadCells N).map fun p => [(p.2, p.1), (p.2 + 1, p.1), (p.2, p.1 + 1), (p.2 + 1, p.1 + 1)]

theorem mem_quadCells {N : Nat} {p : Nat × Nat} : p ∈ quadCells N ↔ p.1 < N ∧ p.2 < N := by
  obtain ⟨n, m⟩ := p
  simp [quadCells]

theorem localQuads_ok (N np : Nat) (h : (N + 1) * (N + 1) ≤ np) :
    ∃ L, lattice N np (quadLattice N) = .ok L ∧ (∀ n m, n ≤ N → m ≤ N → L.pts[n * (N + 1) + m]? = some (m, n)) ∧
      localQuads N L.counter = .ok ((quadsOf N).map fun t => t.map fun p => ((p.2 * (N + 1) + p.1 : Nat) : Int)) := by
  rw [quadLattice_eq]
  have hnd : (quadPairs N).Nodup := by
    rw [quadPairs, List.nodup_flatMap]
    refine ⟨fun i _ => List.nodup_range.map fun a b h => by simpa using h, ?_⟩
    refine List.Pairwise.imp_of_mem ?_ (List.nodup_range (n := N + 1))
    intro a b _ _ hab
    simp only [Function.onFun, List.disjoint_left, List.mem_map, List.mem_range]
    rintro p ⟨_, _, rfl⟩ ⟨_, _, h⟩
    exact hab (Prod.mk.inj h).1.symm
  obtain ⟨L, h1, h2, h3, h4, h5, h6⟩ := lattice_ok N np (quadPairs N) hnd
    (by rintro ⟨n, m⟩ hp; simp [quadPairs] at hp; simp only; omega) (by rw [quadPairs_length]; exact h)
  refine ⟨L, h1, fun n m hn hm => (h5 _ n m (quadPairs_get hn hm)).2, ?_⟩
  have hc : ∀ n m, n ≤ N → m ≤ N → counterAt N L.counter n m = .ok ((n * (N + 1) + m : Nat) : Int) := by
    intro n m hn hm
    rw [counterAt, if_pos ⟨hn, hm⟩, rd_eq_ok]
    exact (h5 _ n m (quadPairs_get hn hm)).1
  unfold localQuads
  rw [loopM_flatMap (quadStep N L.counter) (fun p => [[(p.2, p.1), (p.2 + 1, p.1), (p.2, p.1 + 1), (p.2 + 1, p.1 + 1)].map fun q =>
    ((q.2 * (N + 1) + q.1 : Nat) : Int)])]
  · rw [quadsOf, List.map_map, List.map_eq_flatMap (l := quadCells N)]
    rfl
  · intro acc p hp
    have hp := mem_quadCells.1 hp
    unfold quadStep
    rw [hc p.1 p.2 (by omega) (by omega), Out.bind_ok, hc p.1 (p.2 + 1) (by omega) (by omega), Out.bind_ok,
      hc (p.1 + 1) p.2 (by omega) (by omega), Out.bind_ok, hc (p.1 + 1) (p.2 + 1) (by omega) (by omega), Out.bind_ok]
    simp

/-- Specification: the four lattice points are the corners of a unit square, listed so that consecutive ones (cyclically) are neighbours,
i.e. the polygon they describe is the boundary of the square and does not cross itself. -/
def CyclicSquare (q : List (Nat × Nat)) : Prop :=
  ∃ m n, q.Perm [(m, n), (m + 1, n), (m + 1, n + 1), (m, n + 1)] ∧
    ∀ i : Nat, i < 4 → ∃ p p', q[i]? = some p ∧ q[(i + 1) % 4]? = some p' ∧
      (p.1 = p'.1 ∧ (p.2 = p'.2 + 1 ∨ p'.2 = p.2 + 1) ∨ p.2 = p'.2 ∧ (p.1 = p'.1 + 1 ∨ p'.1 = p.1 + 1))

/-- The node list written for a four-node cell: entry `j` refers to entry `[0, 2, 3, 1][j]` of the cell. -/
theorem vtkCell_four (k : Nat) : vtkCell 4 k = .ok [k * 4 + 0, k * 4 + 2, k * 4 + 3, k * 4 + 1] := by
  simp [vtkCell, swapAt, rd, wr, List.range_succ]

/-- A three-node cell is written in the given order. -/
theorem vtkCell_three (k : Nat) : vtkCell 3 k = .ok [k * 3 + 0, k * 3 + 1, k * 3 + 2] := by
  simp [vtkCell, List.range_succ]

/-- C45.  For every order `N` and number of elements, splitting a quadrilateral field gives `N²` cells per element, and the cell written for
column `i = k N² + l` lists, in the order of the VTK node list, the values of element `k` at the corners of a unit lattice square in
cyclic order; these squares are all the squares of the lattice, each exactly once. -/
theorem C45_split {α : Type} (N : Nat) (res : DMat α) (vec0 : List α) (hr : res.rows = (N + 1) * (N + 1))
    (hv : vec0.length = res.rows * res.cols) :
    ∃ (Q : List (List (Nat × Nat))) (num : Nat × Nat → Nat) (L : Lattice) (out : List (List α)), Q.length = N ^ 2 ∧
      Set.BijOn num {p | p.1 ≤ N ∧ p.2 ≤ N} {c | c < res.rows} ∧
      lattice N res.rows (quadLattice N) = .ok L ∧ (∀ p : Nat × Nat, p.1 ≤ N → p.2 ≤ N → L.pts[num p]? = some p) ∧
      (∀ q ∈ Q, CyclicSquare q ∧ ∀ p ∈ q, p.1 ≤ N ∧ p.2 ≤ N) ∧ Q.Nodup ∧ (∀ m n, m < N → n < N → ∃ q ∈ Q, (m, n) ∈ q ∧ (m + 1, n + 1) ∈ q) ∧
      splitQuad N res vec0 = .ok out ∧ out.length = res.cols * N ^ 2 ∧
      ∀ k < res.cols, ∀ l (hl : l < Q.length), ∃ col nodes, out[k * N ^ 2 + l]? = some col ∧ col.length = 4 ∧
        vtkCell 4 (k * N ^ 2 + l) = .ok nodes ∧ nodes.length = 4 ∧
        ∀ (j : Nat) (p : Nat × Nat), Q[l][j]? = some p → ∃ c, nodes[j]? = some ((k * N ^ 2 + l) * 4 + c) ∧ col[c]? = some (res.at' (num p) k) := by
  obtain ⟨L, h1, h2, h3⟩ := localQuads_ok N res.rows (by omega)
  obtain ⟨vec, out, g1, g2, g3, g4⟩ := pick_cells res vec0 hv (quadsOf N) (fun p => p.2 * (N + 1) + p.1) (by
    intro t ht p hp
    obtain ⟨⟨n, m⟩, hnm, rfl⟩ := List.mem_map.1 ht
    have := mem_quadCells.1 hnm
    rw [hr]
    simp at hp this
    apply pos_lt
    · rcases hp with rfl | rfl | rfl | rfl <;> simp only <;> omega
    · rcases hp with rfl | rfl | rfl | rfl <;> simp only <;> omega)
  have hlen : (quadsOf N).length = N ^ 2 := by
    simp [quadsOf, quadCells, List.length_flatMap]; ring
  refine ⟨(quadCells N).map fun p => [(p.2, p.1), (p.2, p.1 + 1), (p.2 + 1, p.1 + 1), (p.2 + 1, p.1)], fun p => p.2 * (N + 1) + p.1, L, out, ?_, ?_,
    h1, fun p hp1 hp2 => h2 p.2 p.1 hp2 hp1, ?_, ?_, ?_, ?_, by rw [g3, hlen], ?_⟩
  · simpa [quadsOf] using hlen
  · have hb := (C38_quad N (fun _ _ => ()) (List.replicate ((N + 1) * (N + 1)) ()) (by simp)).choose_spec.2.2.2
    rw [hr]
    refine ⟨fun p hp => pos_lt hp.2 hp.1, ?_, ?_⟩
    · intro p hp q hq h
      have := pos_inj (p := (p.2, p.1)) (q := (q.2, q.1)) hp.1 hq.1 h
      simp only [Prod.mk.injEq] at this
      exact Prod.ext this.2 this.1
    · intro c hc
      obtain ⟨p, hp, rfl⟩ := hb.2.2 hc
      exact ⟨(p.2, p.1), ⟨hp.2, hp.1⟩, rfl⟩
  · intro q hq
    obtain ⟨⟨n, m⟩, hnm, rfl⟩ := List.mem_map.1 hq
    have hlt := mem_quadCells.1 hnm
    simp only at hlt
    refine ⟨⟨m, n, ?_, ?_⟩, ?_⟩
    · refine List.Perm.cons _ ?_
      refine (List.Perm.swap _ _ _).trans ?_
      refine List.Perm.trans (List.Perm.cons _ (List.Perm.swap _ _ _)) ?_
      exact List.Perm.swap _ _ _
    · intro i hi
      have : i = 0 ∨ i = 1 ∨ i = 2 ∨ i = 3 := by omega
      rcases this with rfl | rfl | rfl | rfl <;> refine ⟨_, _, rfl, rfl, ?_⟩ <;> simp
    · intro p hp
      simp at hp
      rcases hp with rfl | rfl | rfl | rfl <;> simp only <;> omega
  · refine List.Nodup.map_on ?_ ?_
    · rintro ⟨n, m⟩ _ ⟨n', m'⟩ _ h
      simp at h
      simp only [Prod.mk.injEq]; omega
    · rw [quadCells, List.nodup_flatMap]
      refine ⟨fun i _ => List.nodup_range.map fun a b h => by simpa using h, ?_⟩
      refine List.Pairwise.imp_of_mem ?_ (List.nodup_range (n := N))
      intro a b _ _ hab
      simp only [Function.onFun, List.disjoint_left, List.mem_map, List.mem_range]
      rintro p ⟨_, _, rfl⟩ ⟨_, _, h⟩
      exact hab (Prod.mk.inj h).1.symm
  · intro m n hm hn
    exact ⟨_, List.mem_map.2 ⟨(n, m), mem_quadCells.2 ⟨hn, hm⟩, rfl⟩, by simp, by simp⟩
  · unfold splitQuad
    rw [h1, Out.bind_ok, h3, Out.bind_ok, g1, Out.bind_ok, g2]
  · intro k hk l hl
    have hl' : l < (quadsOf N).length := by simpa [quadsOf] using hl
    have := g4 k hk l hl'
    rw [hlen] at this
    refine ⟨_, _, this, by simp [quadsOf], vtkCell_four _, rfl, ?_⟩
    intro j p hj
    simp only [List.getElem_map] at hj
    have hj4 : j < 4 := by
      have := (List.getElem?_eq_some_iff.1 hj).1
      simpa using this
    have : j = 0 ∨ j = 1 ∨ j = 2 ∨ j = 3 := by omega
    rcases this with rfl | rfl | rfl | rfl
    · simp at hj; subst hj; exact ⟨0, by simp, by simp [quadsOf]⟩
    · simp at hj; subst hj; exact ⟨2, by simp, by simp [quadsOf]⟩
    · simp at hj; subst hj; exact ⟨3, by simp, by simp [quadsOf]⟩
    · simp at hj; subst hj; exact ⟨1, by simp, by simp [quadsOf]⟩

/-- Without splitting (order one) the four nodes of a quadrilateral, `(r, s)` indices `(j, i)` at position `2 j + i`
(src/QuadNodesProvisioner.cpp, `buildNodes`), are written in cyclic order as well. -/
theorem C45_order_one (k : Nat) : ∃ nodes, vtkCell 4 k = .ok nodes ∧
    CyclicSquare (nodes.map fun v => ((v - k * 4) / 2, (v - k * 4) % 2)) := by
  refine ⟨_, vtkCell_four k, 0, 0, ?_, ?_⟩
  · simp
  · intro i hi
    have : i = 0 ∨ i = 1 ∨ i = 2 ∨ i = 3 := by omega
    rcases this with rfl | rfl | rfl | rfl <;> refine ⟨_, _, rfl, rfl, ?_⟩ <;> simp

/-- Order one, two elements. -/
example : splitQuad 1 { rows := 4, cols := 2, at' := fun i k => i + 100 * k } (List.replicate 8 0) = .ok [[0, 1, 2, 3], [100, 101, 102, 103]] := by
  decide

end Blitzdg.DG2D
