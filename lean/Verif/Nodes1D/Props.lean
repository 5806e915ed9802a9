import Verif.Nodes1D.Model
import Verif.Mesh.ConnProps
import Verif.Blitz.ReshapeProps
import Mathlib.Tactic.FieldSimp
import Mathlib.Tactic.Ring
import Mathlib.Tactic.Linarith
import Mathlib.Algebra.Order.Ring.Abs

/-! One-dimensional grids (C27), surface maps (C28) and metric terms (C63). -/

namespace Blitzdg.Nodes1D

open Blitzdg.Sparse

/-! ### C27 -/

section Grid

variable {R : Type} [Field R] [LinearOrder R] [IsStrictOrderedRing R]

/-- **C27.** For every interval, every number of elements and every list of reference nodes beginning with -1 and ending with 1: the
first grid node is the left end point, the last one the right end point, the last node of every element is the first node of the next
one, and all elements have the same width. -/
theorem C27_tiling (xmin xmax : R) (n K : Nat) (hK : 0 < K) (r : List R) (hlen : r.length = n + 1)
    (h0 : r[0]? = some (-1 : R)) (hn : r[n]? = some (1 : R)) :
    (grid xmin xmax K r).rows = n + 1 ∧ (grid xmin xmax K r).cols = K ∧
    (grid xmin xmax K r).at' 0 0 = xmin ∧ (grid xmin xmax K r).at' n (K - 1) = xmax ∧
    (∀ k, k + 1 < K → (grid xmin xmax K r).at' n k = (grid xmin xmax K r).at' 0 (k + 1)) ∧
    ∀ k < K, (grid xmin xmax K r).at' n k - (grid xmin xmax K r).at' 0 k = (xmax - xmin) / K := by
  have hK' : (K : R) ≠ 0 := by exact_mod_cast hK.ne'
  have e0 : r.getD 0 0 = -1 := by simp [List.getD_eq_getElem?_getD, h0]
  have en : r.getD n 0 = 1 := by simp [List.getD_eq_getElem?_getD, hn]
  refine ⟨hlen, rfl, ?_, ?_, ?_, ?_⟩
  · simp [grid, e0, -List.getD_eq_getElem?_getD]
  · obtain ⟨K, rfl⟩ : ∃ k, K = k + 1 := ⟨K - 1, by omega⟩
    simp only [grid, en, Nat.add_sub_cancel]
    push_cast at hK' ⊢
    field_simp
    ring
  · intro k _
    simp only [grid, en, e0]
    push_cast
    ring
  · intro k _
    simp only [grid, en, e0]
    ring

/-- **C27, order.** If the interval is not reversed and the reference nodes strictly increase then so do the nodes of every element. -/
theorem C27_increasing (xmin xmax : R) (hx : xmin < xmax) (K : Nat) (hK : 0 < K) (r : List R) (hr : r.Pairwise (· < ·))
    (i j k : Nat) (hij : i < j) (hj : j < r.length) :
    (grid xmin xmax K r).at' i k < (grid xmin xmax K r).at' j k := by
  have hi : i < r.length := by omega
  have h := List.pairwise_iff_getElem.1 hr i j hi hj hij
  have hK' : (0 : R) < K := by exact_mod_cast hK
  have hw : 0 < (xmax - xmin) / K := div_pos (by linarith) hK'
  simp only [grid, List.getD_eq_getElem?_getD, List.getElem?_eq_getElem hi, List.getElem?_eq_getElem hj, Option.getD_some]
  have : (k : R) + 1 / 2 * (r[i] + 1) < k + 1 / 2 * (r[j] + 1) := by linarith
  have := mul_lt_mul_of_pos_left this hw
  linarith

/-- Three nodes on two elements of [0, 4]. -/
example : ([-1, 0, 1] : List ℚ).Pairwise (· < ·) ∧
    (List.range 2).map (fun k => (List.range 3).map fun i => (grid (0 : ℚ) 4 2 [-1, 0, 1]).at' i k) = [[0, 1, 2], [2, 3, 4]] := by
  decide +kernel

end Grid

/-! ### Loops that fill tables -/

/-- A loop whose `g`-th round stores `val g` at `pos g`, the positions being different. -/
theorem scatter {β σ γ : Type} (step : List β × σ → γ → Out (List β × σ)) (pos : Nat → Nat) (val : Nat → β) (aux : Nat → σ)
    (item : Nat → γ) (n t : Nat)
    (hstep : ∀ l g, g < n → l.length = t → step (l, aux g) (item g) = .ok (l.set (pos g) (val g), aux (g + 1)))
    (hpos : ∀ g < n, pos g < t) (hinj : ∀ g < n, ∀ h < n, pos g = pos h → g = h) (l0 : List β) (hl : l0.length = t) :
    ∃ l, loopM step (l0, aux 0) ((List.range n).map item) = .ok (l, aux n) ∧ l.length = t ∧
      ∀ g < n, l[pos g]? = some (val g) := by
  have gen : ∀ m ≤ n, ∃ l, loopM step (l0, aux 0) ((List.range m).map item) = .ok (l, aux m) ∧ l.length = t ∧
      ∀ g < m, l[pos g]? = some (val g) := by
    intro m hm
    induction m with
    | zero => exact ⟨l0, rfl, hl, by simp⟩
    | succ m ih =>
      obtain ⟨l, h1, h2, h3⟩ := ih (by omega)
      refine ⟨l.set (pos m) (val m), ?_, by simp [h2], ?_⟩
      · rw [List.range_succ, List.map_append, loopM_append, h1, Out.bind_ok, List.map_cons, List.map_nil, loopM_cons,
          hstep l m (by omega) h2, Out.bind_ok, loopM_nil]
      · intro g hg
        rcases Nat.lt_succ_iff_lt_or_eq.1 hg with hg | rfl
        · rw [List.getElem?_set_ne fun h => by have := hinj m (by omega) g (by omega) h; omega]
          exact h3 g hg
        · rw [List.getElem?_set_self (by rw [h2]; exact hpos _ (by omega))]
  exact gen n (le_refl _)

theorem items (K : Nat) : rowMajor K 2 = (List.range (2 * K)).map fun g => (g / 2, g % 2) := Mesh.rowMajor_eq K 2 (by omega)

/-! ### Connectivity -/

/-- The vertex of face `g` (face `g % 2` of element `g / 2`). -/
def vert (g : Nat) : Nat := (g + 1) / 2

theorem vert_eq (g : Nat) : vert g = g / 2 + g % 2 := by unfold vert; omega

theorem e2v_ok (K : Nat) (o : List Nat) (ho : o.length = 2 * K) :
    ∃ e, buildE2V K o = .ok e ∧ e.length = 2 * K ∧ ∀ g < 2 * K, e[g]? = some (vert g) := by
  have gen : ∀ m ≤ K, ∃ e, loopM (fun e k => (do
      let e ← wr e (2 * k) k
      wr e (2 * k + 1) (k + 1) : Out (List Nat))) o (List.range m) = .ok e ∧ e.length = 2 * K ∧
      ∀ g < 2 * m, e[g]? = some (vert g) := by
    intro m hm
    induction m with
    | zero => exact ⟨o, rfl, ho, by simp⟩
    | succ m ih =>
      obtain ⟨e, h1, h2, h3⟩ := ih (by omega)
      refine ⟨(e.set (2 * m) m).set (2 * m + 1) (m + 1), ?_, by simp [h2], ?_⟩
      · rw [List.range_succ, loopM_append, h1, Out.bind_ok, loopM_cons, wr_of_lt (by omega), Out.bind_ok, wr_of_lt (by simp; omega),
          Out.bind_ok, loopM_nil]
      · intro g hg
        by_cases a : g = 2 * m + 1
        · subst a; rw [List.getElem?_set_self (by simp; omega)]; congr 1; unfold vert; omega
        · rw [List.getElem?_set_ne (by omega)]
          by_cases b : g = 2 * m
          · subst b; rw [List.getElem?_set_self (by omega)]; congr 1; unfold vert; omega
          · rw [List.getElem?_set_ne (by omega)]; exact h3 g (by omega)
  exact gen K (le_refl _)

theorem ftov_ok {wrap : Bool} {K : Nat} (hK : 0 < K) {e2v : List Nat}
    (he : ∀ g < 2 * K, e2v[g]? = some (vert g))
    (hov : (K + 1) * (2 * K) ≤ intMax ∨ wrap = true ∧ (K + 1) * (2 * K) % 4294967296 ≠ 0) :
    ∃ c, buildFToV wrap K e2v = .ok c ∧ WF c ((List.range (2 * K)).map fun g => [(vert g, 1)]) ∧ c.m = K + 1 ∧ c.n = 2 * K := by
  have loop : ∀ g ≤ 2 * K, loopM (ftovStep e2v) (spalloc (K + 1) (2 * K) (2 * K), 0) ((List.range g).map fun g => (g / 2, g % 2)) =
      .ok ({ m := K + 1, n := 2 * K, p := ((List.range g).map some) ++ List.replicate (2 * K + 1 - g) none,
             ix := ((List.range g).map fun g => some (vert g, 1)) ++ List.replicate (2 * K - g) none }, g) := by
    intro g hg
    induction g with
    | zero => simp [spalloc]; omega
    | succ g ih =>
      rw [List.range_succ, List.map_append, loopM_append, ih (by omega), Out.bind_ok]
      simp only [List.map_cons, List.map_nil, loopM_cons, loopM_nil]
      have hv : rd [0, 1] (g % 2) = .ok (g % 2) := by
        have : g % 2 < 2 := Nat.mod_lt _ (by omega)
        interval_cases g % 2 <;> rfl
      have hd : g / 2 * 2 + g % 2 = g := by omega
      have hr : rd e2v g = .ok (vert g) := rd_eq_ok.2 (he g (by omega))
      unfold ftovStep
      simp only [hv, Out.bind_ok, hd, hr]
      rw [wr_of_lt (by simp; omega), Out.bind_ok, wr_of_lt (by simp; omega), Out.bind_ok]
      simp only [Out.pure_eq, Out.bind_ok, Out.ok.injEq, Prod.mk.injEq, Csc.mk.injEq, true_and, and_true]
      constructor
      · obtain ⟨f, hf⟩ : ∃ f, 2 * K + 1 - g = f + 1 := ⟨2 * K - g, by omega⟩
        have hf' : 2 * K + 1 - (g + 1) = f := by omega
        rw [hf, hf', List.replicate_succ, List.set_append_right _ _ (by simp)]
        simp
      · obtain ⟨f, hf⟩ : ∃ f, 2 * K - g = f + 1 := ⟨2 * K - g - 1, by omega⟩
        have hf' : 2 * K - (g + 1) = f := by omega
        rw [hf, hf', List.replicate_succ, List.set_append_right _ _ (by simp)]
        simp
  have hfl : ∀ n, ((List.range n).map fun g => [(vert g, 1)]).flatten = (List.range n).map fun g => (vert g, 1) := by
    intro n
    induction n with
    | zero => rfl
    | succ n ih => rw [List.range_succ, List.map_append, List.flatten_append, ih]; simp
  refine ⟨{ m := K + 1, n := 2 * K, p := (List.range (2 * K + 1)).map some, ix := (List.range (2 * K)).map fun g => some (vert g, 1) },
    ?_, ?_, rfl, rfl⟩
  · unfold buildFToV
    rw [Mesh.cscAlloc_ok (by omega) (by omega) hov, Out.bind_ok, items, loop _ (le_refl _), Out.bind_ok]
    simp only
    rw [wr_of_lt (by simp), Out.bind_ok]
    simp only [Out.pure_eq, Out.ok.injEq, Csc.mk.injEq, true_and]
    rw [Nat.add_sub_cancel_left, Nat.sub_self, List.set_append_right _ _ (by simp), List.range_succ]
    simp
  · constructor
    · simp
    · simp
    · intro j hj
      have hj' : j < 2 * K + 1 := by simp only at hj; omega
      rw [← List.map_take, ← List.map_take, List.take_range, Nat.min_eq_left (by omega), ← List.length_flatten, hfl]
      simp [hj']
    · simp only [hfl]
      rw [List.take_of_length_le (by simp)]
      simp
    · intro col hcol e he
      simp only [List.mem_map, List.mem_range] at hcol
      obtain ⟨g, hg, rfl⟩ := hcol
      simp only [List.mem_singleton] at he
      subst he
      simp only [vert]
      omega

/-- The face on the other side of the interior face `j`. -/
def partner (j : Nat) : Nat := if j % 2 = 1 then j + 1 else j - 1

theorem ftof_ok {wrap : Bool} {K : Nat} (hK : 0 < K) {e2v : List Nat}
    (he : ∀ g < 2 * K, e2v[g]? = some (vert g))
    (hov : (K + 1) * (2 * K) ≤ intMax ∨ wrap = true ∧ (K + 1) * (2 * K) % 4294967296 ≠ 0) :
    ∃ ftov t ftof cols, buildFToV wrap K e2v = .ok ftov ∧ transpose ftov = .ok t ∧ multiply t ftov = .ok ftof ∧
      WF ftof cols ∧ cols.length = 2 * K ∧ (∀ col ∈ cols, (col.map Prod.fst).Nodup) ∧
      ∀ j (hj : j < cols.length), ∀ i, (i, 1) ∈ cols[j] ↔ i < 2 * K ∧ vert i = vert j := by
  obtain ⟨ftov, e1, w1, m1, n1⟩ := ftov_ok hK he hov
  obtain ⟨t, tcols, e2, w2, m2, n2, val2, _, _⟩ := C07_transpose ftov _ w1
  have cv : ∀ g i, colVal [(vert g, 1)] i = if vert g = i then 1 else 0 := by
    intro g i; unfold colVal; by_cases h : vert g = i <;> simp [h]
  let M : Nat → Nat → Nat := fun i j => if vert j = i then 1 else 0
  have r1 : Represents ftov M := ⟨_, w1, fun i j hj => by simp [M, cv]⟩
  have len2 := w2.ncols
  have r2 : Represents t (fun i j => if i < 2 * K then M j i else 0) := by
    refine ⟨_, w2, fun i j hj => ?_⟩
    by_cases hi : i < 2 * K
    · have := val2 j i hj (by simpa using hi)
      simp only [hi, if_true, this, M]
      simp [cv]
    · simp only [if_neg hi]
      unfold colVal
      rw [List.filter_eq_nil_iff.2]
      · rfl
      · intro e he hc
        have := w2.rows _ (List.getElem_mem hj) e he
        rw [m2, n1] at this
        have : e.1 = i := by simpa using hc
        omega
  obtain ⟨ftof, cols, e3, w3, m3, n3, nd3, ⟨cols', w3', val3⟩⟩ := C08_multiply t ftov _ _ w2 w1 _ _ r2 r1 (by rw [n2])
  have hfc : cols' = cols := by
    have a := w3.readCols; rw [w3'.readCols] at a; exact Option.some.inj a
  subst hfc
  refine ⟨ftov, t, ftof, cols', e1, e2, e3, w3, by rw [w3.ncols, n3, n1], nd3, ?_⟩
  intro j hj i
  have hj' : j < 2 * K := by rw [w3.ncols, n3, n1] at hj; exact hj
  rw [← Mesh.colVal_nodup (nd3 _ (List.getElem_mem hj)) (by omega : (1 : Nat) ≠ 0), val3 i j hj]
  by_cases hi : i < 2 * K
  · simp only [hi, if_true, true_and, M, n2, m1, ite_mul, one_mul, zero_mul]
    rw [Finset.sum_ite_eq, if_pos (Finset.mem_range.2 (by unfold vert; omega))]
    by_cases h : vert j = vert i
    · rw [if_pos h]; simp [h]
    · rw [if_neg h]; simp [Ne.symm h]
  · simp [hi]

theorem connStep_filter (j : Nat) (col : List (Nat × Nat)) (s : List Nat × List Nat × Nat) :
    loopM (connStep j) s col = loopM (connStep j) s (col.filter fun e => e.1 ≠ j ∧ e.2 = 1) := by
  induction col generalizing s with
  | nil => rfl
  | cons e col ih =>
    by_cases h : e.1 ≠ j ∧ e.2 = 1
    · rw [List.filter_cons_of_pos (by simpa using h), loopM_cons, loopM_cons]
      cases connStep j s e with
      | ok s' => simp only [Out.bind_ok]; exact ih s'
      | throws => rfl
      | ub => rfl
    · rw [List.filter_cons_of_neg (by simpa using h), loopM_cons, connStep, if_neg h]
      exact ih s

theorem connections_ok {K : Nat} (hK : 0 < K) {ftof : Csc Nat} {cols} (w : WF ftof cols) (hlen : cols.length = 2 * K)
    (nd : ∀ col ∈ cols, (col.map Prod.fst).Nodup)
    (hm : ∀ j (hj : j < cols.length), ∀ i, (i, 1) ∈ cols[j] ↔ i < 2 * K ∧ vert i = vert j) :
    connections K ftof = .ok ((List.range (2 * K - 2)).map fun c => partner (c + 1), (List.range (2 * K - 2)).map fun c => c + 1, 2 * K - 2) := by
  have gen : ∀ j ≤ 2 * K, loopM (connCol ftof) (List.replicate (2 * K - 2) 0, List.replicate (2 * K - 2) 0, 0) (List.range j) =
      .ok (((List.range (min (j - 1) (2 * K - 2))).map fun c => partner (c + 1)) ++ List.replicate (2 * K - 2 - min (j - 1) (2 * K - 2)) 0,
           ((List.range (min (j - 1) (2 * K - 2))).map fun c => c + 1) ++ List.replicate (2 * K - 2 - min (j - 1) (2 * K - 2)) 0,
           min (j - 1) (2 * K - 2)) := by
    intro j hj
    induction j with
    | zero => simp
    | succ j ih =>
      have hjl : j < cols.length := by omega
      rw [List.range_succ, loopM_append, ih (by omega), Out.bind_ok, loopM_cons, connCol, w.readCol hjl]
      simp only [loopM_nil]
      rw [connStep_filter]
      have nodf : ((cols[j]).filter fun e => e.1 ≠ j ∧ e.2 = 1).Nodup :=
        (List.Nodup.of_map _ (nd _ (List.getElem_mem hjl))).filter _
      have memf : ∀ e, e ∈ (cols[j]).filter (fun e => e.1 ≠ j ∧ e.2 = 1) ↔ (e.2 = 1 ∧ e.1 < 2 * K ∧ vert e.1 = vert j ∧ e.1 ≠ j) := by
        rintro ⟨a, b⟩
        simp only [List.mem_filter, decide_eq_true_eq]
        constructor
        · rintro ⟨h1, h2, rfl⟩
          exact ⟨rfl, ((hm j hjl a).1 h1).1, ((hm j hjl a).1 h1).2, h2⟩
        · rintro ⟨rfl, h2, h3, h4⟩
          exact ⟨(hm j hjl a).2 ⟨h2, h3⟩, h4, rfl⟩
      by_cases hin : 1 ≤ j ∧ j ≤ 2 * K - 2
      · have hf : (cols[j]).filter (fun e => e.1 ≠ j ∧ e.2 = 1) = [(partner j, 1)] := by
          apply List.perm_singleton.1
          rw [List.perm_ext_iff_of_nodup nodf (List.nodup_singleton _)]
          rintro ⟨a, b⟩
          rw [memf, List.mem_singleton, Prod.mk.injEq]
          simp only [vert, partner]
          constructor
          · rintro ⟨rfl, h2, h3, h4⟩
            refine ⟨?_, rfl⟩
            split_ifs <;> omega
          · rintro ⟨rfl, rfl⟩
            refine ⟨rfl, ?_, ?_, ?_⟩ <;> split_ifs <;> omega
        have hmin : min (j - 1) (2 * K - 2) = j - 1 := by omega
        have hmin' : min (j + 1 - 1) (2 * K - 2) = j := by omega
        rw [hf, hmin, hmin']
        simp only [loopM_cons, loopM_nil, connStep]
        rw [if_pos ⟨by unfold partner; split_ifs <;> omega, trivial⟩, wr_of_lt (by simp; omega), Out.bind_ok,
          wr_of_lt (by simp; omega), Out.bind_ok]
        simp only [Out.pure_eq, Out.bind_ok, Out.ok.injEq, Prod.mk.injEq]
        obtain ⟨f, hf⟩ : ∃ f, 2 * K - 2 - (j - 1) = f + 1 := ⟨2 * K - 2 - j, by omega⟩
        have hf' : 2 * K - 2 - j = f := by omega
        obtain ⟨i, rfl⟩ : ∃ i, j = i + 1 := ⟨j - 1, by omega⟩
        simp only [Nat.add_sub_cancel] at hf ⊢
        rw [hf, hf', List.replicate_succ, List.set_append_right _ _ (by simp), List.set_append_right _ _ (by simp), List.range_succ]
        simp
      · have hf : (cols[j]).filter (fun e => e.1 ≠ j ∧ e.2 = 1) = [] := by
          rw [List.eq_nil_iff_forall_not_mem]
          intro e he
          obtain ⟨_, h2, h3, h4⟩ := (memf e).1 he
          simp only [vert] at h3
          omega
        have hmin' : min (j + 1 - 1) (2 * K - 2) = min (j - 1) (2 * K - 2) := by omega
        rw [hf, hmin', loopM_nil, Out.bind_ok]
  have h := gen (2 * K) (le_refl _)
  have hmin : min (2 * K - 1) (2 * K - 2) = 2 * K - 2 := by omega
  rw [hmin, Nat.sub_self] at h
  simpa [connections] using h

theorem connect_eq (f1 f2 : List Nat) (cs : List (Nat × Nat)) (h1 : f1 = cs.map Prod.fst) (h2 : f2 = cs.map Prod.snd)
    (s : List Nat × List Nat) : loopM (connect f1 f2) s (List.range cs.length) = loopM (Mesh.connect 2) s cs := by
  have gen : ∀ n ≤ cs.length, ∀ s, loopM (connect f1 f2) s (List.range n) = loopM (Mesh.connect 2) s (cs.take n) := by
    intro n hn
    induction n with
    | zero => intro s; rfl
    | succ n ih =>
      intro s
      have hn' : n < cs.length := by omega
      rw [List.range_succ, loopM_append, ih (by omega), List.take_succ_eq_append_getElem hn', loopM_append]
      congr 1
      funext s'
      simp only [loopM_cons, connect, h1, h2]
      rw [rd_of_lt (by simpa using hn'), Out.bind_ok, rd_of_lt (by simpa using hn'), Out.bind_ok]
      simp [Mesh.connect]
  have := gen cs.length (le_refl _) s
  rwa [List.take_length] at this

/-- The face on the other side of `g`, or `g` itself at the two ends of the interval. -/
def across (K g : Nat) : Nat := if g = 0 ∨ g = 2 * K - 1 then g else partner g

theorem conn_ok {wrap : Bool} {K : Nat} (hK : 0 < K) {e2v e2e e2f : List Nat}
    (he : ∀ g < 2 * K, e2v[g]? = some (vert g)) (hE : e2e.length = 2 * K) (hF : e2f.length = 2 * K)
    (hov : (K + 1) * (2 * K) ≤ intMax ∨ wrap = true ∧ (K + 1) * (2 * K) % 4294967296 ≠ 0) :
    ∃ E F, buildConnectivity wrap K e2v e2e e2f = .ok (E, F) ∧ E.length = 2 * K ∧ F.length = 2 * K ∧
      ∀ g < 2 * K, E[g]? = some (across K g / 2) ∧ F[g]? = some (across K g % 2) := by
  obtain ⟨ftov, t, ftof, cols, e1, e2, e3, w, hlen, nd, hm⟩ := ftof_ok hK he hov
  have e4 := connections_ok hK w hlen nd hm
  have hd := Mesh.defaults_ok (nf := 2) e2e e2f hE hF (2 * K) (le_refl _)
  rw [List.drop_of_length_le (by omega), List.drop_of_length_le (by omega), List.append_nil, List.append_nil] at hd
  have hdef : defaults = Mesh.defaults 2 := rfl
  let cs := (List.range (2 * K - 2)).map fun c => (partner (c + 1), c + 1)
  have hcs : ∀ c ∈ cs, c.1 < 2 * K := by
    intro c hc
    simp only [cs, List.mem_map, List.mem_range] at hc
    obtain ⟨a, ha, rfl⟩ := hc
    simp only [partner]
    split_ifs <;> omega
  obtain ⟨E, F, e5, l1, l2, hh⟩ := Mesh.connect_ok (nf := 2) cs hcs
  refine ⟨E, F, ?_, l1, l2, ?_⟩
  · rw [buildConnectivity, e1, Out.bind_ok, e2, Out.bind_ok, e3, Out.bind_ok, e4, Out.bind_ok, items]
    simp only [hdef]
    rw [hd, Out.bind_ok, ← e5]
    have := connect_eq (cs.map Prod.fst) (cs.map Prod.snd) cs rfl rfl
      ((List.range (2 * K)).map (· / 2), (List.range (2 * K)).map (· % 2))
    rw [← this]
    simp [cs, Function.comp_def]
  · intro g hg
    obtain ⟨h, h1, h2, h3⟩ := hh g hg
    have : h = across K g := by
      simp only [cs, List.mem_map, List.mem_range] at h3
      unfold across partner at *
      rcases h3 with ⟨rfl, h3⟩ | ⟨c, hc, h4⟩
      · split_ifs with ha hb
        · rfl
        · exfalso
          refine h3 ((if (h + 1) % 2 = 1 then h + 1 + 1 else h + 1 - 1), h + 1) ⟨h, by omega, rfl⟩ ?_
          simp only; split_ifs <;> omega
        · exfalso
          refine h3 ((if (h - 1) % 2 = 1 then h - 1 + 1 else h - 1 - 1), h - 1) ⟨h - 2, by omega, ?_⟩ ?_
          · have : h - 2 + 1 = h - 1 := by omega
            rw [this]
          · simp only; split_ifs <;> omega
      · rw [Prod.mk.injEq] at h4
        obtain ⟨h4, h5⟩ := h4
        split_ifs at h4 ⊢ <;> omega
    rw [this] at h1 h2
    rw [← h1, ← h2]
    have a1 : g < E.length := by omega
    have a2 : g < F.length := by omega
    simp [a1, a2]

/-! ### C28 -/

section Maps

variable {R : Type} [Field R] [LinearOrder R] [IsStrictOrderedRing R]

/-- The global number of the node of face `g` in elements with `n + 1` nodes: the first or the last node of the element. -/
def faceNode (n g : Nat) : Nat := if g % 2 = 0 then g / 2 * (n + 1) else g / 2 * (n + 1) + n

theorem fmask_get (n g : Nat) : rd (fmask (n + 1)) (g % 2) = .ok (if g % 2 = 0 then 0 else n) := by
  have : g % 2 < 2 := Nat.mod_lt _ (by omega)
  interval_cases g % 2 <;> rfl

theorem vmapM_ok (n K : Nat) : ∃ vm, loopM (vmapMStep (n + 1)) (List.replicate (2 * K) 0, 0) (rowMajor K 2) = .ok (vm, 2 * K) ∧
    vm.length = 2 * K ∧ ∀ g < 2 * K, vm[g]? = some (faceNode n g) := by
  rw [items]
  refine scatter _ (fun g => g) (faceNode n) (fun g => g) _ (2 * K) (2 * K) ?_ (fun g hg => hg) (fun _ _ _ _ h => h) _ (by simp)
  intro l g hg hl
  simp only [vmapMStep, fmask_get, Out.bind_ok]
  rw [wr_of_lt (by omega), Out.bind_ok]
  simp only [Out.pure_eq, Out.ok.injEq, Prod.mk.injEq, and_true, faceNode]
  congr 1
  split_ifs <;> ring

theorem across_lt {K g : Nat} (hg : g < 2 * K) : across K g < 2 * K := by
  unfold across partner; split_ifs <;> omega

theorem across_across {K g : Nat} (hg : g < 2 * K) : across K (across K g) = g := by
  by_cases h0 : g = 0 ∨ g = 2 * K - 1
  · simp only [across, if_pos h0]
  · by_cases h1 : g % 2 = 1
    · have e : across K g = g + 1 := by simp only [across, if_neg h0, partner, if_pos h1]
      rw [e, across, if_neg (by omega), partner, if_neg (by omega), Nat.add_sub_cancel]
    · have e : across K g = g - 1 := by simp only [across, if_neg h0, partner, if_neg h1]
      rw [e, across, if_neg (by omega), partner, if_pos (by omega)]
      omega

theorem faceNode_lt {n K g : Nat} (hg : g < 2 * K) : faceNode n g < (n + 1) * K := by
  have h : g / 2 + 1 ≤ K := by omega
  have h2 := Nat.mul_le_mul_right (n + 1) h
  have h3 : (g / 2 + 1) * (n + 1) = g / 2 * (n + 1) + n + 1 := by ring
  rw [h3, Nat.mul_comm K] at h2
  unfold faceNode; split_ifs <;> omega

theorem grid_face (xmin xmax : R) (n K : Nat) (r : List R)
    (h0 : r[0]? = some (-1 : R)) (hn : r[n]? = some (1 : R)) (g : Nat) :
    (grid xmin xmax K r).at' (if g % 2 = 0 then 0 else n) (g / 2) = xmin + (xmax - xmin) / K * (vert g : Nat) := by
  have e0 : r.getD 0 0 = -1 := by rw [List.getD_eq_getElem?_getD, h0]; rfl
  have en : r.getD n 0 = 1 := by rw [List.getD_eq_getElem?_getD, hn]; rfl
  rw [vert_eq]
  have hm : g % 2 = 0 ∨ g % 2 = 1 := by omega
  rcases hm with hm | hm
  · simp only [grid, hm, if_true, e0]
    push_cast; ring
  · simp only [grid, hm]
    push_cast
    simp only [en]
    ring

theorem vert_across (K g : Nat) : vert (across K g) = vert g := by
  unfold across partner vert; split_ifs <;> omega

/-- The nodes of faces `g` and `across g` have the same coordinate. -/
theorem grid_across (xmin xmax : R) (n K : Nat) (r : List R)
    (h0 : r[0]? = some (-1 : R)) (hn : r[n]? = some (1 : R)) (g : Nat) :
    (grid xmin xmax K r).at' (if across K g % 2 = 0 then 0 else n) (across K g / 2) =
      (grid xmin xmax K r).at' (if g % 2 = 0 then 0 else n) (g / 2) := by
  rw [grid_face xmin xmax n K r h0 hn, grid_face xmin xmax n K r h0 hn, vert_across K g]

theorem maps_ok (tol : R) (htol : 0 < tol) (xmin xmax : R) (n K : Nat) (r : List R) (hlen : r.length = n + 1)
    (h0 : r[0]? = some (-1 : R)) (hn : r[n]? = some (1 : R)) {E F : List Nat}
    (hE : ∀ g < 2 * K, E[g]? = some (across K g / 2) ∧ F[g]? = some (across K g % 2)) :
    ∃ vm vp, buildMaps tol (n + 1) K (grid xmin xmax K r) E F = .ok (vm, vp) ∧ vm.length = 2 * K ∧ vp.length = 2 * K ∧
      ∀ g < 2 * K, vm[g]? = some (faceNode n g) ∧ vp[g]? = some (faceNode n (across K g)) := by
  obtain ⟨x, x1, x2, x3, _⟩ := Blitz.C10_flatten (grid xmin xmax K r) (List.replicate (K * (n + 1)) 0) false
    (by simp [grid, hlen, Nat.mul_comm])
  obtain ⟨vm, v1, v2, v3⟩ := vmapM_ok n K
  have hxg : ∀ g < 2 * K, rd x (faceNode n g) = .ok ((grid xmin xmax K r).at' (if g % 2 = 0 then 0 else n) (g / 2)) := by
    intro g hg
    rw [rd_eq_ok]
    have := x3 (if g % 2 = 0 then 0 else n) (g / 2) (by show _ < r.length; split_ifs <;> omega) (by show _ < K; omega)
    rw [← this]
    congr 1
    simp only [Blitz.pos, faceNode, grid, hlen]
    simp only [Bool.false_eq_true, if_false]
    split_ifs <;> omega
  obtain ⟨vp, p1, p2, p3⟩ := scatter (vmapPStep tol x E F vm) (fun g => g) (fun g => faceNode n (across K g)) (fun g => g)
    (fun g => (g / 2, g % 2)) (2 * K) (2 * K) (by
      intro l g hg hl
      have hd : g / 2 * 2 + g % 2 = g := by omega
      have ha := across_lt hg
      have hd' : across K g / 2 * 2 + across K g % 2 = across K g := by omega
      simp only [vmapPStep, hd]
      rw [rd_eq_ok.2 (hE g hg).1, Out.bind_ok, rd_eq_ok.2 (hE g hg).2, Out.bind_ok, rd_eq_ok.2 (v3 g hg), Out.bind_ok, hd',
        rd_eq_ok.2 (v3 _ ha), Out.bind_ok, hxg g hg, Out.bind_ok, hxg _ ha, Out.bind_ok,
        grid_across xmin xmax n K r h0 hn g, sub_self, abs_zero, if_pos htol, wr_of_lt (by omega)]
      rfl) (fun g hg => hg) (fun _ _ _ _ h => h) (List.replicate (2 * K) 0) (by simp)
  refine ⟨vm, vp, ?_, v2, p2, fun g hg => ⟨v3 g hg, p3 g hg⟩⟩
  rw [← items] at p1
  simp only [buildMaps, x1, Out.bind_ok, v1, p1, Out.pure_eq]

omit [LinearOrder R] [IsStrictOrderedRing R] in
theorem normals_ok (K : Nat) (o : List R) (ho : o.length = 2 * K) :
    ∃ nx, buildNormals K o = .ok nx ∧ nx.length = 2 * K ∧ ∀ k < K, nx[k]? = some (-1 : R) ∧ nx[K + k]? = some (1 : R) := by
  obtain ⟨l, l1, l2, l3⟩ := scatter (fun (s : List R × R) (kf : Nat × Nat) => (do
    let t ← wr s.1 (kf.2 * K + kf.1) s.2
    pure (t, s.2 * -1) : Out (List R × R))) (fun g => g % 2 * K + g / 2) (fun g => if g % 2 = 0 then -1 else 1)
    (fun g => if g % 2 = 0 then -1 else 1) (fun g => (g / 2, g % 2)) (2 * K) (2 * K) (by
      intro l g hg hl
      have hm : g % 2 = 0 ∨ g % 2 = 1 := by omega
      rcases hm with hm | hm
      · have hm' : (g + 1) % 2 = 1 := by omega
        simp only [hm, hm', if_true]
        rw [wr_of_lt (by omega), Out.bind_ok]
        simp
      · have hm' : (g + 1) % 2 = 0 := by omega
        simp only [hm, hm', if_true]
        rw [wr_of_lt (by omega), Out.bind_ok]
        simp)
    (by intro g hg
        have hm : g % 2 = 0 ∨ g % 2 = 1 := by omega
        rcases hm with hm | hm <;> simp only [hm] <;> omega)
    (by intro g hg h hh he
        have hm : g % 2 = 0 ∨ g % 2 = 1 := by omega
        have hm' : h % 2 = 0 ∨ h % 2 = 1 := by omega
        rcases hm with hm | hm <;> rcases hm' with hm' | hm' <;> simp only [hm, hm'] at he <;> omega)
    o ho
  refine ⟨l, ?_, l2, fun k hk => ⟨?_, ?_⟩⟩
  · rw [buildNormals, items]
    have e0 : (if 0 % 2 = 0 then (-1 : R) else 1) = -1 := if_pos rfl
    rw [e0] at l1
    rw [l1]
    rfl
  · have := l3 (2 * k) (by omega)
    have a : 2 * k % 2 = 0 := by omega
    have b : 2 * k / 2 = k := by omega
    simpa [a, b] using this
  · have := l3 (2 * k + 1) (by omega)
    have a : (2 * k + 1) % 2 = 1 := by omega
    have b : (2 * k + 1) / 2 = k := by omega
    simpa [a, b] using this

omit [Field R] [LinearOrder R] [IsStrictOrderedRing R] in
theorem fx_ok (n K : Nat) (x : DMat R) (o : List R) (ho : o.length = 2 * K) :
    ∃ fx, buildFx (n + 1) K x o = .ok fx ∧ fx.length = 2 * K ∧ ∀ k < K, fx[k]? = some (x.at' 0 k) ∧ fx[K + k]? = some (x.at' n k) := by
  have gen : ∀ m ≤ 2 * K, ∃ l, loopM (fun t (kf : Nat × Nat) => (do
      let m ← rd (fmask (n + 1)) kf.2
      wr t (kf.2 * K + kf.1) (x.at' m kf.1) : Out (List R))) o ((List.range m).map fun g => (g / 2, g % 2)) = .ok l ∧ l.length = 2 * K ∧
      ∀ g < m, l[g % 2 * K + g / 2]? = some (x.at' (if g % 2 = 0 then 0 else n) (g / 2)) := by
    intro m hm
    induction m with
    | zero => exact ⟨o, rfl, ho, by simp⟩
    | succ m ih =>
      obtain ⟨l, h1, h2, h3⟩ := ih (by omega)
      have hlt : ∀ g < 2 * K, g % 2 * K + g / 2 < 2 * K := by
        intro g hg
        have hm : g % 2 = 0 ∨ g % 2 = 1 := by omega
        rcases hm with hm | hm <;> simp only [hm] <;> omega
      refine ⟨l.set (m % 2 * K + m / 2) (x.at' (if m % 2 = 0 then 0 else n) (m / 2)), ?_, by simp [h2], ?_⟩
      · rw [List.range_succ, List.map_append, loopM_append, h1, Out.bind_ok, List.map_cons, List.map_nil, loopM_cons]
        simp only [fmask_get, Out.bind_ok]
        rw [wr_of_lt (by rw [h2]; exact hlt m (by omega))]
        rfl
      · intro g hg
        rcases Nat.lt_succ_iff_lt_or_eq.1 hg with hg' | rfl
        · rw [List.getElem?_set_ne ?_]
          · exact h3 g hg'
          · have hm : g % 2 = 0 ∨ g % 2 = 1 := by omega
            have hm' : m % 2 = 0 ∨ m % 2 = 1 := by omega
            rcases hm with hm | hm <;> rcases hm' with hm' | hm' <;> simp only [hm, hm'] <;> omega
        · rw [List.getElem?_set_self (by rw [h2]; exact hlt _ (by omega))]
  obtain ⟨l, h1, h2, h3⟩ := gen (2 * K) (le_refl _)
  refine ⟨l, by rw [buildFx, items]; exact h1, h2, fun k hk => ⟨?_, ?_⟩⟩
  · have := h3 (2 * k) (by omega)
    have a : 2 * k % 2 = 0 := by omega
    have b : 2 * k / 2 = k := by omega
    simpa [a, b] using this
  · have := h3 (2 * k + 1) (by omega)
    have a : (2 * k + 1) % 2 = 1 := by omega
    have b : (2 * k + 1) / 2 = k := by omega
    simpa [a, b] using this

/-- The tables have the sizes allocated by the constructor (lines 44-54). -/
structure Sized (o : Tables R) (K : Nat) : Prop where
  e2v : o.e2v.length = 2 * K
  e2e : o.e2e.length = 2 * K
  e2f : o.e2f.length = 2 * K
  fx : o.fx.length = 2 * K
  nx : o.nx.length = 2 * K

/-- **C28.** For every order `n ≥ 1`, number of elements, interval, tolerance and previous contents of the tables, with reference nodes
from -1 to 1, `buildNodes` succeeds without undefined behaviour and
* element `k` has the vertices `k`, `k+1`; its left neighbour (face 0) is face 1 of element `k-1`, its right neighbour (face 1) is face 0
  of element `k+1`, and the two end faces are connected to themselves;
* `vmapM` lists the first and last node of each element in order;
* `vmapP` of the right face of element `k` is the first node of element `k+1`, of the left face of element `k+1` the last node of `k`,
  and at the two ends it equals `vmapM`; there `vmapM` is `vmapI`, `vmapO` at positions `mapI`, `mapO`;
* the coordinates at `vmapM` and `vmapP` coincide at every face;
* the face coordinates are those of the end nodes and the normals are -1 at left and 1 at right faces.
The size hypothesis excludes products `(K+1) * 2K` which overflow `int` (or, on a wrapping machine, wrap to 0). -/
theorem C28_maps_partial (wrap : Bool) (tol xmin xmax : R) (htol : 0 < tol) (n K : Nat) (hK : 0 < K) (r : List R)
    (hlen : r.length = n + 1) (h0 : r[0]? = some (-1 : R)) (hn : r[n]? = some (1 : R)) (o : Tables R) (ho : Sized o K)
    (hov : (K + 1) * (2 * K) ≤ intMax ∨ wrap = true ∧ (K + 1) * (2 * K) % 4294967296 ≠ 0) :
    ∃ t, buildNodes wrap tol xmin xmax K r o = .ok t ∧ t.x = grid xmin xmax K r ∧
      (∀ k < K, t.e2v[2 * k]? = some k ∧ t.e2v[2 * k + 1]? = some (k + 1)) ∧
      (∀ k, k + 1 < K → t.e2e[2 * k + 1]? = some (k + 1) ∧ t.e2f[2 * k + 1]? = some 0 ∧
        t.e2e[2 * (k + 1)]? = some k ∧ t.e2f[2 * (k + 1)]? = some 1) ∧
      (t.e2e[0]? = some 0 ∧ t.e2f[0]? = some 0 ∧ t.e2e[2 * (K - 1) + 1]? = some (K - 1) ∧ t.e2f[2 * (K - 1) + 1]? = some 1) ∧
      t.vmapM.length = 2 * K ∧ t.vmapP.length = 2 * K ∧
      (∀ k < K, t.vmapM[2 * k]? = some (k * (n + 1)) ∧ t.vmapM[2 * k + 1]? = some (k * (n + 1) + n)) ∧
      (∀ k, k + 1 < K → t.vmapP[2 * k + 1]? = some ((k + 1) * (n + 1)) ∧ t.vmapP[2 * (k + 1)]? = some (k * (n + 1) + n)) ∧
      (∃ i o vi vo : Nat, mapIO n K = ((i : Int), (o : Int), (vi : Int), (vo : Int)) ∧ i = 0 ∧ o = 2 * (K - 1) + 1 ∧
        t.vmapM[i]? = some vi ∧ t.vmapP[i]? = some vi ∧ t.vmapM[o]? = some vo ∧ t.vmapP[o]? = some vo) ∧
      (∀ g < 2 * K, ∃ a b, t.vmapM[g]? = some a ∧ t.vmapP[g]? = some b ∧ a < (n + 1) * K ∧ b < (n + 1) * K ∧
        t.x.at' (a % (n + 1)) (a / (n + 1)) = t.x.at' (b % (n + 1)) (b / (n + 1))) ∧
      (t.fx.length = 2 * K ∧ ∀ k < K, t.fx[k]? = some (t.x.at' 0 k) ∧ t.fx[K + k]? = some (t.x.at' n k)) ∧
      (t.nx.length = 2 * K ∧ ∀ k < K, t.nx[k]? = some (-1 : R) ∧ t.nx[K + k]? = some (1 : R)) := by
  obtain ⟨e2v, a1, a2, a3⟩ := e2v_ok K o.e2v ho.e2v
  obtain ⟨E, F, b1, b2, b3, b4⟩ := conn_ok (wrap := wrap) hK a3 ho.e2e ho.e2f hov
  obtain ⟨fx, c1, c2, c3⟩ := fx_ok n K (grid xmin xmax K r) o.fx ho.fx
  obtain ⟨vm, vp, d1, d2, d3, d4⟩ := maps_ok tol htol xmin xmax n K r hlen h0 hn b4
  obtain ⟨nx, f1, f2, f3⟩ := normals_ok K o.nx ho.nx
  refine ⟨⟨grid xmin xmax K r, e2v, E, F, fx, vm, vp, nx⟩, ?_, rfl, ?_, ?_, ?_, d2, d3, ?_, ?_, ?_, ?_, ⟨c2, c3⟩, ⟨f2, f3⟩⟩
  · simp only [buildNodes, a1, Out.bind_ok, b1, hlen, c1, d1, f1, Out.pure_eq]
  · intro k hk
    simp only
    rw [a3 _ (by omega), a3 _ (by omega)]
    simp only [vert, Option.some.injEq]
    omega
  · intro k hk
    obtain ⟨x1, x2⟩ := b4 (2 * k + 1) (by omega)
    obtain ⟨x3, x4⟩ := b4 (2 * (k + 1)) (by omega)
    simp only
    have y1 : across K (2 * k + 1) = 2 * (k + 1) := by rw [across, if_neg (by omega), partner, if_pos (by omega)]; omega
    have y2 : across K (2 * (k + 1)) = 2 * k + 1 := by rw [across, if_neg (by omega), partner, if_neg (by omega)]; omega
    rw [x1, x2, x3, x4, y1, y2]
    simp only [Option.some.injEq]
    omega
  · obtain ⟨x1, x2⟩ := b4 0 (by omega)
    obtain ⟨x3, x4⟩ := b4 (2 * (K - 1) + 1) (by omega)
    simp only
    have y1 : across K 0 = 0 := by simp [across]
    have y2 : across K (2 * (K - 1) + 1) = 2 * (K - 1) + 1 := by unfold across; rw [if_pos (by omega)]
    rw [x1, x2, x3, x4, y1, y2]
    refine ⟨rfl, rfl, ?_, ?_⟩ <;> congr 1 <;> omega
  · intro k hk
    simp only
    rw [(d4 _ (by omega)).1, (d4 _ (by omega)).1]
    have e1 : 2 * k % 2 = 0 := by omega
    have e2 : (2 * k + 1) % 2 = 1 := by omega
    have e3 : 2 * k / 2 = k := by omega
    have e4 : (2 * k + 1) / 2 = k := by omega
    simp [faceNode, e1, e2, e3, e4]
  · intro k hk
    simp only
    rw [(d4 _ (by omega)).2, (d4 _ (by omega)).2]
    have e1 : across K (2 * k + 1) = 2 * (k + 1) := by rw [across, if_neg (by omega), partner, if_pos (by omega)]; omega
    have e2 : across K (2 * (k + 1)) = 2 * k + 1 := by rw [across, if_neg (by omega), partner, if_neg (by omega)]; omega
    have e3 : 2 * (k + 1) % 2 = 0 := by omega
    have e4 : (2 * k + 1) % 2 = 1 := by omega
    have e5 : 2 * (k + 1) / 2 = k + 1 := by omega
    have e6 : (2 * k + 1) / 2 = k := by omega
    rw [e1, e2]
    simp [faceNode, e3, e4, e5, e6]
  · have e1 : across K 0 = 0 := by simp [across]
    have e2 : across K (2 * (K - 1) + 1) = 2 * (K - 1) + 1 := by unfold across; rw [if_pos (by omega)]
    have e3 : (2 * (K - 1) + 1) % 2 = 1 := by omega
    have e4 : (2 * (K - 1) + 1) / 2 = K - 1 := by omega
    obtain ⟨x1, x2⟩ := d4 0 (by omega)
    obtain ⟨x3, x4⟩ := d4 (2 * (K - 1) + 1) (by omega)
    rw [e1] at x2
    rw [e2] at x4
    refine ⟨0, 2 * (K - 1) + 1, 0, (K - 1) * (n + 1) + n, ?_, rfl, rfl, ?_, ?_, ?_, ?_⟩
    · obtain ⟨K, rfl⟩ : ∃ k, K = k + 1 := ⟨K - 1, by omega⟩
      simp only [mapIO, Nat.add_sub_cancel, Prod.mk.injEq]
      push_cast
      refine ⟨trivial, by ring, trivial, by ring⟩
    · simpa [faceNode] using x1
    · simpa [faceNode] using x2
    · rw [x3]; simp [faceNode, e3, e4]
    · rw [x4]; simp [faceNode, e3, e4]
  · intro g hg
    refine ⟨_, _, (d4 g hg).1, (d4 g hg).2, faceNode_lt hg, faceNode_lt (across_lt hg), ?_⟩
    have key : ∀ g, faceNode n g % (n + 1) = (if g % 2 = 0 then 0 else n) ∧ faceNode n g / (n + 1) = g / 2 := by
      intro g
      unfold faceNode
      split_ifs
      · simp
      · rw [Nat.mul_comm, Nat.mul_add_mod, Nat.mul_add_div (by omega), Nat.mod_eq_of_lt (by omega), Nat.div_eq_of_lt (by omega : n < n + 1)]
        simp
    rw [(key g).1, (key g).2, (key _).1, (key _).2]
    exact (grid_across xmin xmax n K r h0 hn g).symm

/-- Two elements of three nodes, with stale tables of the right sizes. -/
def exOld : Tables ℚ :=
  ⟨⟨0, 0, fun _ _ => 0⟩, [9, 9, 9, 9], [9, 9, 9, 9], [9, 9, 9, 9], [9, 9, 9, 9], [], [], [9, 9, 9, 9]⟩

example : Sized exOld 2 := ⟨rfl, rfl, rfl, rfl, rfl⟩

/-- The hypotheses of `C28_maps_partial` hold here and the tables are as stated. -/
example : (buildNodes false (1 / 100000 : ℚ) 0 4 2 [-1, 0, 1] exOld >>= fun t => .ok [t.e2v, t.e2e, t.e2f, t.vmapM, t.vmapP]) =
    .ok [[0, 1, 1, 2], [0, 1, 0, 1], [0, 0, 1, 1], [0, 2, 3, 5], [0, 3, 2, 5]] := by
  decide +kernel

example : (buildNodes false (1 / 100000 : ℚ) 0 4 2 [-1, 0, 1] exOld >>= fun t => .ok [t.fx, t.nx]) =
    .ok [[0, 2, 2, 4], [-1, -1, 1, 1]] := by
  decide +kernel

/-- **C28, pairing.** Following the neighbour twice leads back to the face one started from. -/
theorem C28_involution_partial (wrap : Bool) (tol xmin xmax : R) (htol : 0 < tol) (n K : Nat) (hK : 0 < K) (r : List R)
    (hlen : r.length = n + 1) (h0 : r[0]? = some (-1 : R)) (hn : r[n]? = some (1 : R)) (o : Tables R) (ho : Sized o K)
    (hov : (K + 1) * (2 * K) ≤ intMax ∨ wrap = true ∧ (K + 1) * (2 * K) % 4294967296 ≠ 0) :
    ∃ t, buildNodes wrap tol xmin xmax K r o = .ok t ∧
      ∀ k < K, ∀ f < 2, ∃ k2 < K, ∃ f2 < 2, t.e2e[2 * k + f]? = some k2 ∧ t.e2f[2 * k + f]? = some f2 ∧
        t.e2e[2 * k2 + f2]? = some k ∧ t.e2f[2 * k2 + f2]? = some f ∧ t.vmapP[2 * k + f]? = t.vmapM[2 * k2 + f2]? ∧
        t.vmapP[2 * k2 + f2]? = t.vmapM[2 * k + f]? := by
  obtain ⟨e2v, a1, a2, a3⟩ := e2v_ok K o.e2v ho.e2v
  obtain ⟨E, F, b1, b2, b3, b4⟩ := conn_ok (wrap := wrap) hK a3 ho.e2e ho.e2f hov
  obtain ⟨fx, c1, c2, c3⟩ := fx_ok n K (grid xmin xmax K r) o.fx ho.fx
  obtain ⟨vm, vp, d1, d2, d3, d4⟩ := maps_ok tol htol xmin xmax n K r hlen h0 hn b4
  obtain ⟨nx, f1, f2, f3⟩ := normals_ok K o.nx ho.nx
  refine ⟨⟨grid xmin xmax K r, e2v, E, F, fx, vm, vp, nx⟩, ?_, ?_⟩
  · simp only [buildNodes, a1, Out.bind_ok, b1, hlen, c1, d1, f1, Out.pure_eq]
  · intro k hk f hf
    have hg : 2 * k + f < 2 * K := by omega
    have ha := across_lt hg
    have hdm : 2 * (across K (2 * k + f) / 2) + across K (2 * k + f) % 2 = across K (2 * k + f) := by omega
    refine ⟨across K (2 * k + f) / 2, by omega, across K (2 * k + f) % 2, by omega, (b4 _ hg).1, (b4 _ hg).2, ?_, ?_, ?_, ?_⟩
    · simp only [hdm]
      rw [(b4 _ ha).1, across_across hg]; congr 1; omega
    · simp only [hdm]
      rw [(b4 _ ha).2, across_across hg]; congr 1; omega
    · simp only [hdm]
      rw [(d4 _ hg).2, (d4 _ ha).1]
    · simp only [hdm]
      rw [(d4 _ ha).2, (d4 _ hg).1, across_across hg]

omit [IsStrictOrderedRing R] in
/-- **C28, limit.** From 32768 elements on, the product computed by the `CSCMat` constructor overflows `int`: undefined behaviour. -/
theorem C28_overflow_ub (tol xmin xmax : R) (K : Nat) (hK : 32768 ≤ K) (r : List R) (o : Tables R) (ho : Sized o K) :
    buildNodes false tol xmin xmax K r o = .ub := by
  obtain ⟨e2v, a1, a2, a3⟩ := e2v_ok K o.e2v ho.e2v
  have hov : (K + 1) * (2 * K) > intMax := by
    have : 32769 * 65536 ≤ (K + 1) * (2 * K) := Nat.mul_le_mul (by omega) (by omega)
    unfold intMax; omega
  simp only [buildNodes, a1, Out.bind_ok, buildConnectivity, buildFToV, cscAlloc, prodIsZero, if_pos hov]
  rfl

end Maps

/-! ### C63 -/

section Metric

variable {R : Type} [Field R] [CharZero R]

/-- **C63.** If the differentiation matrix annihilates constants and maps the reference nodes to ones (both hold for the matrix built from an
invertible Vandermonde matrix, see C47), the Jacobian is half the element width at every node, `rx` is its reciprocal and `Fscale` equals `rx`
at the face nodes. -/
theorem C63_metric (xmin xmax : R) (hx : xmin ≠ xmax) (K : Nat) (hK : 0 < K) (r : List R) (dr : DMat R)
    (hconst : ∀ i < r.length, ∑ q ∈ Finset.range r.length, dr.at' i q = 0)
    (hlin : ∀ i < r.length, ∑ q ∈ Finset.range r.length, dr.at' i q * r.getD q 0 = 1) (i k : Nat) (hi : i < r.length) :
    jac dr (grid xmin xmax K r) i k = (xmax - xmin) / K / 2 ∧
    rx dr (grid xmin xmax K r) i k * ((xmax - xmin) / K / 2) = 1 ∧
    fscale dr (grid xmin xmax K r) 0 k = rx dr (grid xmin xmax K r) 0 k ∧
    fscale dr (grid xmin xmax K r) 1 k = rx dr (grid xmin xmax K r) (r.length - 1) k := by
  have hj : jac dr (grid xmin xmax K r) i k = (xmax - xmin) / K / 2 := by
    unfold jac grid
    simp only
    have : ∀ q, dr.at' i q * (xmin + (xmax - xmin) / K * (k + 1 / 2 * (r.getD q 0 + 1)))
        = dr.at' i q * (xmin + (xmax - xmin) / K * (k + 1 / 2)) + dr.at' i q * r.getD q 0 * ((xmax - xmin) / K / 2) := by
      intro q; ring
    simp only [this]
    rw [Finset.sum_add_distrib, ← Finset.sum_mul, ← Finset.sum_mul, hconst i hi, hlin i hi]
    ring
  refine ⟨hj, ?_, rfl, rfl⟩
  have hK' : (K : R) ≠ 0 := by exact_mod_cast hK.ne'
  have hx' : xmax - xmin ≠ 0 := sub_ne_zero.2 (Ne.symm hx)
  rw [rx, hj]
  field_simp

/-- Linear elements on [0, 4]: the hypotheses of `C63_metric` hold for the differentiation matrix [[-1/2, 1/2], [-1/2, 1/2]]. -/
example : (∀ i < 2, ∑ q ∈ Finset.range 2, (fun _ q : Nat => if q = 0 then (-1 / 2 : ℚ) else 1 / 2) i q = 0) ∧
    (∀ i < 2, ∑ q ∈ Finset.range 2, (fun _ q : Nat => if q = 0 then (-1 / 2 : ℚ) else 1 / 2) i q * [(-1 : ℚ), 1].getD q 0 = 1) := by
  decide +kernel

end Metric

end Blitzdg.Nodes1D
