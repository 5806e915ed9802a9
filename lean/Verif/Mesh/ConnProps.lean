import Verif.Mesh.Model
import Verif.Sparse.CscProps
import Mathlib.Algebra.BigOperators.Group.Finset.Basic
import Mathlib.Algebra.BigOperators.Group.Finset.Piecewise
import Mathlib.Tactic.IntervalCases

/-! Connectivity and boundary table (C20, C21, C22). -/

namespace Blitzdg.Mesh

open Blitzdg.Sparse

/-! ### Specification -/

/-- The two end vertices of face `g`: face `f` of an element joins its vertex `f` to the next one (cyclically). -/
def ends (nf : Nat) (e2v : List Int) (g : Nat) : Int × Int :=
  (e2v.getD (g / nf * nf + g % nf) 0, e2v.getD (g / nf * nf + (g % nf + 1) % nf) 0)

/-- Faces `g` and `h` have the same two end vertices, in either order. -/
def SameEdge (nf : Nat) (e2v : List Int) (g h : Nat) : Prop :=
  ends nf e2v g = ends nf e2v h ∨ ends nf e2v g = (ends nf e2v h).swap

/-! ### Lemmas -/

theorem rowMajor_eq (k nf : Nat) (h : 0 < nf) :
    rowMajor k nf = (List.range (nf * k)).map fun g => (g / nf, g % nf) := by
  induction k with
  | zero => simp [rowMajor]
  | succ k ih =>
    have e1 : rowMajor (k + 1) nf = rowMajor k nf ++ (List.range nf).map fun f => (k, f) := by
      simp [rowMajor, List.range_succ]
    rw [e1, ih, Nat.mul_succ, List.range_add, List.map_append, List.map_map]
    congr 1
    apply List.map_congr_left
    intro f hf
    rw [List.mem_range] at hf
    simp only [Function.comp]
    rw [Nat.mul_add_div h, Nat.mul_add_mod, Nat.div_eq_of_lt hf, Nat.mod_eq_of_lt hf, Nat.add_zero]

theorem localVert_eq {nf f : Nat} (hnf : nf = 3 ∨ nf = 4) (hf : f < nf) : localVert nf f = .ok (f, (f + 1) % nf) := by
  rcases hnf with rfl | rfl <;> interval_cases f <;> rfl

/-- The column of face `g` in the incidence matrix. -/
def faceCol (nf : Nat) (e2v : List Int) (g : Nat) : List (Nat × Nat) :=
  [((ends nf e2v g).1.toNat, 1), ((ends nf e2v g).2.toNat, 1)]

theorem pos_lt {nf k g x : Nat} (hx : x < nf) (hg : g < nf * k) : g / nf * nf + x < nf * k := by
  have h1 : g / nf < k := Nat.div_lt_of_lt_mul hg
  calc g / nf * nf + x < g / nf * nf + nf := by omega
    _ = (g / nf + 1) * nf := by rw [Nat.succ_mul]
    _ ≤ k * nf := Nat.mul_le_mul_right _ h1
    _ = nf * k := Nat.mul_comm _ _

theorem rd_toIx {l : List Int} {i nv : Nat} (h : i < l.length) (hv : ∀ v ∈ l, 0 ≤ v ∧ v < (nv : Int)) :
    (rd l i >>= toIx) = .ok (l.getD i 0).toNat := by
  rw [rd_of_lt h, Out.bind_ok]
  have := (hv _ (List.getElem_mem h)).1
  simp [toIx, List.getD_eq_getElem?_getD, h]
  omega

theorem flatten_len (nf : Nat) (e2v : List Int) (g : Nat) :
    (((List.range g).map (faceCol nf e2v)).flatten).length = 2 * g := by
  induction g with
  | zero => rfl
  | succ g ih => rw [List.range_succ, List.map_append, List.flatten_append, List.length_append, ih]; simp [faceCol]; omega

theorem vtof_loop {nv nf k : Nat} {e2v : List Int} (hnf : nf = 3 ∨ nf = 4) (hlen : e2v.length = nf * k)
    (hv : ∀ v ∈ e2v, 0 ≤ v ∧ v < (nv : Int)) (g : Nat) (hg : g ≤ nf * k) :
    loopM (vtofStep nf e2v) (spalloc nv (nf * k) (2 * (nf * k)), 0, 0) ((List.range g).map fun g => (g / nf, g % nf)) =
    .ok ({ m := nv, n := nf * k, p := ((List.range g).map fun j => some (2 * j)) ++ List.replicate (nf * k + 1 - g) none,
           ix := ((List.range g).map (faceCol nf e2v)).flatten.map some ++ List.replicate (max (2 * (nf * k)) 1 - 2 * g) none },
         g, 2 * g) := by
  have hnf0 : 0 < nf := by omega
  induction g with
  | zero => simp [spalloc]
  | succ g ih =>
    rw [List.range_succ, List.map_append, loopM_append, ih (by omega), Out.bind_ok]
    simp only [List.map_cons, List.map_nil, loopM_cons, loopM_nil]
    have hmod : g % nf < nf := Nat.mod_lt _ hnf0
    have hg' : g < nf * k := hg
    have hfl := flatten_len nf e2v g
    unfold vtofStep
    simp only
    rw [wr_of_lt (by simp; omega), Out.bind_ok, localVert_eq hnf hmod, Out.bind_ok]
    simp only
    rw [rd_toIx (by rw [hlen]; exact pos_lt hmod hg') hv, Out.bind_ok,
      rd_toIx (by rw [hlen]; exact pos_lt (Nat.mod_lt _ hnf0) hg') hv, Out.bind_ok,
      wr_of_lt (by rw [List.length_append, List.length_map, List.length_replicate, hfl]; omega), Out.bind_ok,
      wr_of_lt (by rw [List.length_set, List.length_append, List.length_map, List.length_replicate, hfl]; omega), Out.bind_ok]
    simp only [Out.pure_eq, Out.bind_ok, Out.ok.injEq, Prod.mk.injEq, Csc.mk.injEq, true_and]
    refine ⟨⟨?_, ?_⟩, by omega⟩
    · obtain ⟨f, hf⟩ : ∃ f, nf * k + 1 - g = f + 1 := ⟨nf * k - g, by omega⟩
      have hf' : nf * k + 1 - (g + 1) = f := by omega
      rw [hf, hf', List.replicate_succ, List.set_append_right _ _ (by simp)]
      simp
    · obtain ⟨f, hf⟩ : ∃ f, max (2 * (nf * k)) 1 - 2 * g = f + 1 + 1 := ⟨max (2 * (nf * k)) 1 - 2 * g - 2, by omega⟩
      have hf' : max (2 * (nf * k)) 1 - 2 * (g + 1) = f := by omega
      rw [hf, hf', List.replicate_succ, List.replicate_succ,
        List.set_append_right _ _ (by rw [List.length_map, hfl]), List.set_append_right _ _ (by rw [List.length_map, hfl]; omega)]
      rw [List.length_map, hfl, Nat.sub_self, Nat.add_sub_cancel_left]
      simp only [List.set_cons_zero, List.set_cons_succ, List.map_append, List.flatten_append, List.map_cons,
        List.map_nil, List.flatten_cons, List.flatten_nil, List.append_nil, List.append_assoc]
      simp [faceCol, ends]

theorem cscAlloc_ok {wrap : Bool} {nv t : Nat} (h0 : 0 < nv) (ht : 0 < t)
    (hov : nv * t ≤ intMax ∨ wrap = true ∧ nv * t % 4294967296 ≠ 0) (nnz : Nat) :
    cscAlloc wrap nv t nnz = .ok (spalloc nv t nnz : Csc Nat) := by
  have hne : nv * t ≠ 0 := Nat.mul_ne_zero (by omega) (by omega)
  unfold cscAlloc prodIsZero
  rcases hov with h | ⟨rfl, h⟩
  · rw [if_neg (by omega)]
    simp only [Out.bind_ok, decide_eq_true_eq, if_neg hne, Out.pure_eq]
    rw [if_neg (by omega)]
  · by_cases hb : nv * t > intMax
    · rw [if_pos hb]
      simp only [if_true, Out.bind_ok, decide_eq_true_eq, if_neg h, Out.pure_eq]
      rw [if_neg (by omega)]
    · rw [if_neg hb]
      simp only [Out.bind_ok, decide_eq_true_eq, if_neg hne, Out.pure_eq]
      rw [if_neg (by omega)]

theorem ends_mem {nv nf k : Nat} {e2v : List Int} (hnf : nf = 3 ∨ nf = 4) (hlen : e2v.length = nf * k)
    (hv : ∀ v ∈ e2v, 0 ≤ v ∧ v < (nv : Int)) {g : Nat} (hg : g < nf * k) :
    (0 ≤ (ends nf e2v g).1 ∧ (ends nf e2v g).1 < nv) ∧ (0 ≤ (ends nf e2v g).2 ∧ (ends nf e2v g).2 < nv) := by
  have hnf0 : 0 < nf := by omega
  have h1 : g / nf * nf + g % nf < e2v.length := by rw [hlen]; exact pos_lt (Nat.mod_lt _ hnf0) hg
  have h2 : g / nf * nf + (g % nf + 1) % nf < e2v.length := by rw [hlen]; exact pos_lt (Nat.mod_lt _ hnf0) hg
  have e1 := hv _ (List.getElem_mem h1)
  have e2 := hv _ (List.getElem_mem h2)
  unfold ends
  simp only [List.getD_eq_getElem?_getD, h1, h2, List.getElem?_eq_getElem, Option.getD_some]
  exact ⟨e1, e2⟩

theorem buildVToF_ok {wrap : Bool} {nv nf k : Nat} {e2v : List Int} (hnf : nf = 3 ∨ nf = 4) (hk : 0 < k)
    (hlen : e2v.length = nf * k) (hv : ∀ v ∈ e2v, 0 ≤ v ∧ v < (nv : Int))
    (hov : nv * (nf * k) ≤ intMax ∨ wrap = true ∧ nv * (nf * k) % 4294967296 ≠ 0) :
    ∃ c, buildVToF wrap nv nf k e2v = .ok c ∧ WF c ((List.range (nf * k)).map (faceCol nf e2v)) ∧ c.m = nv ∧ c.n = nf * k := by
  have hnf0 : 0 < nf := by omega
  have ht : 0 < nf * k := Nat.mul_pos hnf0 hk
  have hnv : 0 < nv := by
    have := ends_mem hnf hlen hv ht
    omega
  refine ⟨{ m := nv, n := nf * k, p := (List.range (nf * k + 1)).map fun j => some (2 * j),
            ix := ((List.range (nf * k)).map (faceCol nf e2v)).flatten.map some ++ List.replicate (max (2 * (nf * k)) 1 - 2 * (nf * k)) none },
    ?_, ?_, rfl, rfl⟩
  · unfold buildVToF
    rw [cscAlloc_ok hnv ht hov, Out.bind_ok, rowMajor_eq k nf hnf0, vtof_loop hnf hlen hv _ (le_refl _), Out.bind_ok]
    simp only
    rw [wr_of_lt (by simp), Out.bind_ok]
    simp only [Out.pure_eq, Out.ok.injEq, Csc.mk.injEq, true_and, and_true]
    rw [Nat.add_sub_cancel_left, List.set_append_right _ _ (by simp), List.range_succ]
    simp
  · constructor
    · simp
    · simp
    · intro j hj
      have hj' : j < nf * k + 1 := by simp only at hj; omega
      have hs : ((((List.range (nf * k)).map (faceCol nf e2v)).map List.length).take j).sum = 2 * j := by
        rw [← List.map_take, ← List.map_take, List.take_range, Nat.min_eq_left (by omega), ← List.length_flatten, flatten_len]
      rw [hs]
      simp [hj']
    · simp only
      rw [List.take_append_of_le_length (by rw [List.length_map]), List.take_of_length_le (by rw [List.length_map])]
    · intro col hcol e he
      simp only [List.mem_map, List.mem_range] at hcol
      obtain ⟨g, hg, rfl⟩ := hcol
      have := ends_mem hnf hlen hv hg
      simp only [faceCol, List.mem_cons, List.not_mem_nil, or_false] at he
      rcases he with rfl | rfl <;> simp <;> omega

theorem colVal_faceCol (nf : Nat) (e2v : List Int) (g i : Nat) :
    colVal (faceCol nf e2v g) i
      = (if (ends nf e2v g).1.toNat = i then 1 else 0) + (if (ends nf e2v g).2.toNat = i then 1 else 0) := by
  unfold colVal faceCol
  by_cases h1 : (ends nf e2v g).1.toNat = i <;> by_cases h2 : (ends nf e2v g).2.toNat = i <;> simp [h1, h2]

theorem sum_two {n a b c d : Nat} (ha : a < n) (hb : b < n) :
    ∑ k ∈ Finset.range n, ((if a = k then 1 else 0) + (if b = k then 1 else 0)) * ((if c = k then 1 else 0) + (if d = k then 1 else 0))
      = (if c = a then 1 else 0) + (if d = a then 1 else 0) + ((if c = b then 1 else 0) + (if d = b then 1 else 0)) := by
  simp only [add_mul, ite_mul, one_mul, zero_mul]
  rw [Finset.sum_add_distrib]
  simp only [Finset.sum_ite_eq, Finset.mem_range, ha, hb, if_true]

theorem colVal_nodup {col : List (Nat × Nat)} (h : (col.map Prod.fst).Nodup) {i x : Nat} (hx : x ≠ 0) :
    colVal col i = x ↔ (i, x) ∈ col := by
  induction col with
  | nil => simp [colVal]; omega
  | cons e col ih =>
    rw [List.map_cons, List.nodup_cons] at h
    obtain ⟨e1, e2⟩ := e
    by_cases he : e1 = i
    · subst he
      have hz : colVal col e1 = 0 := by
        unfold colVal
        rw [List.filter_eq_nil_iff.2]
        · rfl
        · intro a ha hc
          exact h.1 (List.mem_map.2 ⟨a, ha, by simpa using hc⟩)
      have : colVal ((e1, e2) :: col) e1 = e2 + colVal col e1 := by simp [colVal]
      rw [this, hz]
      constructor
      · rintro rfl; simp
      · intro hm
        rcases List.mem_cons.1 hm with hm | hm
        · simp only [Prod.mk.injEq, true_and] at hm; omega
        · exact absurd (List.mem_map.2 ⟨_, hm, rfl⟩) h.1
    · have : colVal ((e1, e2) :: col) i = colVal col i := by simp [colVal, he]
      rw [this, ih h.2]
      simp only [List.mem_cons, Prod.mk.injEq]
      constructor
      · exact Or.inr
      · rintro (⟨rfl, _⟩ | h)
        · exact absurd rfl he
        · exact h

theorem connections_ok {total : Nat} {c : Csc Nat} {cols : List (List (Nat × Nat))} (h : WF c cols) (hn : c.n = total) :
    connections total c = .ok ((List.range total).flatMap fun j =>
      ((cols.getD j []).filter fun e => e.1 ≠ j ∧ e.2 = 2).map fun e => (e.1, j)) := by
  unfold connections
  have hl := h.ncols
  have gen : ∀ n ≤ total, loopM (fun acc j => match readCol c j with
    | none => .ub
    | some col => .ok (acc ++ ((col.filter fun e => e.1 ≠ j ∧ e.2 = 2).map fun e => (e.1, j)))) [] (List.range n)
      = .ok ((List.range n).flatMap fun j =>
      ((cols.getD j []).filter fun e => e.1 ≠ j ∧ e.2 = 2).map fun e => (e.1, j)) := by
    intro n hn'
    induction n with
    | zero => rfl
    | succ n ih =>
      rw [List.range_succ, loopM_append, ih (by omega), Out.bind_ok, loopM_cons, h.readCol (by omega : n < cols.length)]
      simp only [Out.bind_ok, loopM_nil, List.flatMap_append, List.flatMap_cons, List.flatMap_nil, List.append_nil]
      have : n < cols.length := by omega
      simp [this]
  exact gen total (le_refl _)

theorem defaults_ok {nf k : Nat} (e2e e2f : List Nat) (h1 : e2e.length = nf * k) (h2 : e2f.length = nf * k)
    (g : Nat) (hg : g ≤ nf * k) :
    loopM (defaults nf) (e2e, e2f) ((List.range g).map fun g => (g / nf, g % nf)) =
      .ok ((List.range g).map (· / nf) ++ e2e.drop g, (List.range g).map (· % nf) ++ e2f.drop g) := by
  induction g with
  | zero => simp
  | succ g ih =>
    have hd : g / nf * nf + g % nf = g := by rw [Nat.mul_comm]; exact Nat.div_add_mod g nf
    rw [List.range_succ, List.map_append, loopM_append, ih (by omega), Out.bind_ok]
    simp only [List.map_cons, List.map_nil, loopM_cons, loopM_nil, defaults, hd]
    rw [wr_of_lt (by simp; omega), Out.bind_ok, wr_of_lt (by simp; omega), Out.bind_ok]
    simp only [Out.pure_eq, Out.bind_ok, Out.ok.injEq, Prod.mk.injEq]
    rw [List.set_append_right _ _ (by simp), List.set_append_right _ _ (by simp),
      List.drop_eq_getElem_cons (by omega : g < e2e.length), List.drop_eq_getElem_cons (by omega : g < e2f.length),
      List.length_map, List.length_map, List.length_range, Nat.sub_self, List.set_cons_zero, List.set_cons_zero]
    simp only [List.map_append, List.map_cons, List.map_nil, List.append_assoc, List.cons_append, List.nil_append, and_self]

/-- After the connections `cs`, every face holds its default or the last of its connections. -/
theorem connect_ok {nf t : Nat} (cs : List (Nat × Nat)) (hcs : ∀ c ∈ cs, c.1 < t) :
    ∃ E F, loopM (connect nf) ((List.range t).map (· / nf), (List.range t).map (· % nf)) cs = .ok (E, F) ∧
      E.length = t ∧ F.length = t ∧
      ∀ g < t, ∃ h, E.getD g 0 = h / nf ∧ F.getD g 0 = h % nf ∧
        ((h = g ∧ ∀ c ∈ cs, c.1 ≠ g) ∨ (g, h) ∈ cs) := by
  induction cs using List.reverseRecOn with
  | nil =>
    refine ⟨_, _, rfl, by simp, by simp, ?_⟩
    intro g hg
    exact ⟨g, by simp [hg], by simp [hg], Or.inl ⟨rfl, by simp⟩⟩
  | append_singleton cs c ih =>
    obtain ⟨E, F, e, hE, hF, hh⟩ := ih fun c hc => hcs c (by simp [hc])
    have hc := hcs c (by simp)
    have hd : c.1 / nf * nf + c.1 % nf = c.1 := by rw [Nat.mul_comm]; exact Nat.div_add_mod _ nf
    refine ⟨E.set c.1 (c.2 / nf), F.set c.1 (c.2 % nf), ?_, by simp [hE], by simp [hF], ?_⟩
    · rw [loopM_append, e, Out.bind_ok]
      simp only [loopM_cons, loopM_nil, connect, hd]
      rw [wr_of_lt (by omega), Out.bind_ok, wr_of_lt (by omega)]
      rfl
    · intro g hg
      by_cases hgc : c.1 = g
      · refine ⟨c.2, ?_, ?_, Or.inr (by simp [← hgc])⟩
        · simp [List.getD_eq_getElem?_getD, hgc, hE, hg]
        · simp [List.getD_eq_getElem?_getD, hgc, hF, hg]
      · obtain ⟨h, h1, h2, h3⟩ := hh g hg
        refine ⟨h, ?_, ?_, ?_⟩
        · simpa [List.getD_eq_getElem?_getD, List.getElem?_set_ne hgc] using h1
        · simpa [List.getD_eq_getElem?_getD, List.getElem?_set_ne hgc] using h2
        · rcases h3 with ⟨a, b⟩ | h3
          · left
            refine ⟨a, fun c' hc' => ?_⟩
            rcases List.mem_append.1 hc' with hc' | hc'
            · exact b c' hc'
            · rw [List.mem_singleton] at hc'; rw [hc']; exact hgc
          · right; simp [h3]

/-- The list of connections is exactly the set of pairs of different faces with the same two ends. -/
theorem ftof_ok {wrap : Bool} {nv nf k : Nat} {e2v : List Int} (hnf : nf = 3 ∨ nf = 4) (hk : 0 < k)
    (hlen : e2v.length = nf * k) (hv : ∀ v ∈ e2v, 0 ≤ v ∧ v < (nv : Int))
    (hdist : ∀ g < nf * k, (ends nf e2v g).1 ≠ (ends nf e2v g).2)
    (hov : nv * (nf * k) ≤ intMax ∨ wrap = true ∧ nv * (nf * k) % 4294967296 ≠ 0) :
    ∃ vtof ftov ftof cs, buildVToF wrap nv nf k e2v = .ok vtof ∧ transpose vtof = .ok ftov ∧ multiply ftov vtof = .ok ftof ∧
      connections (nf * k) ftof = .ok cs ∧
      ∀ i j, (i, j) ∈ cs ↔ i < nf * k ∧ j < nf * k ∧ i ≠ j ∧ SameEdge nf e2v i j := by
  obtain ⟨vtof, e1, w1, m1, n1⟩ := buildVToF_ok hnf hk hlen hv hov
  obtain ⟨ftov, tcols, e2, w2, m2, n2, val2, _, _⟩ := C07_transpose vtof _ w1
  have len1 := w1.ncols
  have len2 := w2.ncols
  let M : Nat → Nat → Nat := fun i j => colVal (faceCol nf e2v j) i
  have r1 : Represents vtof M := ⟨_, w1, fun i j hj => by simp [M]⟩
  have r2 : Represents ftov (fun i j => if i < nf * k then M j i else 0) := by
    refine ⟨_, w2, fun i j hj => ?_⟩
    by_cases hi : i < nf * k
    · have := val2 j i hj (by simpa using hi)
      simp only [hi, if_true, this, M]
      simp
    · simp only [if_neg hi]
      unfold colVal
      rw [List.filter_eq_nil_iff.2]
      · rfl
      · intro e he hc
        have := w2.rows _ (List.getElem_mem hj) e he
        rw [m2, n1] at this
        have : e.1 = i := by simpa using hc
        omega
  obtain ⟨ftof, fcols, e3, w3, m3, n3, nd3, ⟨fcols', w3', val3⟩⟩ :=
    C08_multiply ftov vtof _ _ w2 w1 _ _ r2 r1 (by rw [n2])
  have hfc : fcols' = fcols := by
    have a := w3.readCols; rw [w3'.readCols] at a; exact Option.some.inj a
  subst hfc
  have ht : ftof.n = nf * k := by rw [n3, n1]
  refine ⟨vtof, ftov, ftof, _, e1, e2, e3, connections_ok w3 ht, ?_⟩
  intro i j
  have hflen : fcols'.length = nf * k := by rw [w3.ncols, ht]
  simp only [List.mem_flatMap, List.mem_range, List.mem_map, List.mem_filter, Prod.mk.injEq, ne_eq, Bool.decide_and,
    Bool.and_eq_true, decide_eq_true_eq]
  have key : ∀ (hi : i < nf * k) (hj : j < nf * k), (i, 2) ∈ fcols'.getD j [] ↔ SameEdge nf e2v i j := by
    intro hi hj
    have hj' : j < fcols'.length := by omega
    have hget : fcols'.getD j [] = fcols'[j] := by simp [hj']
    rw [hget, ← colVal_nodup (nd3 _ (List.getElem_mem hj')) (by omega : (2 : Nat) ≠ 0), val3 i j hj']
    simp only [hi, if_true, M, colVal_faceCol]
    have mi := ends_mem hnf hlen hv hi
    have mj := ends_mem hnf hlen hv hj
    rw [n2, m1, sum_two (by omega) (by omega)]
    have di := hdist i hi
    have dj := hdist j hj
    unfold SameEdge
    generalize ends nf e2v i = p at *
    generalize ends nf e2v j = q at *
    obtain ⟨a, b⟩ := p
    obtain ⟨c, d⟩ := q
    simp only [Prod.swap, Prod.mk.injEq] at *
    have x1 : (c.toNat = a.toNat) ↔ a = c := by omega
    have x2 : (d.toNat = a.toNat) ↔ a = d := by omega
    have x3 : (c.toNat = b.toNat) ↔ b = c := by omega
    have x4 : (d.toNat = b.toNat) ↔ b = d := by omega
    simp only [x1, x2, x3, x4]
    split_ifs <;> omega
  constructor
  · rintro ⟨j', hj', ⟨e, ⟨he, hne, h2⟩, rfl, rfl⟩⟩
    have hm : (e.1, 2) ∈ fcols'.getD j' [] := by
      have : e = (e.1, 2) := Prod.ext rfl h2
      rw [← this]; exact he
    have hi : e.1 < nf * k := by
      have hjl : j' < fcols'.length := by omega
      have hget : fcols'.getD j' [] = fcols'[j'] := by simp [hjl]
      rw [hget] at he
      have := w3.rows _ (List.getElem_mem hjl) e he
      rw [m3, m2, n1] at this; exact this
    exact ⟨hi, hj', hne, (key hi hj').1 hm⟩
  · rintro ⟨hi, hj, hne, hs⟩
    exact ⟨j, hj, (i, 2), ⟨(key hi hj).2 hs, hne, rfl⟩, rfl, rfl⟩

/-! ### C21 -/

/-- **C21.** For every table of triangles or quadrilaterals with vertex numbers in range whose faces have two different ends (edges may be
shared by any number of faces), and allocated tables of the right size, connectivity is built without undefined behaviour, and for every face
`g` the entry (EToE, EToF) is a face `h` of the mesh: `g` itself, and then no other face has the same two ends, or another face
with the same two ends.  The size hypothesis excludes products `NumVerts * totalFaces` which overflow `int`
(or, on a wrapping machine, which wrap to 0). -/
theorem C21_connectivity (wrap : Bool) (nv nf k : Nat) (e2v : List Int) (e2e e2f : List Nat) (hnf : nf = 3 ∨ nf = 4)
    (hlen : e2v.length = nf * k) (hv : ∀ v ∈ e2v, 0 ≤ v ∧ v < (nv : Int))
    (hdist : ∀ g < nf * k, (ends nf e2v g).1 ≠ (ends nf e2v g).2)
    (hov : nv * (nf * k) ≤ intMax ∨ wrap = true ∧ nv * (nf * k) % 4294967296 ≠ 0)
    (hE : e2e.length = nf * k) (hF : e2f.length = nf * k) :
    ∃ E F, buildConnectivity wrap nv nf k e2v e2e e2f = .ok (E, F) ∧ E.length = nf * k ∧ F.length = nf * k ∧
      ∀ g < nf * k, ∃ h < nf * k, E.getD g 0 = h / nf ∧ F.getD g 0 = h % nf ∧
        ((h = g ∧ ∀ g' < nf * k, g' ≠ g → ¬ SameEdge nf e2v g g') ∨ (h ≠ g ∧ SameEdge nf e2v g h)) := by
  have hnf0 : 0 < nf := by omega
  rcases Nat.eq_zero_or_pos k with rfl | hk
  · have h1 : e2e = [] := List.eq_nil_of_length_eq_zero (by simpa using hE)
    have h2 : e2f = [] := List.eq_nil_of_length_eq_zero (by simpa using hF)
    subst h1 h2
    refine ⟨[], [], ?_, by simp, by simp, by simp⟩
    have e1 : buildVToF wrap nv nf 0 e2v = .ok { m := 0, n := 0, p := [some 0], ix := [none] } := by
      simp [buildVToF, cscAlloc, prodIsZero, rowMajor, spalloc, wr, Out.bind_ok]
    rw [buildConnectivity, e1, Out.bind_ok]
    rfl
  · obtain ⟨vtof, ftov, ftof, cs, e1, e2, e3, e4, hcs⟩ := ftof_ok hnf hk hlen hv hdist hov
    obtain ⟨E, F, e5, l1, l2, hh⟩ := connect_ok (nf := nf) (t := nf * k) cs fun c hc => ((hcs c.1 c.2).1 hc).1
    refine ⟨E, F, ?_, l1, l2, ?_⟩
    · have hd := defaults_ok e2e e2f hE hF (nf * k) (le_refl _)
      rw [List.drop_of_length_le (by omega), List.drop_of_length_le (by omega), List.append_nil, List.append_nil] at hd
      rw [buildConnectivity, e1, Out.bind_ok, e2, Out.bind_ok, e3, Out.bind_ok, e4, Out.bind_ok, rowMajor_eq k nf hnf0, hd, Out.bind_ok, e5]
    · intro g hg
      obtain ⟨h, h1, h2, h3⟩ := hh g hg
      rcases h3 with ⟨rfl, h3⟩ | h3
      · exact ⟨h, hg, h1, h2, Or.inl ⟨rfl, fun g' hg' hne hs => h3 (h, g') ((hcs _ _).2 ⟨hg, hg', Ne.symm hne, hs⟩) rfl⟩⟩
      · obtain ⟨_, b, c, d⟩ := (hcs _ _).1 h3
        exact ⟨h, b, h1, h2, Or.inr ⟨Ne.symm c, d⟩⟩

/-- Three triangles around one edge and one alone: the hypotheses of `C21_connectivity` hold and the result is as stated. -/
example : buildConnectivity false 6 3 3 [0, 1, 2, 1, 0, 3, 0, 1, 4] (List.replicate 9 7) (List.replicate 9 7)
    = .ok ([2, 0, 0, 2, 1, 1, 1, 2, 2], [0, 1, 2, 0, 1, 2, 0, 1, 2]) := by decide +kernel

/-! ### C20 -/

/-- **C20.** If moreover every edge is shared by at most two faces, the pairing is an involution: the partner `h` of `g` is the only other
face with the same ends (or `g` itself when there is none), and the partner of `h` is `g`. -/
theorem C20_involution (wrap : Bool) (nv nf k : Nat) (e2v : List Int) (e2e e2f : List Nat) (hnf : nf = 3 ∨ nf = 4)
    (hlen : e2v.length = nf * k) (hv : ∀ v ∈ e2v, 0 ≤ v ∧ v < (nv : Int))
    (hdist : ∀ g < nf * k, (ends nf e2v g).1 ≠ (ends nf e2v g).2)
    (hconf : ∀ a < nf * k, ∀ b < nf * k, ∀ c < nf * k, a ≠ b → a ≠ c → SameEdge nf e2v a b → SameEdge nf e2v a c → b = c)
    (hov : nv * (nf * k) ≤ intMax ∨ wrap = true ∧ nv * (nf * k) % 4294967296 ≠ 0)
    (hE : e2e.length = nf * k) (hF : e2f.length = nf * k) :
    ∃ E F, buildConnectivity wrap nv nf k e2v e2e e2f = .ok (E, F) ∧ E.length = nf * k ∧ F.length = nf * k ∧
      ∃ P : Nat → Nat, ∀ g < nf * k, P g < nf * k ∧ P (P g) = g ∧ E.getD g 0 = P g / nf ∧ F.getD g 0 = P g % nf ∧
        (P g = g ↔ ∀ g' < nf * k, g' ≠ g → ¬ SameEdge nf e2v g g') ∧
        ∀ g' < nf * k, g' ≠ g → (SameEdge nf e2v g g' ↔ P g = g') := by
  obtain ⟨E, F, e, l1, l2, hh⟩ := C21_connectivity wrap nv nf k e2v e2e e2f hnf hlen hv hdist hov hE hF
  have hsym : ∀ a b, SameEdge nf e2v a b → SameEdge nf e2v b a := by
    rintro a b (h | h)
    · exact Or.inl h.symm
    · exact Or.inr (by rw [h, Prod.swap_swap])
  let P : Nat → Nat := fun g => if hg : g < nf * k then (hh g hg).choose else g
  have hP : ∀ g, ∀ hg : g < nf * k, P g < nf * k ∧ E.getD g 0 = P g / nf ∧ F.getD g 0 = P g % nf ∧
        ((P g = g ∧ ∀ g' < nf * k, g' ≠ g → ¬ SameEdge nf e2v g g') ∨ (P g ≠ g ∧ SameEdge nf e2v g (P g))) := by
    intro g hg
    have := (hh g hg).choose_spec
    have hp : P g = (hh g hg).choose := by simp only [P, dif_pos hg]
    rw [hp]; exact this
  refine ⟨E, F, e, l1, l2, P, ?_⟩
  intro g hg
  obtain ⟨a1, a2, a3, a4⟩ := hP g hg
  refine ⟨a1, ?_, a2, a3, ?_, ?_⟩
  · rcases a4 with ⟨h1, _⟩ | ⟨h1, h2⟩
    · rw [h1, h1]
    · obtain ⟨b1, _, _, b4⟩ := hP (P g) a1
      rcases b4 with ⟨_, c2⟩ | ⟨c1, c2⟩
      · exact absurd (hsym _ _ h2) (c2 g hg (Ne.symm h1))
      · exact hconf (P g) a1 (P (P g)) b1 g hg (Ne.symm c1) h1 c2 (hsym _ _ h2)
  · constructor
    · intro hp
      rcases a4 with ⟨_, h2⟩ | ⟨h1, _⟩
      · exact h2
      · exact absurd hp h1
    · intro hall
      rcases a4 with ⟨h1, _⟩ | ⟨h1, h2⟩
      · exact h1
      · exact absurd h2 (hall _ a1 h1)
  · intro g' hg' hne
    rcases a4 with ⟨h1, h2⟩ | ⟨h1, h2⟩
    · exact ⟨fun hs => absurd hs (h2 g' hg' hne), fun hp => absurd (hp.symm.trans h1) hne⟩
    · exact ⟨fun hs => hconf g hg _ a1 _ hg' (Ne.symm h1) (Ne.symm hne) h2 hs, fun hp => hp ▸ h2⟩

/-- Two quadrilaterals sharing an edge. -/
example : buildConnectivity true 6 4 2 [0, 1, 2, 3, 1, 4, 5, 2] (List.replicate 8 7) (List.replicate 8 7)
    = .ok ([0, 1, 0, 0, 1, 1, 1, 0], [0, 3, 2, 3, 0, 1, 2, 1]) := by decide +kernel

/-- Where the hypothesis of distinct ends fails, the claim fails: face 0 with ends 0 and 1 is paired with face 0 of
element 1, whose two ends are both vertex 1; so is face 1 with ends 1 and 2. -/
theorem C21_degenerate_wrong : ∃ E F, buildConnectivity false 4 3 2 [0, 1, 2, 1, 1, 3] (List.replicate 6 0) (List.replicate 6 0)
    = .ok (E, F) ∧ E.getD 0 0 = 1 ∧ F.getD 0 0 = 0 ∧ ¬ SameEdge 3 [0, 1, 2, 1, 1, 3] 0 3 ∧ E.getD 1 0 = 1 ∧ F.getD 1 0 = 0 :=
  ⟨[1, 1, 0, 1, 1, 1], [0, 0, 2, 2, 2, 1], by decide +kernel, by decide, by decide, by unfold SameEdge; decide, by decide, by decide⟩

/-- The product `NumVerts * totalFaces` overflows `int` for meshes of moderate size: undefined behaviour by the language standard. -/
theorem C21_overflow_ub (nv nf k : Nat) (e2v : List Int) (e2e e2f : List Nat) (h : nv * (nf * k) > intMax) :
    buildConnectivity false nv nf k e2v e2e e2f = .ub := by
  simp [buildConnectivity, buildVToF, cscAlloc, prodIsZero, h]

/-! ### C22 -/

theorem bc_loop {tag nf k : Nat} {E : List Nat} (hE : E.length = nf * k) (n : Nat) (hn : n ≤ nf * k) :
    loopM (fun t f => do
      let k2 ← rd E f
      if k2 = f / nf then wr t f tag else pure t) (List.replicate (nf * k) 0) (List.range n)
      = .ok (((List.range n).map fun f => if E.getD f 0 = f / nf then tag else 0) ++ List.replicate (nf * k - n) 0) := by
  induction n with
  | zero => simp
  | succ n ih =>
    rw [List.range_succ, loopM_append, ih (by omega), Out.bind_ok, loopM_cons, rd_of_lt (by omega), Out.bind_ok]
    have hg : E[n]? = some (E[n]'(by omega)) := List.getElem?_eq_getElem (by omega)
    obtain ⟨f, hf⟩ : ∃ f, nf * k - n = f + 1 := ⟨nf * k - n - 1, by omega⟩
    have hf' : nf * k - (n + 1) = f := by omega
    rw [hf, hf', List.replicate_succ]
    by_cases hc : E[n]'(by omega) = n / nf
    · rw [if_pos hc, wr_of_lt (by simp), List.set_append_right _ _ (by simp)]
      simp [hg, hc]
    · rw [if_neg hc]
      simp [hg, hc]

/-- Two faces of one element with pairwise different vertices have different ends. -/
theorem same_element {nf k : Nat} {e2v : List Int} (hnf : nf = 3 ∨ nf = 4)
    (hd : ∀ e < k, ∀ i < nf, ∀ j < nf, i ≠ j → e2v.getD (e * nf + i) 0 ≠ e2v.getD (e * nf + j) 0)
    {g h : Nat} (hg : g < nf * k) (hs : SameEdge nf e2v g h) (he : h / nf = g / nf) : h = g := by
  have hnf0 : 0 < nf := by omega
  have hk : g / nf < k := Nat.div_lt_of_lt_mul hg
  have h1 := Nat.div_add_mod g nf
  have h2 := Nat.div_add_mod h nf
  have m1 := Nat.mod_lt g hnf0
  have m2 := Nat.mod_lt h hnf0
  rw [he] at h2
  suffices g % nf = h % nf by omega
  unfold SameEdge ends at hs
  rw [he] at hs
  simp only [Prod.swap, Prod.mk.injEq] at hs
  have key := hd _ hk
  have inj : ∀ i < nf, ∀ j < nf, e2v.getD (g / nf * nf + i) 0 = e2v.getD (g / nf * nf + j) 0 → i = j := by
    intro i hi j hj hx
    by_contra hc
    exact key i hi j hj hc hx
  rcases hs with ⟨a, _⟩ | ⟨a, b⟩
  · exact inj _ m1 _ m2 a
  · have a' := inj _ m1 _ (Nat.mod_lt _ hnf0) a
    have b' := inj _ (Nat.mod_lt _ hnf0) _ m2 b
    generalize g % nf = x at *
    generalize h % nf = y at *
    rcases hnf with rfl | rfl <;> omega

theorem distinct_ends {nf k : Nat} {e2v : List Int} (hnf : nf = 3 ∨ nf = 4)
    (hd : ∀ e < k, ∀ i < nf, ∀ j < nf, i ≠ j → e2v.getD (e * nf + i) 0 ≠ e2v.getD (e * nf + j) 0) :
    ∀ g < nf * k, (ends nf e2v g).1 ≠ (ends nf e2v g).2 := by
  intro g hg
  have hnf0 : 0 < nf := by omega
  have m1 := Nat.mod_lt g hnf0
  refine hd _ (Nat.div_lt_of_lt_mul hg) _ m1 _ (Nat.mod_lt _ hnf0) ?_
  generalize g % nf = x at *
  rcases hnf with rfl | rfl <;> omega

/-- **C22.** For every mesh of triangles or quadrilaterals whose elements have pairwise different vertices, after connectivity and boundary
table are built the table holds Wall at a face exactly when no other face of the mesh has the same two ends, and 0 otherwise;
whatever the tables contained before. -/
theorem C22_boundary (wrap : Bool) (nv nf k : Nat) (e2v : List Int) (e2e e2f bc : List Nat) (hnf : nf = 3 ∨ nf = 4)
    (hlen : e2v.length = nf * k) (hv : ∀ v ∈ e2v, 0 ≤ v ∧ v < (nv : Int))
    (hd : ∀ e < k, ∀ i < nf, ∀ j < nf, i ≠ j → e2v.getD (e * nf + i) 0 ≠ e2v.getD (e * nf + j) 0)
    (hov : nv * (nf * k) ≤ intMax ∨ wrap = true ∧ nv * (nf * k) % 4294967296 ≠ 0)
    (hE : e2e.length = nf * k) (hF : e2f.length = nf * k) (hB : bc.length = nf * k) :
    ∃ E F B, buildConnectivity wrap nv nf k e2v e2e e2f = .ok (E, F) ∧ buildBCTable wall nf k E bc = .ok B ∧ B.length = nf * k ∧
      ∀ g < nf * k, ((∀ g' < nf * k, g' ≠ g → ¬ SameEdge nf e2v g g') → B.getD g 0 = 3) ∧
        ((∃ g' < nf * k, g' ≠ g ∧ SameEdge nf e2v g g') → B.getD g 0 = 0) := by
  obtain ⟨E, F, e, l1, l2, hh⟩ := C21_connectivity wrap nv nf k e2v e2e e2f hnf hlen hv (distinct_ends hnf hd) hov hE hF
  have hb := bc_loop (tag := wall) l1 (nf * k) (le_refl _)
  refine ⟨E, F, _, e, by rw [buildBCTable, hB]; exact hb, by simp, ?_⟩
  intro g hg
  rw [Nat.sub_self, List.replicate_zero, List.append_nil]
  have hget : ((List.range (nf * k)).map fun f => if E.getD f 0 = f / nf then wall else 0).getD g 0
      = if E.getD g 0 = g / nf then wall else 0 := by
    simp [hg]
  rw [hget]
  obtain ⟨h, hh1, hh2, hh3, hh4⟩ := hh g hg
  constructor
  · intro hall
    rcases hh4 with ⟨rfl, _⟩ | ⟨hne, hs⟩
    · rw [if_pos hh2]; rfl
    · exact absurd hs (hall h hh1 hne)
  · rintro ⟨g', hg', hne, hs⟩
    rcases hh4 with ⟨rfl, hall⟩ | ⟨hne', hs'⟩
    · exact absurd hs (hall g' hg' hne)
    · rw [if_neg]
      intro hx
      exact hne' (same_element hnf hd hg hs' (hh2.symm.trans hx))

example : buildBCTable wall 3 2 [0, 1, 0, 1, 1, 0] (List.replicate 6 7) = .ok [3, 0, 3, 3, 3, 0] := by decide

/-! ### C26 -/

/-- **C26.** The element pointers handed to the partitioner: element `e` occupies positions `eptr e` to `eptr (e+1)`, which are exactly
its `nf` positions of EToV, and the last pointer is the length of EToV. -/
theorem C26_eptr (nf k : Nat) (e2v : List Int) (hlen : e2v.length = nf * k) (buf : List Nat) (hb : buf.length = k + 1) :
    ∃ p, eptr nf k buf = .ok p ∧ p.length = k + 1 ∧ p.getD 0 7 = 0 ∧ p.getD k 0 = e2v.length ∧
      ∀ e < k, (e2v.take (p.getD (e + 1) 0)).drop (p.getD e 0) = (List.range nf).map fun i => e2v.getD (e * nf + i) 0 := by
  have gen : ∀ n ≤ k + 1, loopM (fun l i => wr l i (nf * i)) buf (List.range n) = .ok ((List.range n).map (nf * ·) ++ buf.drop n) := by
    intro n hn
    induction n with
    | zero => simp
    | succ n ih =>
      rw [List.range_succ, loopM_append, ih (by omega), Out.bind_ok, loopM_cons, wr_of_lt (by simp; omega), Out.bind_ok, loopM_nil,
        List.set_append_right _ _ (by simp), List.drop_eq_getElem_cons (by omega : n < buf.length)]
      simp only [List.length_map, List.length_range, Nat.sub_self, List.set_cons_zero, List.map_append, List.map_cons, List.map_nil,
        List.append_assoc, List.cons_append, List.nil_append]
  have := gen (k + 1) (le_refl _)
  rw [List.drop_of_length_le (by omega), List.append_nil] at this
  have hget : ∀ e ≤ k, ((List.range (k + 1)).map (nf * ·)).getD e 0 = nf * e := by
    intro e he
    have : e < k + 1 := by omega
    simp [this]
  refine ⟨_, this, by simp, by simp, ?_, ?_⟩
  · rw [hget k (le_refl _), hlen]
  · intro e he
    rw [hget e (by omega), hget (e + 1) (by omega)]
    have hle : nf * (e + 1) ≤ nf * k := Nat.mul_le_mul_left _ he
    apply List.ext_getElem
    · simp only [List.length_drop, List.length_take, hlen, List.length_map, List.length_range]
      rw [Nat.min_eq_left hle, Nat.mul_succ]; omega
    · intro i h1 h2
      have hi : i < nf := by simpa using h2
      have hlt : e * nf + i < e2v.length := by rw [hlen]; rw [Nat.mul_succ, Nat.mul_comm] at hle; omega
      simp only [List.getElem_drop, List.getElem_take, List.getElem_map, List.getElem_range]
      simp only [List.getD_eq_getElem?_getD, List.getElem?_eq_getElem hlt, Option.getD_some, Nat.mul_comm nf e]

example : eptr 3 2 [9, 9, 9] = .ok [0, 3, 6] := by decide

end Blitzdg.Mesh
