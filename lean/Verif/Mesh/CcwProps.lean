import Verif.Mesh.ConnProps
import Mathlib.Algebra.Order.Field.Basic
import Mathlib.Tactic.Ring
import Mathlib.Tactic.Linarith

/-! Counter-clockwise enforcement (C23). -/

namespace Blitzdg.Mesh

set_option linter.unusedSectionVars false

variable {R : Type} [Field R] [LinearOrder R] [IsStrictOrderedRing R]

/-! ### Specification -/

/-- Coordinate `d` of vertex `v`. -/
def crd (vert : List R) (dim : Nat) (v : Int) (d : Nat) : R := vert.getD (v.toNat * dim + d) 0

/-- Twice the signed area of the triangle `a b c` (positive: counter-clockwise), the shoelace formula. -/
def area2 (vert : List R) (dim : Nat) (a b c : Int) : R :=
  crd vert dim a 0 * crd vert dim b 1 - crd vert dim b 0 * crd vert dim a 1
  + (crd vert dim b 0 * crd vert dim c 1 - crd vert dim c 0 * crd vert dim b 1)
  + (crd vert dim c 0 * crd vert dim a 1 - crd vert dim a 0 * crd vert dim c 1)

/-- `u` and `v` are joined by an edge of element `e`. -/
def IsEdge (nf : Nat) (e2v : List Int) (e : Nat) (u v : Int) : Prop :=
  ∃ f < nf, ends nf e2v (e * nf + f) = (u, v) ∨ ends nf e2v (e * nf + f) = (v, u)

/-- Vertex `i` of element `e`. -/
def vtx (nf : Nat) (e2v : List Int) (e i : Nat) : Int := e2v.getD (e * nf + i) 0

/-! ### Lemmas -/

theorem coord_ok {nv dim : Nat} {vert : List R} {e2v : List Int} (hd : 2 ≤ dim) (hvert : vert.length = dim * nv)
    (hv : ∀ v ∈ e2v, 0 ≤ v ∧ v < (nv : Int)) {i d : Nat} (hi : i < e2v.length) (hdd : d < 2) :
    coord vert dim e2v i d = .ok (crd vert dim (e2v.getD i 0) d) := by
  unfold coord
  have := rd_toIx hi hv
  have hm := hv _ (List.getElem_mem hi)
  have hg : e2v.getD i 0 = e2v[i] := by simp [hi]
  have hlt : (e2v.getD i 0).toNat * dim + d < vert.length := by
    rw [hvert, hg]
    have h1 : e2v[i].toNat + 1 ≤ nv := by omega
    have := Nat.mul_le_mul_left dim h1
    rw [Nat.mul_succ, Nat.mul_comm] at this
    omega
  rw [this, Out.bind_ok, rd_of_lt hlt]
  simp only [crd, List.getD_eq_getElem?_getD] at hlt ⊢
  rw [List.getElem?_eq_getElem hlt]
  rfl

/-- The element table after the orientation test of element `k`. -/
def orient (vert : List R) (dim nf : Nat) (e2v : List Int) (k : Nat) : List Int :=
  if area2 vert dim (vtx nf e2v k 0) (vtx nf e2v k 1) (vtx nf e2v k 2) < 0 then
    (e2v.set (nf * k + 1) (vtx nf e2v k 2)).set (nf * k + 2) (vtx nf e2v k 1)
  else e2v

theorem ccwStep_ok {nv dim nf k : Nat} {vert : List R} {e2v : List Int} (hnf : 3 ≤ nf) (hd : 2 ≤ dim) (hvert : vert.length = dim * nv)
    (hlen : e2v.length = nf * k)
    (hv : ∀ v ∈ e2v, 0 ≤ v ∧ v < (nv : Int)) {e : Nat} (he : e < k) :
    ccwStep vert dim nf e2v e = .ok (orient vert dim nf e2v e) := by
  have hle : nf * e + nf ≤ nf * k := by rw [← Nat.mul_succ]; exact Nat.mul_le_mul_left _ he
  have h0 : nf * e < e2v.length := by omega
  have h1 : nf * e + 1 < e2v.length := by omega
  have h2 : nf * e + 2 < e2v.length := by omega
  unfold ccwStep
  rw [coord_ok hd hvert hv h0 (by omega), Out.bind_ok, coord_ok hd hvert hv h0 (by omega), Out.bind_ok,
    coord_ok hd hvert hv h1 (by omega), Out.bind_ok, coord_ok hd hvert hv h1 (by omega), Out.bind_ok,
    coord_ok hd hvert hv h2 (by omega), Out.bind_ok, coord_ok hd hvert hv h2 (by omega), Out.bind_ok]
  unfold orient area2 vtx
  simp only [Nat.mul_comm e nf, Nat.add_zero]
  generalize crd vert dim (e2v.getD (nf * e) 0) 0 = ax
  generalize crd vert dim (e2v.getD (nf * e) 0) 1 = ay
  generalize crd vert dim (e2v.getD (nf * e + 1) 0) 0 = bx
  generalize crd vert dim (e2v.getD (nf * e + 1) 0) 1 = b_y
  generalize crd vert dim (e2v.getD (nf * e + 2) 0) 0 = cx
  generalize crd vert dim (e2v.getD (nf * e + 2) 0) 1 = cy
  have hq : (ax - cx) * (b_y - cy) - (bx - cx) * (ay - cy)
      = ax * b_y - bx * ay + (bx * cy - cx * b_y) + (cx * ay - ax * cy) := by ring
  rw [hq]
  by_cases hc : ax * b_y - bx * ay + (bx * cy - cx * b_y) + (cx * ay - ax * cy) < 0
  · rw [if_pos hc, if_pos hc, rd_of_lt h1, Out.bind_ok, rd_of_lt h2, Out.bind_ok, wr_of_lt h1, Out.bind_ok, wr_of_lt (by simpa using h2)]
    simp [h1, h2]
  · rw [if_neg hc, if_neg hc]; rfl

theorem getD_set_ne {α : Type} (l : List α) {i j : Nat} (h : i ≠ j) (a d : α) : (l.set i a).getD j d = l.getD j d := by
  simp [List.getD_eq_getElem?_getD, List.getElem?_set_ne h]

theorem getD_set_eq {α : Type} (l : List α) {i : Nat} (h : i < l.length) (a d : α) : (l.set i a).getD i d = a := by
  simp [List.getD_eq_getElem?_getD, h]

/-- Orientation of element `k` leaves the other elements alone. -/
theorem orient_other {vert : List R} {dim nf : Nat} {e2v : List Int} {k e i : Nat} (hnf : 3 ≤ nf) (hi : i < nf) (hne : e ≠ k) :
    vtx nf (orient vert dim nf e2v k) e i = vtx nf e2v e i := by
  have hx : ∀ j < nf, nf * k + j ≠ e * nf + i := by
    intro j hj hc
    have := congrArg (· / nf) hc
    simp only [Nat.mul_comm e nf] at this
    rw [Nat.mul_add_div (by omega), Nat.mul_add_div (by omega), Nat.div_eq_of_lt hj, Nat.div_eq_of_lt hi] at this
    omega
  unfold orient
  split_ifs
  · unfold vtx
    rw [getD_set_ne _ (hx 2 (by omega)), getD_set_ne _ (hx 1 (by omega))]
  · rfl

theorem orient_length (vert : List R) (dim nf : Nat) (e2v : List Int) (k : Nat) :
    (orient vert dim nf e2v k).length = e2v.length := by
  unfold orient; split_ifs <;> simp

theorem orient_mem {vert : List R} {dim nf : Nat} {e2v : List Int} {k K : Nat} (hnf : 3 ≤ nf) (hlen : e2v.length = nf * K) (hk : k < K) :
    ∀ v ∈ orient vert dim nf e2v k, v ∈ e2v := by
  have hle : nf * k + nf ≤ nf * K := by rw [← Nat.mul_succ]; exact Nat.mul_le_mul_left _ hk
  have hm : ∀ j < nf, vtx nf e2v k j ∈ e2v := by
    intro j hj
    unfold vtx
    have : k * nf + j < e2v.length := by rw [hlen, Nat.mul_comm k]; omega
    simp [List.getD_eq_getElem?_getD, this]
  intro v hv
  unfold orient at hv
  split_ifs at hv
  · rcases List.mem_or_eq_of_mem_set hv with h | h
    · rcases List.mem_or_eq_of_mem_set h with h | h
      · exact h
      · rw [h]; exact hm 2 (by omega)
    · rw [h]; exact hm 1 (by omega)
  · exact hv

/-- The vertices of element `k` after its own orientation step. -/
theorem orient_self {vert : List R} {dim nf : Nat} {e2v : List Int} {k K : Nat} (hnf : 3 ≤ nf) (hlen : e2v.length = nf * K) (hk : k < K) :
    (area2 vert dim (vtx nf e2v k 0) (vtx nf e2v k 1) (vtx nf e2v k 2) < 0 →
      ∀ i, i < nf → vtx nf (orient vert dim nf e2v k) k i = vtx nf e2v k (if i = 1 then 2 else if i = 2 then 1 else i)) ∧
    (¬ area2 vert dim (vtx nf e2v k 0) (vtx nf e2v k 1) (vtx nf e2v k 2) < 0 →
      ∀ i, i < nf → vtx nf (orient vert dim nf e2v k) k i = vtx nf e2v k i) := by
  have hle : nf * k + nf ≤ nf * K := by rw [← Nat.mul_succ]; exact Nat.mul_le_mul_left _ hk
  constructor
  · intro hc i hi
    unfold orient
    rw [if_pos hc]
    by_cases h1 : i = 1
    · subst h1
      rw [if_pos rfl]
      show List.getD _ (k * nf + 1) 0 = _
      rw [getD_set_ne _ (by rw [Nat.mul_comm k]; omega), Nat.mul_comm k, getD_set_eq _ (by omega)]
    · rw [if_neg h1]
      by_cases h2 : i = 2
      · subst h2
        rw [if_pos rfl]
        show List.getD _ (k * nf + 2) 0 = _
        rw [Nat.mul_comm k, getD_set_eq _ (by simp; omega)]
      · rw [if_neg h2]
        show List.getD _ (k * nf + i) 0 = _
        rw [getD_set_ne _ (by rw [Nat.mul_comm k]; omega), getD_set_ne _ (by rw [Nat.mul_comm k]; omega)]
        rfl
  · intro hc i _
    unfold orient
    rw [if_neg hc]

theorem ccw_loop {nv dim nf k : Nat} {vert : List R} {e2v : List Int} (hnf : 3 ≤ nf) (hd : 2 ≤ dim) (hvert : vert.length = dim * nv)
    (hlen : e2v.length = nf * k) (hv : ∀ v ∈ e2v, 0 ≤ v ∧ v < (nv : Int)) (n : Nat) (hn : n ≤ k) :
    ∃ e', loopM (ccwStep vert dim nf) e2v (List.range n) = .ok e' ∧ e'.length = nf * k ∧ (∀ v ∈ e', v ∈ e2v) ∧
      (∀ e, n ≤ e → ∀ i < nf, vtx nf e' e i = vtx nf e2v e i) ∧
      ∀ e < n, ∀ i < nf, vtx nf e' e i =
        vtx nf e2v e (if area2 vert dim (vtx nf e2v e 0) (vtx nf e2v e 1) (vtx nf e2v e 2) < 0 then
          (if i = 1 then 2 else if i = 2 then 1 else i) else i) := by
  induction n with
  | zero => exact ⟨e2v, rfl, hlen, fun v h => h, fun _ _ _ _ => rfl, by omega⟩
  | succ n ih =>
    obtain ⟨e', h1, h2, h3, h4, h5⟩ := ih (by omega)
    have hv' : ∀ v ∈ e', 0 ≤ v ∧ v < (nv : Int) := fun v h => hv v (h3 v h)
    refine ⟨orient vert dim nf e' n, ?_, ?_, ?_, ?_, ?_⟩
    · rw [List.range_succ, loopM_append, h1, Out.bind_ok, loopM_cons, ccwStep_ok hnf hd hvert h2 hv' (by omega)]
      rfl
    · rw [orient_length, h2]
    · intro v hv0
      exact h3 v (orient_mem hnf h2 (by omega : n < k) v hv0)
    · intro e he i hi
      rw [orient_other hnf hi (by omega), h4 e (by omega) i hi]
    · intro e he i hi
      by_cases hen : e = n
      · subst hen
        obtain ⟨s1, s2⟩ := orient_self (vert := vert) (dim := dim) hnf h2 (by omega : e < k)
        rw [h4 e (le_refl _) 0 (by omega), h4 e (le_refl _) 1 (by omega), h4 e (le_refl _) 2 (by omega)] at s1 s2
        split_ifs with hc h1 h2
        · rw [s1 hc i hi, if_pos h1, h4 e (le_refl _) _ (by omega)]
        · rw [s1 hc i hi, if_neg h1, if_pos h2, h4 e (le_refl _) _ (by omega)]
        · rw [s1 hc i hi, if_neg h1, if_neg h2, h4 e (le_refl _) _ (by omega)]
        · rw [s2 hc i hi, h4 e (le_refl _) _ hi]
      · rw [orient_other hnf hi hen, h5 e (by omega) i hi]

/-! ### C23 -/

theorem ends_vtx {nf : Nat} (hnf : 0 < nf) (e2v : List Int) (e f : Nat) (hf : f < nf) :
    ends nf e2v (e * nf + f) = (vtx nf e2v e f, vtx nf e2v e ((f + 1) % nf)) := by
  have h1 : (e * nf + f) / nf = e := by
    rw [Nat.mul_comm, Nat.mul_add_div hnf, Nat.div_eq_of_lt hf, Nat.add_zero]
  have h2 : (e * nf + f) % nf = f := by rw [Nat.mul_comm, Nat.mul_add_mod, Nat.mod_eq_of_lt hf]
  unfold ends vtx
  rw [h1, h2]

theorem area2_swap (vert : List R) (dim : Nat) (a b c : Int) : area2 vert dim a c b = - area2 vert dim a b c := by
  unfold area2; ring

/-- **C23, triangles.** For every triangle mesh with vertex numbers in range (coordinates in any ordered field, stride 2 or 3), orientation has no undefined
behaviour; afterwards every element lists its vertices in the input order or with the last two exchanged, has
non-negative signed area, joins the same pairs of vertices as before, and is unchanged if its area was already non-negative. -/
theorem C23_triangles (nv dim k : Nat) (vert : List R) (e2v : List Int) (hd : 2 ≤ dim) (hvert : vert.length = dim * nv)
    (hlen : e2v.length = 3 * k) (hv : ∀ v ∈ e2v, 0 ≤ v ∧ v < (nv : Int)) :
    ∃ e', ccw vert dim 3 k e2v = .ok e' ∧ e'.length = e2v.length ∧ (∀ v ∈ e', 0 ≤ v ∧ v < (nv : Int)) ∧ ∀ e < k,
      ((vtx 3 e' e 0 = vtx 3 e2v e 0 ∧ vtx 3 e' e 1 = vtx 3 e2v e 1 ∧ vtx 3 e' e 2 = vtx 3 e2v e 2) ∨
       (vtx 3 e' e 0 = vtx 3 e2v e 0 ∧ vtx 3 e' e 1 = vtx 3 e2v e 2 ∧ vtx 3 e' e 2 = vtx 3 e2v e 1)) ∧
      0 ≤ area2 vert dim (vtx 3 e' e 0) (vtx 3 e' e 1) (vtx 3 e' e 2) ∧
      (0 ≤ area2 vert dim (vtx 3 e2v e 0) (vtx 3 e2v e 1) (vtx 3 e2v e 2) → ∀ i < 3, vtx 3 e' e i = vtx 3 e2v e i) ∧
      ∀ u v, IsEdge 3 e' e u v ↔ IsEdge 3 e2v e u v := by
  obtain ⟨e', h1, h2, h3, _, h5⟩ := ccw_loop (nf := 3) (by omega) hd hvert hlen hv k (le_refl _)
  refine ⟨e', h1, by rw [h2, hlen], fun v h => hv v (h3 v h), ?_⟩
  intro e he
  have a0 := h5 e he 0 (by omega)
  have a1 := h5 e he 1 (by omega)
  have a2 := h5 e he 2 (by omega)
  have edges : ∀ l : List Int, ∀ u v, IsEdge 3 l e u v ↔
      ((vtx 3 l e 0, vtx 3 l e 1) = (u, v) ∨ (vtx 3 l e 0, vtx 3 l e 1) = (v, u)) ∨
      ((vtx 3 l e 1, vtx 3 l e 2) = (u, v) ∨ (vtx 3 l e 1, vtx 3 l e 2) = (v, u)) ∨
      ((vtx 3 l e 2, vtx 3 l e 0) = (u, v) ∨ (vtx 3 l e 2, vtx 3 l e 0) = (v, u)) := by
    intro l u v
    unfold IsEdge
    constructor
    · rintro ⟨f, hf, h⟩
      rw [ends_vtx (by omega) _ _ _ hf] at h
      interval_cases f
      · exact Or.inl h
      · exact Or.inr (Or.inl h)
      · exact Or.inr (Or.inr h)
    · rintro (h | h | h)
      · exact ⟨0, by omega, by rw [ends_vtx (by omega) _ _ _ (by omega)]; exact h⟩
      · exact ⟨1, by omega, by rw [ends_vtx (by omega) _ _ _ (by omega)]; exact h⟩
      · exact ⟨2, by omega, by rw [ends_vtx (by omega) _ _ _ (by omega)]; exact h⟩
  by_cases hc : area2 vert dim (vtx 3 e2v e 0) (vtx 3 e2v e 1) (vtx 3 e2v e 2) < 0
  · simp only [if_pos hc] at a0 a1 a2
    norm_num at a0 a1 a2
    refine ⟨Or.inr ⟨a0, a1, a2⟩, ?_, fun h => absurd hc (not_lt.2 h), ?_⟩
    · rw [a0, a1, a2, area2_swap]; linarith
    · intro u v
      rw [edges, edges, a0, a1, a2]
      simp only [Prod.mk.injEq]
      tauto
  · simp only [if_neg hc] at a0 a1 a2
    refine ⟨Or.inl ⟨a0, a1, a2⟩, ?_, ?_, ?_⟩
    · rw [a0, a1, a2]; exact not_lt.1 hc
    · intro _ i hi
      interval_cases i <;> assumption
    · intro u v
      rw [edges, edges, a0, a1, a2]

example : ccw (R := ℚ) [0, 0, 1, 0, 0, 1] 2 3 1 [0, 2, 1] = .ok [0, 1, 2] := by decide +kernel

/-- **C23, quadrilaterals (partial).** The corner at vertex 1 is made counter-clockwise, the vertex set is kept, and elements
whose corner at vertex 1 is already counter-clockwise are unchanged.  Missing: positive area of the whole element and preservation of its
edges, which fail, see `C23_quad_bowtie`. -/
theorem C23_quads_partial (nv dim k : Nat) (vert : List R) (e2v : List Int) (hd : 2 ≤ dim) (hvert : vert.length = dim * nv)
    (hlen : e2v.length = 4 * k) (hv : ∀ v ∈ e2v, 0 ≤ v ∧ v < (nv : Int)) :
    ∃ e', ccw vert dim 4 k e2v = .ok e' ∧ e'.length = e2v.length ∧ (∀ v ∈ e', 0 ≤ v ∧ v < (nv : Int)) ∧ ∀ e < k,
      ((∀ i < 4, vtx 4 e' e i = vtx 4 e2v e i) ∨
       (vtx 4 e' e 0 = vtx 4 e2v e 0 ∧ vtx 4 e' e 1 = vtx 4 e2v e 2 ∧ vtx 4 e' e 2 = vtx 4 e2v e 1 ∧ vtx 4 e' e 3 = vtx 4 e2v e 3)) ∧
      0 ≤ area2 vert dim (vtx 4 e' e 0) (vtx 4 e' e 1) (vtx 4 e' e 2) ∧
      (0 ≤ area2 vert dim (vtx 4 e2v e 0) (vtx 4 e2v e 1) (vtx 4 e2v e 2) → ∀ i < 4, vtx 4 e' e i = vtx 4 e2v e i) := by
  obtain ⟨e', h1, h2, h3, _, h5⟩ := ccw_loop (nf := 4) (by omega) hd hvert hlen hv k (le_refl _)
  refine ⟨e', h1, by rw [h2, hlen], fun v h => hv v (h3 v h), ?_⟩
  intro e he
  have a0 := h5 e he 0 (by omega)
  have a1 := h5 e he 1 (by omega)
  have a2 := h5 e he 2 (by omega)
  have a3 := h5 e he 3 (by omega)
  by_cases hc : area2 vert dim (vtx 4 e2v e 0) (vtx 4 e2v e 1) (vtx 4 e2v e 2) < 0
  · simp only [if_pos hc] at a0 a1 a2 a3
    norm_num at a0 a1 a2 a3
    refine ⟨Or.inr ⟨a0, a1, a2, a3⟩, ?_, fun h => absurd hc (not_lt.2 h)⟩
    rw [a0, a1, a2, area2_swap]; linarith
  · simp only [if_neg hc] at a0 a1 a2 a3
    have hall : ∀ i < 4, vtx 4 e' e i = vtx 4 e2v e i := by intro i hi; interval_cases i <;> assumption
    refine ⟨Or.inl hall, ?_, fun _ => hall⟩
    rw [a0, a1, a2]; exact not_lt.1 hc

/-- **C23 fails for clockwise quadrilaterals.** The unit square given clockwise becomes a self-intersecting element: vertices 2 and 3, joined
by an edge in the input, are no longer joined, vertices 1 and 3, opposite corners, are; its signed area (shoelace) is 0. -/
theorem C23_quad_bowtie : ∃ e', ccw (R := ℚ) [0, 0, 0, 1, 1, 1, 1, 0] 2 4 1 [0, 1, 2, 3] = .ok e' ∧
    IsEdge 4 [0, 1, 2, 3] 0 2 3 ∧ ¬ IsEdge 4 e' 0 2 3 ∧ ¬ IsEdge 4 [0, 1, 2, 3] 0 1 3 ∧ IsEdge 4 e' 0 1 3 ∧
    area2 (R := ℚ) [0, 0, 0, 1, 1, 1, 1, 0] 2 (vtx 4 e' 0 0) (vtx 4 e' 0 1) (vtx 4 e' 0 2)
      + area2 (R := ℚ) [0, 0, 0, 1, 1, 1, 1, 0] 2 (vtx 4 e' 0 0) (vtx 4 e' 0 2) (vtx 4 e' 0 3) = 0 := by
  refine ⟨[0, 2, 1, 3], by decide +kernel, ?_, ?_, ?_, ?_, by decide +kernel⟩ <;> unfold IsEdge <;> decide

end Blitzdg.Mesh
