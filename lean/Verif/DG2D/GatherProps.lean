import Verif.DG2D.Gather

/-! Property C67: the corner coordinates used for an element are those of its vertices. -/

namespace Blitzdg.DG2D

theorem tabM_ok {β : Type} (f : Nat → Out β) (g : Nat → β) (n : Nat) (h : ∀ i < n, f i = .ok (g i)) :
    tabM f n = .ok ((List.range n).map g) := by
  induction n with
  | zero => rfl
  | succ n ih =>
    simp only [tabM]
    rw [ih fun i hi => h i (by omega), h n (by omega)]
    simp [List.range_succ]

theorem tabM_ub {β : Type} (f : Nat → Out β) (n i : Nat) (hi : i < n) (hub : f i = .ub) (hnt : ∀ j, f j ≠ .throws) :
    tabM f n = .ub := by
  induction n with
  | zero => omega
  | succ n ih =>
    simp only [tabM]
    by_cases h : i < n
    · rw [ih h]; rfl
    · have : i = n := by omega
      subst this
      have hl : tabM f i ≠ .throws := by
        clear ih hi hub h
        induction i with
        | zero => simp [tabM]
        | succ i ih =>
          simp only [tabM]
          cases hc : tabM f i with
          | ok l =>
            cases hd : f i with
            | ok b => simp
            | throws => exact absurd hd (hnt i)
            | ub => simp
          | throws => exact absurd hc ih
          | ub => simp
      cases hc : tabM f i with
      | ok l => simp [hub]
      | throws => exact absurd hc hl
      | ub => rfl

/-- C67.  For every mesh whose element table has `nf*K` entries below `nv` and whose vertex table holds three coordinates per
vertex, gathering succeeds and corner `j` of element `k` has exactly the first two coordinates of vertex `EToV(k,j)`. -/
theorem C67_gather_partial {α : Type} (nf : Nat) (ev : List Nat) (vert : List α) (nv K : Nat)
    (hev : ev.length = nf * K) (hlt : ∀ v ∈ ev, v < nv) (hvert : vert.length = 3 * nv) :
    ∃ g, gather nf ev vert nv K = .ok g ∧ g.length = K ∧
      ∀ k < K, ∃ row, g[k]? = some row ∧ row.length = nf ∧
        ∀ j < nf, ∃ v x y, ev[nf * k + j]? = some v ∧ vert[3 * v]? = some x ∧ vert[3 * v + 1]? = some y ∧ row[j]? = some (x, y) := by
  have hin : ∀ k < K, ∀ j < nf, nf * k + j < ev.length := by
    intro k hk j hj
    rw [hev]
    calc nf * k + j < nf * k + nf := by omega
      _ = nf * (k + 1) := by rw [Nat.mul_succ]
      _ ≤ nf * K := Nat.mul_le_mul_left _ hk
  have h1 : unpackElements nf ev K = .ok ((List.range K).map fun i => (List.range nf).map fun j => ev.getD (nf * i + j) 0) := by
    refine tabM_ok _ _ _ fun i hi => tabM_ok _ _ _ fun j hj => ?_
    rw [rd_eq_ok, List.getD_eq_getElem?_getD, List.getElem?_eq_getElem (hin i hi j hj)]; rfl
  by_cases hv0 : nv = 0
  · have hev0 : ev = [] := by
      cases ev with
      | nil => rfl
      | cons a t => have := hlt a (by simp); omega
    have hz : nf * K = 0 := by rw [← hev, hev0]; rfl
    have hg : gather nf ev vert nv K = .ok ((List.range K).map fun _ => []) := by
      unfold gather
      rw [h1]
      subst hv0
      have hvs : unpackVerts vert 0 = .ok [] := rfl
      simp only [Out.bind_ok, hvs]
      refine tabM_ok _ _ _ fun i hi => ?_
      have hnf : nf = 0 := by
        rcases Nat.mul_eq_zero.1 hz with h | h
        · exact h
        · omega
      subst hnf
      rw [rd_of_lt (by simpa using hi)]
      rfl
    refine ⟨_, hg, by simp, fun k hk => ?_⟩
    have hnf : nf = 0 := by
      rcases Nat.mul_eq_zero.1 hz with h | h
      · exact h
      · omega
    subst hnf
    exact ⟨[], by simp [hk], rfl, fun j hj => by omega⟩
  · have hvl : 0 < vert.length := by omega
    obtain ⟨d⟩ : Nonempty α := ⟨vert[0]⟩
    have h2 : unpackVerts vert nv = .ok ((List.range nv).map fun i => (vert.getD (3 * i) d, vert.getD (3 * i + 1) d, vert.getD (3 * i + 2) d)) := by
      refine tabM_ok _ _ _ fun i hi => ?_
      rw [rd_of_lt (show 3 * i < vert.length by omega), Out.bind_ok, rd_of_lt (show 3 * i + 1 < vert.length by omega), Out.bind_ok,
        rd_of_lt (show 3 * i + 2 < vert.length by omega), Out.bind_ok]
      simp [List.getD_eq_getElem?_getD, List.getElem?_eq_getElem (show 3 * i < vert.length by omega),
        List.getElem?_eq_getElem (show 3 * i + 1 < vert.length by omega), List.getElem?_eq_getElem (show 3 * i + 2 < vert.length by omega)]
    have hvlt : ∀ k < K, ∀ j < nf, ev.getD (nf * k + j) 0 < nv := by
      intro k hk j hj
      rw [List.getD_eq_getElem?_getD, List.getElem?_eq_getElem (hin k hk j hj)]
      exact hlt _ (List.getElem_mem _)
    have h3 : gather nf ev vert nv K = .ok ((List.range K).map fun i => (List.range nf).map fun j =>
        (vert.getD (3 * ev.getD (nf * i + j) 0) d, vert.getD (3 * ev.getD (nf * i + j) 0 + 1) d)) := by
      unfold gather
      rw [h1, Out.bind_ok, h2, Out.bind_ok]
      refine tabM_ok _ _ _ fun i hi => ?_
      rw [rd_of_lt (by simpa using hi), Out.bind_ok]
      refine tabM_ok _ _ _ fun j hj => ?_
      have hv := hvlt i hi j hj
      rw [rd_of_lt (by simpa using hj), Out.bind_ok, rd_of_lt (by simpa using hv), Out.bind_ok]
      simp
    refine ⟨_, h3, by simp, fun k hk => ?_⟩
    refine ⟨_, by simp [hk]; rfl, by simp, fun j hj => ?_⟩
    have hv := hvlt k hk j hj
    refine ⟨ev.getD (nf * k + j) 0, vert.getD (3 * ev.getD (nf * k + j) 0) d, vert.getD (3 * ev.getD (nf * k + j) 0 + 1) d, ?_, ?_, ?_, ?_⟩
    · rw [List.getD_eq_getElem?_getD, List.getElem?_eq_getElem (hin k hk j hj)]; rfl
    · rw [List.getD_eq_getElem?_getD (l := vert), List.getElem?_eq_getElem (show _ < vert.length by omega)]; rfl
    · rw [List.getD_eq_getElem?_getD (l := vert), List.getElem?_eq_getElem (show _ < vert.length by omega)]; rfl
    · simp [hj]

/-- The hypothesis on the vertex table matters: with two coordinates per vertex (accepted by `buildMesh` and `readVertices`, which set
`Dim` from their input) the fixed stride runs off the end, whatever the mesh. -/
theorem C67_two_columns {α : Type} (nf : Nat) (ev : List Nat) (vert : List α) (nv K : Nat)
    (hev : ev.length = nf * K) (hvert : vert.length = 2 * nv) (hnv : 0 < nv) : gather nf ev vert nv K = .ub := by
  have h1 : unpackElements nf ev K = .ok ((List.range K).map fun i => (List.range nf).map fun j => ev.getD (nf * i + j) 0) := by
    refine tabM_ok _ _ _ fun i hi => tabM_ok _ _ _ fun j hj => ?_
    have : nf * i + j < ev.length := by
      rw [hev]
      calc nf * i + j < nf * i + nf := by omega
        _ = nf * (i + 1) := by rw [Nat.mul_succ]
        _ ≤ nf * K := Nat.mul_le_mul_left _ hi
    rw [rd_eq_ok, List.getD_eq_getElem?_getD, List.getElem?_eq_getElem this]; rfl
  have hr : ∀ k, rd vert k ≠ .throws := by intro k; unfold rd; split <;> simp
  have h2 : unpackVerts vert nv = .ub := by
    refine tabM_ub _ _ (nv - 1) (by omega) ?_ ?_
    · have hz : rd vert (3 * (nv - 1) + 2) = .ub := by simp [rd, show vert.length ≤ 3 * (nv - 1) + 2 by omega]
      cases ha : rd vert (3 * (nv - 1)) with
      | throws => exact absurd ha (hr _)
      | ub => rfl
      | ok a =>
        cases hb : rd vert (3 * (nv - 1) + 1) with
        | throws => exact absurd hb (hr _)
        | ub => rfl
        | ok b => simp [hz]
    · intro j
      cases ha : rd vert (3 * j) with
      | throws => exact absurd ha (hr _)
      | ub => simp
      | ok a =>
        cases hb : rd vert (3 * j + 1) with
        | throws => exact absurd hb (hr _)
        | ub => simp
        | ok b =>
          cases hc : rd vert (3 * j + 2) with
          | throws => exact absurd hc (hr _)
          | ub => simp
          | ok c => simp
  unfold gather
  rw [h1, Out.bind_ok, h2, Out.bind_ub]

/-- Two triangles on four vertices: hypotheses met, corners as expected. -/
example : [0, 1, 2, 1, 3, 2].length = 3 * 2 ∧ (∀ v ∈ [0, 1, 2, 1, 3, 2], v < 4) ∧
    gather 3 [0, 1, 2, 1, 3, 2] ["x0", "y0", "z0", "x1", "y1", "z1", "x2", "y2", "z2", "x3", "y3", "z3"] 4 2 =
      .ok [[("x0", "y0"), ("x1", "y1"), ("x2", "y2")], [("x1", "y1"), ("x3", "y3"), ("x2", "y2")]] := by decide

end Blitzdg.DG2D
