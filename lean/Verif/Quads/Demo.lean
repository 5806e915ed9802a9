import Verif.Quads.RunProps

/-!
C125: meshes on which the theorems of the script on quadrilaterals can be seen at work, and one on which it loses mass.
-/

namespace Blitzdg.Quads

open MvPolynomial
open Blitzdg.Sparse (DMat)
open Blitzdg.Nodes1D (Lapack exactLapack exactLapack_ok)
open Blitzdg.Dense (toMat)
open Blitzdg.DG2D
open Blitzdg.SW (Mesh Fields State V3)

/-- The provisioner of order one. -/
theorem grid_one (m : Mesh) (P : ℕ → ℕ) (hm : QMeshOk m P) :
    ∃ g, QProvisioned exactLapack (1 / 2 ^ 52) 1e-5 1 m P g ∧ QSpec P [-1, 1] m.bcType g ∧ g.N = 1 ∧ g.K = m.K ∧ ∀ k < m.K, g.quad k = quadOf m k := by
  have hx : ∀ x, IsGLL exactLapack (1 / 2 ^ 52) 1 x → x = [-1, 1] := by
    intro x hx
    unfold IsGLL Jacobi.gllPoints at hx
    simp [wr] at hx
    exact hx.symm
  have hgap : ∀ x, IsGLL exactLapack (1 / 2 ^ 52) 1 x → ∀ i j : ℕ, i < j → j ≤ 1 → 2 * (1e-5 : ℝ) ≤ x.getD j 0 - x.getD i 0 := by
    intro x h i j hij hj
    obtain rfl : i = 0 := by omega
    obtain rfl : j = 1 := by omega
    rw [hx x h]
    norm_num
  obtain ⟨g, x, hb, h1, h2, -, h3, h4, h5⟩ := buildQGrid_spec exactLapack exactLapack_ok (1 / 2 ^ 52) (by norm_num) (by norm_num) 1e-5 (by norm_num) 1 (le_refl _) m P hm
    ⟨[-1, 1], by unfold IsGLL Jacobi.gllPoints; simp [wr]⟩ hgap
  rw [hx x h4] at h5
  exact ⟨g, ⟨exactLapack_ok, by norm_num, by norm_num, by norm_num, le_refl _, hm, hb, hgap⟩, h5, h1, h2, h3⟩

/-- The provisioner of order two. -/
theorem grid_two (m : Mesh) (P : ℕ → ℕ) (hm : QMeshOk m P) : ∃ g, QProvisioned exactLapack (1 / 2 ^ 52) 1e-5 2 m P g := by
  have hx : ∀ x, IsGLL exactLapack (1 / 2 ^ 52) 2 x ↔ x = [-1, 0, 1] := by
    intro x
    unfold IsGLL Jacobi.gllPoints Jacobi.quadWeights
    simp [wr, Jacobi.copyInterior]
    exact eq_comm
  have hgap : ∀ x, IsGLL exactLapack (1 / 2 ^ 52) 2 x → ∀ i j : ℕ, i < j → j ≤ 2 → 2 * (1e-5 : ℝ) ≤ x.getD j 0 - x.getD i 0 := by
    intro x h i j hij hj
    rw [(hx x).1 h]
    have hi : i < 2 := by omega
    interval_cases i <;> interval_cases j <;> norm_num
  obtain ⟨g, x, hb, -⟩ := buildQGrid_spec exactLapack exactLapack_ok (1 / 2 ^ 52) (by norm_num) (by norm_num) 1e-5 (by norm_num) 2 (by norm_num) m P hm ⟨_, (hx _).2 rfl⟩ hgap
  exact ⟨g, exactLapack_ok, by norm_num, by norm_num, by norm_num, by norm_num, hm, hb, hgap⟩

/-! ### Two parallelograms -/

def twoQuad (e : ℕ) : ℕ := if e = 1 then 7 else if e = 7 then 1 else e

/-- Two parallelograms with a common side, walls all around. -/
noncomputable def sheared : Mesh where
  K := 2
  nv := 6
  ev := [0, 1, 4, 3, 1, 2, 5, 4]
  vert := [0, 0, 0, 2, 0, 0, 4, 1, 0, 1, 1, 0, 3, 1, 0, 5, 2, 0]
  E := [0, 1, 0, 0, 1, 1, 1, 0]
  F := [0, 3, 2, 3, 0, 1, 2, 1]
  bcType := [3, 0, 3, 3, 3, 3, 3, 0]

theorem sheared_ok : QMeshOk sheared twoQuad where
  conn := { lenE := rfl, lenF := rfl, lt := by decide, inv := by decide, e := by decide, f := by decide, own := by decide }
  lenEv := rfl
  ltEv := by intro v hv; simp only [sheared, List.mem_cons, List.not_mem_nil, or_false] at hv ⊢; omega
  lenVert := rfl
  lenBc := le_refl _
  convex := by
    intro k hk
    have hk : k < 2 := hk
    interval_cases k <;> norm_num [ConvexCcw, corner, quadOf, corner4, sheared]
  meet := by
    intro e he hne
    have he : e < 8 := he
    interval_cases e <;> first | exact absurd rfl hne | (norm_num [twoQuad, ends, quadOf, corner4, sheared])

theorem sheared_par : ∀ k < sheared.K, Parallelogram (quadOf sheared k) := by
  intro k hk
  have hk : k < 2 := hk
  interval_cases k <;> norm_num [Parallelogram, quadOf, corner4, sheared]

theorem sheared_walls : (∀ e < 4 * sheared.K, sheared.bcType[e]? = some 3 ↔ twoQuad e = e) ∧ ∃ e < 4 * sheared.K, twoQuad e = e := by
  constructor
  · intro e he
    have he : e < 8 := he
    interval_cases e <;> simp [sheared, twoQuad]
  · exact ⟨0, by decide, rfl⟩

/-! ### A trapezoid -/

/-- One trapezoid, walls all around. -/
noncomputable def trapezoid : Mesh where
  K := 1
  nv := 4
  ev := [0, 1, 2, 3]
  vert := [0, 0, 0, 2, 0, 0, 1, 1, 0, 0, 1, 0]
  E := [0, 0, 0, 0]
  F := [0, 1, 2, 3]
  bcType := [3, 3, 3, 3]

theorem trapezoid_ok : QMeshOk trapezoid id where
  conn := { lenE := rfl, lenF := rfl, lt := by decide, inv := by decide, e := by decide, f := by decide, own := by decide }
  lenEv := rfl
  ltEv := by intro v hv; simp only [trapezoid, List.mem_cons, List.not_mem_nil, or_false] at hv ⊢; omega
  lenVert := rfl
  lenBc := le_refl _
  convex := by
    intro k hk
    have hk : k < 1 := hk
    interval_cases k
    norm_num [ConvexCcw, corner, quadOf, corner4, trapezoid]
  meet := fun e _ hne => absurd rfl hne

/-- The element as the provisioner stores it. -/
theorem trapezoid_quad : quadOf trapezoid 0 = ⟨0, 0, 2, 0, 1, 1, 0, 1⟩ := by
  simp [quadOf, corner4, trapezoid]

theorem trapezoid_jac (r s : ℝ) : jac (quadDeriv ⟨0, 0, 2, 0, 1, 1, 0, 1⟩ r s) = 3 / 8 - s / 8 := by
  simp only [jac, quadDeriv]
  ring

/-- Uniform water of depth one moving in the direction of the second coordinate. -/
def drift (g : QGrid) : Fields := ⟨⟨g.np, g.K, fun _ _ => 1⟩, ⟨g.np, g.K, fun _ _ => 0⟩, ⟨g.np, g.K, fun _ _ => 1⟩⟩

/-- Values lifted from the faces of the trapezoid. -/
noncomputable def liftD (f : ℕ) : Polynomial ℝ :=
  if f = 0 then Polynomial.C (-2) else if f = 1 then Polynomial.C (3 / 2) + Polynomial.C (1 / 2) * Polynomial.X else if f = 2 then Polynomial.C 2 else 0

theorem liftD_deg (f : ℕ) : (liftD f).natDegree ≤ 1 := by
  unfold liftD
  split_ifs <;> compute_degree <;> norm_num

theorem liftD_vals {f j : ℕ} (hf : f < 4) (hj : j ≤ 1) {a b : ℝ} (h : (a, b) = quadEdge f (([-1, 1] : List ℝ).getD j 0)) :
    (nrm ⟨0, 0, 2, 0, 1, 1, 0, 1⟩ f).2 / (3 / 8 - b / 8) = (liftD f).eval (if quadOnS f = true then b else a) := by
  interval_cases f <;> interval_cases j <;> simp [quadEdge] at h <;> obtain ⟨rfl, rfl⟩ := h <;> norm_num [nrm, ends, liftD, quadOnS]

theorem wall_jump (grav nx ny lam : ℝ) (hn : nx * nx + ny * ny = 1) (s : State) : (SW.jumpFlux grav nx ny lam s (SW.wallState nx ny s)).c1 = s.hu * nx + s.hv * ny := by
  simp only [SW.jumpFlux, SW.wallState, SW.fluxF, SW.fluxG]
  linear_combination (s.hu * nx + s.hv * ny) * hn

theorem jacPoly_space (Q : Quad) : QuadSpace 1 (jacPoly Q) := by
  have hX : ∀ i : Fin 2, QuadSpace 1 (X i : P2) := fun i j => by
    rw [degreeOf_X]
    split_ifs <;> norm_num
  have hC : ∀ c : ℝ, QuadSpace 1 (C c : P2) := fun c j => by rw [degreeOf_C]; exact Nat.zero_le _
  exact quadSpace_add (quadSpace_add (hC _) (quadSpace_smul _ (hX 0))) (quadSpace_smul _ (hX 1))

theorem trapezoid_total {g : QGrid} (hg : QSpec id [-1, 1] trapezoid.bcType g) (hN : g.N = 1) (hK : g.K = 1) (hQ : g.quad 0 = ⟨0, 0, 2, 0, 1, 1, 0, 1⟩) (grav : ℝ) :
    ∃ r, g.rhs grav (drift g) = .ok r ∧ IsTotal g r.h.at' (1 / 12) := by
  have hfit : FieldsFit (drift g) g := ⟨⟨rfl, rfl⟩, ⟨rfl, rfl⟩, rfl, rfl⟩
  have hwall : ∀ e < 4 * g.K, trapezoid.bcType[e]? = some 3 := by
    intro e he
    rw [hK] at he
    interval_cases e <;> rfl
  obtain ⟨Λ, d1, d2, d3, r, h1, h2, e1, -, -, -, hd⟩ := hg.rhs_ok grav (drift g) hfit ⟨0, by omega, rfl⟩
  refine ⟨r, h1, ?_⟩
  have hdv : ∀ f < 4, ∀ i ≤ g.N, d1.at' (f * (g.N + 1) + i) 0 = (unit (nrm (g.quad 0) f)).2 := by
    intro f hf i hi
    have he : f < 4 * g.K := by omega
    have := (hd f he i hi).1
    rw [exterior_wall _ rfl (hwall f he), wall_jump _ _ _ _ (normal_unit hg he), show f % 4 = f by omega, show f / 4 = 0 by omega] at this
    rw [this]
    unfold faceNormal inner drift Fields.at'
    rw [show f % 4 = f by omega, show f / 4 = 0 by omega]
    simp
  have hlift := fun f (hf : f < 4) => hg.elem.lift f hf (liftD f) (by rw [hN]; exact liftD_deg f)
  choose! w hw1 hw2 hw3 using hlift
  have hl := hg.nodes
  have hs : ∀ f < 4, ∀ i < g.np, ∑ j ∈ Finset.range (g.N + 1), g.o.lift.at' i (f * (g.N + 1) + j) * (g.fscale (f * (g.N + 1) + j) 0 * d1.at' (f * (g.N + 1) + j) 0) = nodal g.n.r g.n.s (w f) i := by
    intro f hf i hi
    rw [← hw2 f hf i (by rw [hl]; exact hi)]
    apply Finset.sum_congr rfl
    intro j hj
    have hj' : j ≤ g.N := by have := Finset.mem_range.1 hj; omega
    congr 1
    have hpt := hg.maskPt f hf j hj'
    have hlen : len (nrm (g.quad 0) f) ≠ 0 := (nrm_pos (hg.convex 0 (by omega)) f hf).ne'
    rw [hdv f hf j hj', hg.fscale_eq f j 0 hf hj']
    unfold derivOf unit
    rw [hQ, trapezoid_jac]
    rw [hQ] at hlen
    rw [div_mul_div_comm, mul_comm (len _), mul_div_mul_right _ _ hlen]
    rw [hN] at hj'
    rw [liftD_vals hf hj' hpt]
    simp only
    split_ifs <;> rfl
  refine ⟨fun _ => w 0 + w 1 + w 2 + w 3, fun k hk => ?_, ?_⟩
  · obtain rfl : k = 0 := by omega
    refine ⟨quadSpace_add (quadSpace_add (quadSpace_add (hw1 0 (by norm_num)) (hw1 1 (by norm_num))) (hw1 2 (by norm_num))) (hw1 3 (by norm_num)), fun i hi => ?_⟩
    show nodal g.n.r g.n.s (w 0 + w 1 + w 2 + w 3) i = r.h.at' i 0
    rw [e1, hg.divergence_const _ _ (SW.fluxF grav ⟨1, 0, 1⟩).c1 (SW.fluxG grav ⟨1, 0, 1⟩).c1 hi (fun _ _ => rfl) (fun _ _ => rfl)]
    rw [show nodal g.n.r g.n.s (w 0 + w 1 + w 2 + w 3) i = nodal g.n.r g.n.s (w 0) i + nodal g.n.r g.n.s (w 1) i + nodal g.n.r g.n.s (w 2) i + nodal g.n.r g.n.s (w 3) i by unfold nodal; simp only [map_add]]
    unfold QGrid.surface
    rw [sum_four, Finset.sum_range_succ, Finset.sum_range_succ, Finset.sum_range_succ, Finset.sum_range_one, hs 0 (by norm_num) i hi, hs 1 (by norm_num) i hi, hs 2 (by norm_num) i hi, hs 3 (by norm_num) i hi]
    ring
  · rw [hK, Finset.sum_range_one, jac_int, hQ]
    have hJ : QuadSpace g.N (jacPoly ⟨0, 0, 2, 0, 1, 1, 0, 1⟩) := by
      rw [hN]
      exact jacPoly_space _
    have hI : ∀ f < 4, integ quadInt (jacPoly ⟨0, 0, 2, 0, 1, 1, 0, 1⟩ * w f) = ∫ t in (-1 : ℝ)..1, (liftD f).eval t * (3 / 8 - (quadEdge f t).2 / 8) := by
      intro f hf
      rw [mul_comm, hw3 f hf _ hJ]
      simp only [ev_jacPoly, trapezoid_jac]
    simp only [mul_add, (quadModal 0).add]
    rw [hI 0 (by norm_num), hI 1 (by norm_num), hI 2 (by norm_num), hI 3 (by norm_num)]
    have c0 : (∫ t in (-1 : ℝ)..1, (liftD 0).eval t * (3 / 8 - (quadEdge 0 t).2 / 8)) = -2 := by
      simp only [liftD, quadEdge]
      norm_num
    have c1 : (∫ t in (-1 : ℝ)..1, (liftD 1).eval t * (3 / 8 - (quadEdge 1 t).2 / 8)) = 13 / 12 := by
      have : ∀ t : ℝ, (liftD 1).eval t * (3 / 8 - (quadEdge 1 t).2 / 8) = 9 / 16 - t ^ 2 / 16 := fun t => by
        simp only [liftD, quadEdge]
        norm_num
        ring
      simp only [this]
      rw [intervalIntegral.integral_sub ((by fun_prop : Continuous fun _ : ℝ => (9 / 16 : ℝ)).intervalIntegrable _ _) ((by fun_prop : Continuous fun t : ℝ => t ^ 2 / 16).intervalIntegrable _ _), intervalIntegral.integral_div, intervalIntegral.integral_div, integral_pow]
      norm_num
    have c2 : (∫ t in (-1 : ℝ)..1, (liftD 2).eval t * (3 / 8 - (quadEdge 2 t).2 / 8)) = 1 := by
      simp only [liftD, quadEdge]
      norm_num
    have c3 : (∫ t in (-1 : ℝ)..1, (liftD 3).eval t * (3 / 8 - (quadEdge 3 t).2 / 8)) = 0 := by
      simp only [liftD]
      norm_num
    rw [c0, c1, c2, c3]
    norm_num

/-- **C125, refuted for general elements.** On a single trapezoid with walls all around the script creates water: for a uniform depth of one moving in the direction of the second coordinate the rate of the total depth is `1/12`, not
zero, at order one and for every gravity. -/
theorem C125_mass_refuted : ∃ (m : Mesh) (g : QGrid) (q : Fields), QProvisioned exactLapack (1 / 2 ^ 52) 1e-5 1 m id g ∧ (∀ e < 4 * m.K, m.bcType[e]? = some 3) ∧ FieldsFit q g ∧
    (∀ i < g.np, ∀ k < g.K, q.at' i k = ⟨1, 0, 1⟩) ∧ ∀ grav : ℝ, ∃ r, g.rhs grav q = .ok r ∧ ∀ M, IsTotal g r.h.at' M ↔ M = 1 / 12 := by
  obtain ⟨g, h1, h2, h3, h4, h5⟩ := grid_one trapezoid id trapezoid_ok
  refine ⟨trapezoid, g, drift g, h1, ?_, ⟨⟨rfl, rfl⟩, ⟨rfl, rfl⟩, rfl, rfl⟩, fun _ _ _ _ => rfl, fun grav => ?_⟩
  · intro e he
    have he : e < 4 := he
    interval_cases e <;> rfl
  · obtain ⟨r, hr, ht⟩ := trapezoid_total h2 h3 h4 ((h5 0 Nat.zero_lt_one).trans trapezoid_quad) grav
    exact ⟨r, hr, fun M => ⟨fun hM => h2.total_unique hM ht, fun hM => hM ▸ ht⟩⟩

/-! ### The theorems at work -/

/-- Water whose depth and velocity vary from node to node keeps its volume on the two parallelograms. -/
example : ∃ g, QProvisioned exactLapack (1 / 2 ^ 52) 1e-5 1 sheared twoQuad g ∧ ∃ r, g.rhs 9.81 ⟨⟨g.np, g.K, fun i k => 1 + i + k⟩, ⟨g.np, g.K, fun i _ => i⟩, ⟨g.np, g.K, fun _ k => k⟩⟩ = .ok r ∧ IsTotal g r.h.at' 0 := by
  obtain ⟨g, h1, -⟩ := grid_one sheared twoQuad sheared_ok
  obtain ⟨r, h2, -, h3⟩ := C125_mass h1 sheared_par sheared_walls.1 sheared_walls.2 9.81 ⟨⟨g.np, g.K, fun i k => 1 + i + k⟩, ⟨g.np, g.K, fun i _ => i⟩, ⟨g.np, g.K, fun _ k => k⟩⟩ ⟨⟨rfl, rfl⟩, ⟨rfl, rfl⟩, rfl, rfl⟩
  exact ⟨g, h1, r, h2, (h3 0).2 rfl⟩

/-- Water at rest, order two, with the filter the script builds: a run of twenty-one steps ends, keeps the state and the total and writes the states 0 and 20. -/
example : ∃ g F r, QProvisioned exactLapack (1 / 2 ^ 52) 1e-5 2 sheared twoQuad g ∧ g.filter (0.99 * 2) 4 = .ok (fun i j => some (F i j)) ∧ g.run 9.81 1 40 F 21 ⟨⟨g.np, g.K, fun _ _ => 3⟩, ⟨g.np, g.K, fun _ _ => 0⟩, ⟨g.np, g.K, fun _ _ => 0⟩⟩ = .ok r ∧
    (∀ i < g.np, ∀ k < g.K, r.q.at' i k = ⟨3, 0, 0⟩) ∧ (∃ M, IsTotal g r.q.h.at' M) ∧ r.step = 21 ∧ r.out.map Prod.fst = [0, 20] ∧
    ∀ k p, IsInterp g (fun i => r.q.h.at' i k - 3) p → p.degreeOf 1 ≤ 1 := by
  obtain ⟨g, h1⟩ := grid_two sheared twoQuad sheared_ok
  have hq : FieldsFit ⟨⟨g.np, g.K, fun _ _ => 3⟩, ⟨g.np, g.K, fun _ _ => 0⟩, ⟨g.np, g.K, fun _ _ => 0⟩⟩ g := ⟨⟨rfl, rfl⟩, ⟨rfl, rfl⟩, rfl, rfl⟩
  obtain ⟨F, hF, hfr⟩ := C125_frozen h1 (0.99 * 2) (by norm_num) (by norm_num) 4 (by norm_num)
  obtain ⟨r, hr, hs⟩ := C125_steady_run h1 ⟨0, by decide, rfl⟩ 9.81 1 40 F 21 _ hq ⟨3, 0, 0⟩ (by norm_num) (fun _ _ _ _ => rfl) (fun _ _ _ => by simp)
  obtain ⟨F', hF', ht⟩ := C125_total h1 sheared_par sheared_walls.1 sheared_walls.2 (0.99 * 2) (by norm_num) (by norm_num) 4 (by norm_num)
  have hFF : F' = F := by
    rw [hF] at hF'
    have := Out.ok.inj hF'
    ext i j
    exact (Option.some.inj (congrFun (congrFun this i) j)).symm
  subst hFF
  obtain ⟨s1, -, S, -, -, -, s5⟩ := C125_schedule 9.81 1 40 one_pos F' 21 _ r hr
  have h21 : r.step = 21 := by rw [s1]; norm_num
  obtain ⟨x, hg, -⟩ := h1.spec
  obtain ⟨M, hM⟩ := hg.total_exists fun _ _ => 3
  refine ⟨g, F', r, h1, hF, hr, hs, ⟨M, ht 9.81 1 40 21 _ r M hq hr hM⟩, h21, ?_, fun k p hp => hfr 9.81 1 40 21 _ r hr k p (Or.inl hp)⟩
  rw [s5, h21]
  rfl

end Blitzdg.Quads
