import Verif.Time.FloatStep
import Verif.Time.DoublesProps
import Mathlib.Analysis.InnerProductSpace.PiL2

/-!
Property C159: the time stepping loop is stable in floating-point arithmetic.
-/

namespace Blitzdg.Time

variable {ι : Type*} {E : Type*} [NormedAddCommGroup E] [InnerProductSpace ℝ E]

open scoped RealInnerProductSpace

section stages

/-- One stage with errors, compared with the exact stage.  `s` is the norm at the beginning of the step, `η` the size of the errors. -/
theorem stage_pert {s η : ℝ} (hs : 0 ≤ s) (hη : 0 ≤ η) (hη1 : η ≤ 1 / 1000) {u r u' r' v q v' q' x y : E} {a b P Q β U D T' U' R' D' : ℝ} (hβ : 0 ≤ β) (hb : |b| ≤ β)
    (hP : ‖a • r‖ ≤ P * s) (hQ : ‖a • (r - q)‖ ≤ Q * (η * s)) (hU : ‖u‖ ≤ U * s) (hD : ‖u - v‖ ≤ D * (η * s))
    (hy : ‖y‖ ≤ 2 / 5 * ‖u‖) (hxy : ‖x - y‖ ≤ η * (2 / 5 * ‖u‖)) {z : E} (hz : ‖y - z‖ ≤ 2 / 5 * ‖u - v‖)
    (hr' : ‖r' - (a • r + x)‖ ≤ 3 * η * (‖a • r‖ + ‖x‖)) (hu' : ‖u' - (u + b • r')‖ ≤ η * ‖u‖ + 3 * η * ‖b • r'‖) (hq' : q' = a • q + z) (hv' : v' = v + b • q')
    (nT : 1003 / 1000 * (P + 1001 / 2500 * U) ≤ T') (nU : 1001 / 1000 * U + 1003 / 1000 * (β * T') ≤ U') (nR : Q + 2 / 5 * D + 2 / 5 * U + 3 * (P + 1001 / 2500 * U) ≤ R') (nD : D + β * R' + U + 3 * (β * T') ≤ D') :
    ‖r'‖ ≤ T' * s ∧ ‖u'‖ ≤ U' * s ∧ ‖r' - q'‖ ≤ R' * (η * s) ∧ ‖u' - v'‖ ≤ D' * (η * s) := by
  have hηs : 0 ≤ η * s := mul_nonneg hη hs
  have hηu : η * ‖u‖ ≤ U * (η * s) := le_trans (mul_le_mul_of_nonneg_left hU hη) (le_of_eq (by ring))
  have hu0 := norm_nonneg u
  have hx : ‖x‖ ≤ 1001 / 2500 * (U * s) := by
    have h1 := norm_le_norm_add_norm_sub' x y
    have h2 : η * (2 / 5 * ‖u‖) ≤ 1 / 1000 * (2 / 5 * ‖u‖) := mul_le_mul_of_nonneg_right hη1 (by positivity)
    linarith
  have hW : ‖a • r‖ + ‖x‖ ≤ (P + 1001 / 2500 * U) * s := by linarith
  have hW0 : 0 ≤ ‖a • r‖ + ‖x‖ := by positivity
  have e1 : 3 * η * (‖a • r‖ + ‖x‖) ≤ 3 * (P + 1001 / 2500 * U) * (η * s) := le_trans (mul_le_mul_of_nonneg_left hW (by positivity)) (le_of_eq (by ring))
  have e1' : 3 * η * (‖a • r‖ + ‖x‖) ≤ 3 / 1000 * ((P + 1001 / 2500 * U) * s) := mul_le_mul (by linarith) hW hW0 (by norm_num)
  have hT : ‖r'‖ ≤ T' * s := by
    have h1 := norm_le_norm_add_norm_sub' r' (a • r + x)
    have h2 := norm_add_le (a • r) x
    have h3 := mul_le_mul_of_nonneg_right nT hs
    linarith
  have hT0 : 0 ≤ T' * s := le_trans (norm_nonneg _) hT
  have hbr : ∀ w : E, ‖b • w‖ ≤ β * ‖w‖ := fun w => by rw [norm_smul, Real.norm_eq_abs]; exact mul_le_mul_of_nonneg_right hb (norm_nonneg _)
  have hbT : ‖b • r'‖ ≤ β * T' * s := le_trans (hbr r') (by rw [mul_assoc]; exact mul_le_mul_of_nonneg_left hT hβ)
  have e2 : 3 * η * ‖b • r'‖ ≤ 3 * (β * T') * (η * s) := le_trans (mul_le_mul_of_nonneg_left hbT (by positivity)) (le_of_eq (by ring))
  have e2' : 3 * η * ‖b • r'‖ ≤ 3 / 1000 * (β * T' * s) := mul_le_mul (by linarith) hbT (norm_nonneg _) (by norm_num)
  have e3' : η * ‖u‖ ≤ 1 / 1000 * (U * s) := mul_le_mul hη1 hU hu0 (by norm_num)
  have hU' : ‖u'‖ ≤ U' * s := by
    have h1 := norm_le_norm_add_norm_sub' u' (u + b • r')
    have h2 := norm_add_le u (b • r')
    have h3 := mul_le_mul_of_nonneg_right nU hs
    linarith
  have hR : ‖r' - q'‖ ≤ R' * (η * s) := by
    have e : r' - q' = (r' - (a • r + x)) + a • (r - q) + (x - y) + (y - z) := by rw [hq', smul_sub]; abel
    have h1 := norm_add_le_of_le (norm_add_le_of_le (norm_add_le_of_le hr' hQ) hxy) hz
    rw [← e] at h1
    have h3 := mul_le_mul_of_nonneg_right nR hηs
    linarith
  refine ⟨hT, hU', hR, ?_⟩
  have e : u' - v' = (u' - (u + b • r')) + (u - v) + b • (r' - q') := by rw [hv', smul_sub]; abel
  have h1 := norm_add_le_of_le (norm_add_le_of_le hu' hD) (hbr (r' - q'))
  rw [← e] at h1
  have h2 := mul_le_mul_of_nonneg_left hR hβ
  have h3 := mul_le_mul_of_nonneg_right nD hηs
  linarith

/-- Rounding every entry of a field changes it by a small part of its norm. -/
theorem round_norm (J : E ≃ₗ[ℝ] (ι → ℝ)) {κ : ℝ} (hκ : ∀ u v : E, (∀ i, |J u i| ≤ |J v i|) → ‖u‖ ≤ κ * ‖v‖) {rnd : ℝ → ℝ} {ε : ℝ} (hε : 0 ≤ ε) (hr : ∀ x, |rnd x - x| ≤ ε * |x|) (w : E) :
    ‖J.symm (fun k => rnd (J w k)) - w‖ ≤ κ * ε * ‖w‖ := by
  have h := hκ (J.symm (fun k => rnd (J w k)) - w) (ε • w) fun i => by
    rw [map_sub, LinearEquiv.apply_symm_apply, map_smul, Pi.sub_apply, Pi.smul_apply, smul_eq_mul, abs_mul, abs_of_nonneg hε]
    exact hr _
  rw [norm_smul, Real.norm_eq_abs, abs_of_nonneg hε] at h
  linarith

/-- The errors of one stage in floating-point arithmetic. -/
theorem stageF_errs (J : E ≃ₗ[ℝ] (ι → ℝ)) {κ : ℝ} (hκ : ∀ u v : E, (∀ i, |J u i| ≤ |J v i|) → ‖u‖ ≤ κ * ‖v‖) {rnd : ℝ → ℝ} {ε η : ℝ} (hε : 0 ≤ ε) (hr : ∀ x, |rnd x - x| ≤ ε * |x|) (hη0 : 0 ≤ η) (hη : κ * ε ≤ η) (hη1 : η ≤ 1 / 1000)
    (f : (ι → ℝ) → ι → ℝ) (dt : ℝ) (u r : ι → ℝ) (i : ℕ) : ∃ u' r' : E, stageF rnd f dt (u, r) i = (J u', J r') ∧
      ‖r' - (((rk4aD.getD i 0 : ℚ) : ℝ) • J.symm r + dt • J.symm (f u))‖ ≤ 3 * η * (‖((rk4aD.getD i 0 : ℚ) : ℝ) • J.symm r‖ + ‖dt • J.symm (f u)‖) ∧
      ‖u' - (J.symm u + ((rk4bD.getD i 0 : ℚ) : ℝ) • r')‖ ≤ η * ‖J.symm u‖ + 3 * η * ‖((rk4bD.getD i 0 : ℚ) : ℝ) • r'‖ := by
  have rn : ∀ w : E, ‖J.symm (fun k => rnd (J w k)) - w‖ ≤ η * ‖w‖ := fun w => le_trans (round_norm J hκ hε hr w) (mul_le_mul_of_nonneg_right hη (norm_nonneg _))
  generalize ha : ((rk4aD.getD i 0 : ℚ) : ℝ) = a
  generalize hb : ((rk4bD.getD i 0 : ℚ) : ℝ) = b
  obtain ⟨R, hR⟩ : ∃ R, R = J.symm r := ⟨_, rfl⟩
  obtain ⟨X, hX⟩ : ∃ X, X = dt • J.symm (f u) := ⟨_, rfl⟩
  obtain ⟨V, hV⟩ : ∃ V, V = J.symm u := ⟨_, rfl⟩
  obtain ⟨p1, hp1⟩ : ∃ p1, p1 = J.symm (fun k => rnd (J (a • R) k)) := ⟨_, rfl⟩
  obtain ⟨p2, hp2⟩ : ∃ p2, p2 = J.symm (fun k => rnd (J X k)) := ⟨_, rfl⟩
  obtain ⟨r', hr'⟩ : ∃ r', r' = J.symm (fun k => rnd (J (p1 + p2) k)) := ⟨_, rfl⟩
  obtain ⟨p3, hp3⟩ : ∃ p3, p3 = J.symm (fun k => rnd (J (b • r') k)) := ⟨_, rfl⟩
  obtain ⟨u', hu'⟩ : ∃ u', u' = J.symm (fun k => rnd (J (V + p3) k)) := ⟨_, rfl⟩
  have n1 : ‖p1 - a • R‖ ≤ η * ‖a • R‖ := by rw [hp1]; exact rn _
  have n2 : ‖p2 - X‖ ≤ η * ‖X‖ := by rw [hp2]; exact rn _
  have n3 : ‖r' - (p1 + p2)‖ ≤ η * ‖p1 + p2‖ := by rw [hr']; exact rn _
  have n4 : ‖p3 - b • r'‖ ≤ η * ‖b • r'‖ := by rw [hp3]; exact rn _
  have n5 : ‖u' - (V + p3)‖ ≤ η * ‖V + p3‖ := by rw [hu']; exact rn _
  rw [← hR, ← hX, ← hV]
  refine ⟨u', r', ?_, ?_, ?_⟩
  · have e2 : J r' = fun k => rnd (rnd (a * r k) + rnd (dt * f u k)) := by
      rw [hr', LinearEquiv.apply_symm_apply]
      funext k
      rw [map_add, Pi.add_apply, hp1, hp2, LinearEquiv.apply_symm_apply, LinearEquiv.apply_symm_apply, hX, hR, map_smul, map_smul, LinearEquiv.apply_symm_apply, LinearEquiv.apply_symm_apply]
      rfl
    have e1 : J u' = fun k => rnd (u k + rnd (b * J r' k)) := by
      rw [hu', LinearEquiv.apply_symm_apply]
      funext k
      rw [map_add, Pi.add_apply, hp3, LinearEquiv.apply_symm_apply, hV, map_smul, LinearEquiv.apply_symm_apply]
      rfl
    simp only [stageF, ha, hb]
    rw [e1, e2]
  · have m1 := norm_le_norm_add_norm_sub' p1 (a • R)
    have m2 := norm_le_norm_add_norm_sub' p2 X
    have m3 := norm_add_le p1 p2
    have e : r' - (a • R + X) = (r' - (p1 + p2)) + ((p1 - a • R) + (p2 - X)) := by abel
    rw [e]
    refine le_trans (norm_add_le_of_le n3 (norm_add_le_of_le n1 n2)) ?_
    have m4 : ‖p1 + p2‖ ≤ 2 * (‖a • R‖ + ‖X‖) := by nlinarith [norm_nonneg (a • R), norm_nonneg X]
    nlinarith
  · have m1 := norm_le_norm_add_norm_sub' p3 (b • r')
    have m3 := norm_add_le V p3
    have e : u' - (V + b • r') = (u' - (V + p3)) + (p3 - b • r') := by abel
    rw [e]
    refine le_trans (norm_add_le_of_le n5 n4) ?_
    have m4 : ‖V + p3‖ ≤ ‖V‖ + 2 * ‖b • r'‖ := by nlinarith [norm_nonneg (b • r')]
    nlinarith

/-- One step in floating-point arithmetic, compared with the step in exact arithmetic. -/
theorem stepF_err (J : E ≃ₗ[ℝ] (ι → ℝ)) {κ : ℝ} (hκ : ∀ u v : E, (∀ i, |J u i| ≤ |J v i|) → ‖u‖ ≤ κ * ‖v‖) {rnd : ℝ → ℝ} {ε η ρ : ℝ} (hε : 0 ≤ ε) (hr : ∀ x, |rnd x - x| ≤ ε * |x|) (hη0 : 0 ≤ η) (hη : κ * ε ≤ η) (hη1 : η ≤ 1 / 1000)
    {A : E →L[ℝ] E} {dt : ℝ} (hdt : 0 ≤ dt) (hs : dt * ‖A‖ ≤ 2 / 5) (f : (ι → ℝ) → ι → ℝ) (hρ : ρ ≤ η) (hf : ∀ u, ‖J.symm (f (J u)) - A u‖ ≤ ρ * (‖A‖ * ‖u‖)) (u : E) (r : ι → ℝ) (q : E) :
    ∃ u' r' : E, stepF rnd f dt (J u, r) = (J u', J r') ∧ ‖u' - (stepD A dt (u, q)).1‖ ≤ 72 * (η * ‖u‖) := by
  have lin : ∀ v w : E, ‖dt • A v - dt • A w‖ ≤ 2 / 5 * ‖v - w‖ := fun v w => by
    rw [← smul_sub, ← map_sub, norm_smul, Real.norm_eq_abs, abs_of_nonneg hdt]
    calc _ ≤ dt * (‖A‖ * ‖v - w‖) := mul_le_mul_of_nonneg_left (A.le_opNorm _) hdt
      _ = dt * ‖A‖ * ‖v - w‖ := by ring
      _ ≤ _ := mul_le_mul_of_nonneg_right hs (norm_nonneg _)
  have lin0 : ∀ v : E, ‖dt • A v‖ ≤ 2 / 5 * ‖v‖ := fun v => by have := lin v 0; simpa using this
  have rhs : ∀ v : E, ‖dt • J.symm (f (J v)) - dt • A v‖ ≤ η * (2 / 5 * ‖v‖) := fun v => by
    rw [← smul_sub, norm_smul, Real.norm_eq_abs, abs_of_nonneg hdt]
    have h1 : ρ * (‖A‖ * ‖v‖) ≤ η * (‖A‖ * ‖v‖) := mul_le_mul_of_nonneg_right hρ (by positivity)
    calc _ ≤ dt * (η * (‖A‖ * ‖v‖)) := mul_le_mul_of_nonneg_left (le_trans (hf v) h1) hdt
      _ = η * (dt * ‖A‖ * ‖v‖) := by ring
      _ ≤ _ := mul_le_mul_of_nonneg_left (mul_le_mul_of_nonneg_right hs (norm_nonneg _)) hη0
  have h0 : ((rk4aD.getD 0 0 : ℚ) : ℝ) = 0 := by rw [aD]; simp
  have ha : |rk4aD.getD 1 0| ≤ 0.418 ∧ |rk4aD.getD 2 0| ≤ 1.193 ∧ |rk4aD.getD 3 0| ≤ 1.698 ∧ |rk4aD.getD 4 0| ≤ 1.515 := by decide +kernel
  have hb : |rk4bD.getD 0 0| ≤ 0.15 ∧ |rk4bD.getD 1 0| ≤ 0.3793 ∧ |rk4bD.getD 2 0| ≤ 0.824 ∧ |rk4bD.getD 3 0| ≤ 0.6996 ∧ |rk4bD.getD 4 0| ≤ 0.1531 := by decide +kernel
  obtain ⟨a1, a2, a3, a4⟩ := ha
  obtain ⟨b0, b1, b2, b3, b4⟩ := hb
  have cast : ∀ {x : ℚ} {y : ℚ}, |x| ≤ y → |(x : ℝ)| ≤ (y : ℝ) := fun h => cast_abs_le h
  have n0 := norm_nonneg u
  -- the exact stages
  obtain ⟨v1, q1, hx1⟩ : ∃ v1 q1, stageWith rk4aD rk4bD A dt (u, q) 0 = (v1, q1) := ⟨_, _, rfl⟩
  obtain ⟨v2, q2, hx2⟩ : ∃ v2 q2, stageWith rk4aD rk4bD A dt (v1, q1) 1 = (v2, q2) := ⟨_, _, rfl⟩
  obtain ⟨v3, q3, hx3⟩ : ∃ v3 q3, stageWith rk4aD rk4bD A dt (v2, q2) 2 = (v3, q3) := ⟨_, _, rfl⟩
  obtain ⟨v4, q4, hx4⟩ : ∃ v4 q4, stageWith rk4aD rk4bD A dt (v3, q3) 3 = (v4, q4) := ⟨_, _, rfl⟩
  obtain ⟨v5, q5, hx5⟩ : ∃ v5 q5, stageWith rk4aD rk4bD A dt (v4, q4) 4 = (v5, q5) := ⟨_, _, rfl⟩
  have hexact : (stepD A dt (u, q)).1 = v5 := by
    simp only [stepD, stepWith, numStages, show List.range 5 = [0, 1, 2, 3, 4] from rfl, List.foldl_cons, List.foldl_nil, hx1, hx2, hx3, hx4, hx5]
  obtain ⟨u1, r1, hc1, c1, d1⟩ := stageF_errs J hκ hε hr hη0 hη hη1 f dt (J u) r 0
  obtain ⟨u2, r2, hc2, c2, d2⟩ := stageF_errs J hκ hε hr hη0 hη hη1 f dt (J u1) (J r1) 1
  obtain ⟨u3, r3, hc3, c3, d3⟩ := stageF_errs J hκ hε hr hη0 hη hη1 f dt (J u2) (J r2) 2
  obtain ⟨u4, r4, hc4, c4, d4⟩ := stageF_errs J hκ hε hr hη0 hη hη1 f dt (J u3) (J r3) 3
  obtain ⟨u5, r5, hc5, c5, d5⟩ := stageF_errs J hκ hε hr hη0 hη hη1 f dt (J u4) (J r4) 4
  have hcomp : stepF rnd f dt (J u, r) = (J u5, J r5) := by
    simp only [stepF, numStages, show List.range 5 = [0, 1, 2, 3, 4] from rfl, List.foldl_cons, List.foldl_nil, hc1, hc2, hc3, hc4, hc5]
  refine ⟨u5, r5, hcomp, ?_⟩
  rw [hexact]
  simp only [LinearEquiv.symm_apply_apply] at c1 c2 c3 c4 c5 d1 d2 d3 d4 d5
  simp only [stageWith, Prod.mk.injEq] at hx1 hx2 hx3 hx4 hx5
  obtain ⟨y1, z1⟩ := hx1
  rw [z1] at y1
  obtain ⟨y2, z2⟩ := hx2
  rw [z2] at y2
  obtain ⟨y3, z3⟩ := hx3
  rw [z3] at y3
  obtain ⟨y4, z4⟩ := hx4
  rw [z4] at y4
  obtain ⟨y5, z5⟩ := hx5
  rw [z5] at y5
  have mul : ∀ {a : ℝ} {α : ℝ} {w : E} {t X : ℝ}, |a| ≤ α → 0 ≤ α → ‖w‖ ≤ t → α * t ≤ X → ‖a • w‖ ≤ X := fun h h0 hw hX => by
    rw [norm_smul, Real.norm_eq_abs]
    exact le_trans (mul_le_mul h hw (norm_nonneg _) h0) hX
  have nη : 0 ≤ η * ‖u‖ := mul_nonneg hη0 n0
  obtain ⟨T1, U1, R1, D1⟩ := stage_pert (P := 0) (Q := 0) (U := 1) (D := 0) (T' := 0.403) (U' := 1.062) (R' := 1.606) (D' := 1.423) (q := q) (v := u) (q' := q1) (v' := v1) n0 hη0 hη1 (by norm_num) (cast b0)
    (by rw [h0]; simp) (by rw [h0]; simp) (by simp) (by simp) (lin0 u) (rhs u) (lin u u) c1 d1 z1.symm y1.symm (by norm_num) (by norm_num) (by norm_num) (by norm_num)
  obtain ⟨T2, U2, R2, D2⟩ := stage_pert (P := 0.169) (Q := 0.672) (T' := 0.597) (U' := 1.291) (R' := 3.449) (D' := 4.473) (q' := q2) (v' := v2) n0 hη0 hη1 (by norm_num) (cast b1)
    (mul (cast a1) (by norm_num) T1 (by norm_num; linarith)) (mul (cast a1) (by norm_num) R1 (by norm_num; linarith)) U1 D1 (lin0 u1) (rhs u1) (lin u1 v1) c2 d2 z2.symm y2.symm (by norm_num) (by norm_num) (by norm_num) (by norm_num)
  obtain ⟨T3, U3, R3, D3⟩ := stage_pert (P := 0.713) (Q := 4.115) (T' := 1.234) (U' := 2.313) (R' := 10.111) (D' := 17.146) (q' := q3) (v' := v3) n0 hη0 hη1 (by norm_num) (cast b2)
    (mul (cast a2) (by norm_num) T2 (by norm_num; linarith)) (mul (cast a2) (by norm_num) R2 (by norm_num; linarith)) U2 D2 (lin0 u2) (rhs u2) (lin u2 v2) c3 d3 z3.symm y3.symm (by norm_num) (by norm_num) (by norm_num) (by norm_num)
  obtain ⟨T4, U4, R4, D4⟩ := stage_pert (P := 2.096) (Q := 17.169) (T' := 3.032) (U' := 4.443) (R' := 34.019) (D' := 49.623) (q' := q4) (v' := v4) n0 hη0 hη1 (by norm_num) (cast b3)
    (mul (cast a3) (by norm_num) T3 (by norm_num; linarith)) (mul (cast a3) (by norm_num) R3 (by norm_num; linarith)) U3 D3 (lin0 u3) (rhs u3) (lin u3 v3) c4 d4 z4.symm y4.symm (by norm_num) (by norm_num) (by norm_num) (by norm_num)
  obtain ⟨T5, U5, R5, D5⟩ := stage_pert (P := 4.594) (Q := 51.539) (T' := 6.393) (U' := 5.43) (R' := 92.285) (D' := 71.132) (q' := q5) (v' := v5) n0 hη0 hη1 (by norm_num) (cast b4)
    (mul (cast a4) (by norm_num) T4 (by norm_num; linarith)) (mul (cast a4) (by norm_num) R4 (by norm_num; linarith)) U4 D4 (lin0 u4) (rhs u4) (lin u4 v4) c5 d5 z5.symm y5.symm (by norm_num) (by norm_num) (by norm_num) (by norm_num)
  norm_num at D5
  linarith

/-- One step in exact arithmetic is linear, and the register does not matter. -/
theorem stepD_sub (A : E →L[ℝ] E) (dt : ℝ) (u v q q' q'' : E) : (stepD A dt (u, q)).1 - (stepD A dt (v, q')).1 = (stepD A dt (u - v, q'')).1 := by
  rw [step_linearD, step_linearD, step_linearD, ← Finset.sum_sub_distrib]
  refine Finset.sum_congr rfl fun k _ => ?_
  rw [← smul_sub, ← map_sub]

theorem stepD_reg (A : E →L[ℝ] E) (dt : ℝ) (u q q' : E) : (stepD A dt (u, q)).1 = (stepD A dt (u, q')).1 := by
  rw [step_linearD, step_linearD]

/-- Norms along a sequence of perturbed steps. -/
theorem pert_stable {A : E →L[ℝ] E} (hA : Dissipative A) {dt : ℝ} (hdt : 0 ≤ dt) (hs : dt * ‖A‖ ≤ 2 / 5) {μ : ℝ} (hμ : 0 ≤ μ) (hμ1 : μ ≤ 1) (u : ℕ → E) (n : ℕ) (hu : ∀ k < n, ‖u (k + 1) - (stepD A dt (u k, 0)).1‖ ≤ μ * ‖u k‖) :
    ‖u n‖ ≤ 3 / 2 * (1 + (1 / 10 ^ 15 + 4 * μ)) ^ n * ‖u 0‖ := by
  have one : ∀ k < n, ‖u (k + 1)‖ ≤ (3 / 2 + μ) * ‖u k‖ := fun k hk => by
    have h1 := norm_le_norm_add_norm_sub' (u (k + 1)) (stepD A dt (u k, 0)).1
    have h2 := step_oneD hdt hs (u k) 0
    have h3 := hu k hk
    linarith
  have two : ∀ k, k + 1 < n → ‖u (k + 1 + 1)‖ ≤ (1 + (1 / 10 ^ 15 + 4 * μ)) * ‖u k‖ := fun k hk => by
    have h1 := hu (k + 1) hk
    have h2 := hu k (by omega)
    have h3 := one k (by omega)
    have h4 := step_twoD hA hdt hs (u k) 0 0
    have h5 := step_oneD hdt hs (u (k + 1) - (stepD A dt (u k, 0)).1) 0
    rw [← stepD_sub A dt _ _ 0 0] at h5
    have h6 := norm_le_norm_add_norm_sub' (u (k + 1 + 1)) (stepD A dt (u (k + 1), 0)).1
    have h7 := norm_le_norm_add_norm_sub' (stepD A dt (u (k + 1), 0)).1 (stepD A dt ((stepD A dt (u k, 0)).1, 0)).1
    have h8 := mul_le_mul_of_nonneg_left h3 hμ
    have h9 : μ * ((3 / 2 + μ) * ‖u k‖) ≤ 5 / 2 * μ * ‖u k‖ := by
      have := mul_le_mul_of_nonneg_right hμ1 (mul_nonneg hμ (norm_nonneg (u k)))
      linarith
    linarith
  obtain ⟨θ, hθ⟩ : ∃ θ, θ = 1 / 10 ^ 15 + 4 * μ := ⟨_, rfl⟩
  have hθ0 : 0 ≤ θ := by rw [hθ]; positivity
  have hθμ : μ ≤ 3 / 2 * θ := by rw [hθ]; norm_num; linarith
  rw [← hθ] at two ⊢
  have even : ∀ m, 2 * m ≤ n → ‖u (2 * m)‖ ≤ (1 + θ) ^ m * ‖u 0‖ := by
    intro m
    induction m with
    | zero => intro _; simp
    | succ m ih =>
      intro hm
      refine le_trans (two (2 * m) (by omega)) ?_
      rw [pow_succ]
      calc _ ≤ (1 + θ) * ((1 + θ) ^ m * ‖u 0‖) := mul_le_mul_of_nonneg_left (ih (by omega)) (by linarith)
        _ = _ := by ring
  have hmono : ∀ m k : ℕ, m ≤ k → (1 + θ) ^ m ≤ (1 + θ) ^ k := fun m k h => pow_le_pow_right₀ (by linarith) h
  have h0 := norm_nonneg (u 0)
  rcases Nat.even_or_odd' n with ⟨m, rfl | rfl⟩
  · refine le_trans (even m le_rfl) (mul_le_mul_of_nonneg_right ?_ h0)
    have := hmono m (2 * m) (by omega)
    have : (0 : ℝ) < (1 + θ) ^ (2 * m) := by positivity
    linarith
  · refine le_trans (one (2 * m) (by omega)) ?_
    have h1 := even m (by omega)
    have h2 : (1 + θ) ^ m * (1 + θ) ≤ (1 + θ) ^ (2 * m + 1) := by rw [← pow_succ]; exact hmono _ _ (by omega)
    have h3 : (0 : ℝ) ≤ (1 + θ) ^ m := by positivity
    calc _ ≤ (3 / 2 * (1 + θ)) * ((1 + θ) ^ m * ‖u 0‖) := mul_le_mul (by linarith) h1 (norm_nonneg _) (by positivity)
      _ = 3 / 2 * ((1 + θ) ^ m * (1 + θ)) * ‖u 0‖ := by ring
      _ ≤ _ := by gcongr

/-- The errors add up: along a sequence of perturbed steps the distance to the exact sequence grows linearly. -/
theorem pert_close {A : E →L[ℝ] E} (hA : Dissipative A) {dt : ℝ} (hdt : 0 ≤ dt) (hs : dt * ‖A‖ ≤ 2 / 5) {μ : ℝ} (hμ : 0 ≤ μ) (hμ1 : μ ≤ 1) (u v : ℕ → E) (h0 : v 0 = u 0) (n : ℕ) (hu : ∀ k < n, ‖u (k + 1) - (stepD A dt (u k, 0)).1‖ ≤ μ * ‖u k‖)
    (hv : ∀ k < n, v (k + 1) = (stepD A dt (v k, 0)).1) : ‖u n - v n‖ ≤ 9 / 4 * n * μ * (1 + (1 / 10 ^ 15 + 4 * μ)) ^ n * ‖u 0‖ := by
  obtain ⟨G, hG⟩ : ∃ G : E → E, ∀ w, G w = (stepD A dt (w, 0)).1 := ⟨_, fun _ => rfl⟩
  obtain ⟨θ, hθ⟩ : ∃ θ, θ = 1 / 10 ^ 15 + 4 * μ := ⟨_, rfl⟩
  have hθ0 : 0 ≤ θ := by rw [hθ]; positivity
  have sub : ∀ m w w', G^[m] w - G^[m] w' = G^[m] (w - w') := by
    intro m
    induction m with
    | zero => intro w w'; rfl
    | succ m ih =>
      intro w w'
      rw [Function.iterate_succ_apply, Function.iterate_succ_apply, Function.iterate_succ_apply, ih, hG, hG, hG, stepD_sub A dt _ _ 0 0 0]
  have bd : ∀ m w, ‖G^[m] w‖ ≤ 3 / 2 * (1 + θ) ^ m * ‖w‖ := fun m w => by
    have h := scheme_stableD hA hdt hs (fun k => G^[k] w) m fun k _ => ⟨0, by simp only [Function.iterate_succ_apply', hG]⟩
    refine le_trans h ?_
    have : (1 + 1 / 10 ^ 15 : ℝ) ^ m ≤ (1 + θ) ^ m := pow_le_pow_left₀ (by norm_num) (by rw [hθ]; linarith) m
    have := norm_nonneg w
    simp only [Function.iterate_zero, id]
    gcongr
  have hvn : ∀ k ≤ n, v k = G^[k] (u 0) := by
    intro k
    induction k with
    | zero => intro _; exact h0
    | succ k ih =>
      intro hk
      rw [hv k (by omega), ih (by omega), ← hG, Function.iterate_succ_apply']
  have tel : ∀ k ≤ n, ‖G^[n - k] (u k) - v n‖ ≤ 9 / 4 * k * μ * (1 + θ) ^ n * ‖u 0‖ := by
    intro k
    induction k with
    | zero => intro _; rw [hvn n le_rfl]; simp
    | succ k ih =>
      intro hk
      have h1 := ih (by omega)
      have e : G^[n - k] (u k) = G^[n - (k + 1)] (G (u k)) := by
        rw [← Function.iterate_succ_apply, show n - k = (n - (k + 1)).succ by omega]
      rw [e] at h1
      have h2 := bd (n - (k + 1)) (u (k + 1) - G (u k))
      rw [← sub] at h2
      have h3 := hu k (by omega)
      rw [← hG] at h3
      have h4 := pert_stable hA hdt hs hμ hμ1 u k fun j hj => hu j (by omega)
      rw [← hθ] at h4
      have h5 : 3 / 2 * (1 + θ) ^ (n - (k + 1)) * ‖u (k + 1) - G (u k)‖ ≤ 3 / 2 * (1 + θ) ^ (n - (k + 1)) * (μ * (3 / 2 * (1 + θ) ^ k * ‖u 0‖)) :=
        mul_le_mul_of_nonneg_left (le_trans h3 (mul_le_mul_of_nonneg_left h4 hμ)) (by positivity)
      have h6 : (1 + θ) ^ (n - (k + 1)) * (1 + θ) ^ k ≤ (1 + θ) ^ n := by
        rw [← pow_add]
        exact pow_le_pow_right₀ (by linarith) (by omega)
      have h7 := mul_le_mul_of_nonneg_left h6 (show 0 ≤ 9 / 4 * (μ * ‖u 0‖) by positivity)
      have h8 := norm_sub_le_norm_sub_add_norm_sub (G^[n - (k + 1)] (u (k + 1))) (G^[n - (k + 1)] (G (u k))) (v n)
      push_cast
      linarith
  have := tel n le_rfl
  rw [Nat.sub_self] at this
  rw [← hθ]
  exact this

end stages

/-- Specification: in coordinates `J` the computed right-hand side `f` is the linear map `A` up to the relative error `ρ`. -/
def Computed (J : E ≃ₗ[ℝ] (ι → ℝ)) (A : E →L[ℝ] E) (ρ : ℝ) (f : (ι → ℝ) → ι → ℝ) : Prop := ∀ u, ‖J.symm (f (J u)) - A u‖ ≤ ρ * (‖A‖ * ‖u‖)

/-- Specification: the norm of a field grows at most by the factor `κ` if its entries are replaced by ones that are not larger. -/
def EntryBound (J : E ≃ₗ[ℝ] (ι → ℝ)) (κ : ℝ) : Prop := ∀ u v, (∀ i, |J u i| ≤ |J v i|) → ‖u‖ ≤ κ * ‖v‖

/-- **C159: the time loop is stable in floating-point arithmetic.**  The entries of a field are rounded to doubles after every product and every sum of the stage loop.  The system is linear, its energy (the square of the norm of `E`) does not grow, the
right-hand side is computed with relative error `ρ`, and `dt ‖A‖ ≤ 2/5`.  Then after any number `n` of steps, whatever the register held at first, the norm has grown at most by `(3/2)(1 + 10⁻¹⁵ + 288 η)ⁿ`, where `η = κ 2⁻⁵³ + ρ`, and the field differs from the
one in exact arithmetic by at most `162 n η` times such a factor: rounding errors add up, but are not amplified. -/
theorem C159_stable (J : E ≃ₗ[ℝ] (ι → ℝ)) (κ ρ η : ℝ) (hκ0 : 0 ≤ κ) (hκ : EntryBound J κ) (hρ0 : 0 ≤ ρ) (hη : η = κ * 2 ^ (-53 : ℤ) + ρ) (hη1 : η ≤ 1 / 1000)
    (A : E →L[ℝ] E) (hA : ∀ u, ⟪u, A u⟫ ≤ 0) (dt : ℝ) (hdt : 0 ≤ dt) (hs : dt * ‖A‖ ≤ 2 / 5) (f : (ι → ℝ) → ι → ℝ) (hf : Computed J A ρ f)
    (s : ℕ → (ι → ℝ) × (ι → ℝ)) (hstep : ∀ k, s (k + 1) = stepF (fl 53) f dt (s k)) (v : ℕ → E) (hv0 : J (v 0) = (s 0).1) (hv : ∀ k, ∃ res, v (k + 1) = (stepD A dt (v k, res)).1) (n : ℕ) :
    ‖J.symm (s n).1‖ ≤ 3 / 2 * (1 + (1 / 10 ^ 15 + 288 * η)) ^ n * ‖v 0‖ ∧ ‖J.symm (s n).1 - v n‖ ≤ 162 * n * η * (1 + (1 / 10 ^ 15 + 288 * η)) ^ n * ‖v 0‖ := by
  have h2 : (0 : ℝ) < 2 ^ (-53 : ℤ) := by positivity
  have hη0 : 0 ≤ η := by rw [hη]; positivity
  have hρη : ρ ≤ η := by rw [hη]; have := mul_nonneg hκ0 h2.le; linarith
  have hstepE : ∀ k, ‖J.symm (s (k + 1)).1 - (stepD A dt (J.symm (s k).1, 0)).1‖ ≤ 72 * η * ‖J.symm (s k).1‖ := fun k => by
    obtain ⟨u', r', h3, h4⟩ := stepF_err J hκ (rnd := fl 53) (ε := 2 ^ (-53 : ℤ)) h2.le (fun x => by exact_mod_cast C128_rounding 53 x) hη0 (by rw [hη]; linarith) hη1 hdt hs f hρη hf (J.symm (s k).1) (s k).2 0
    rw [LinearEquiv.apply_symm_apply] at h3
    have h5 : s (k + 1) = (J u', J r') := by rw [hstep]; exact h3
    rw [h5]
    simp only [LinearEquiv.symm_apply_apply]
    linarith
  have e0 : v 0 = J.symm (s 0).1 := by rw [← hv0, LinearEquiv.symm_apply_apply]
  have a := pert_stable hA hdt hs (μ := 72 * η) (by positivity) (by linarith) (fun k => J.symm (s k).1) n fun k _ => hstepE k
  have b := pert_close hA hdt hs (μ := 72 * η) (by positivity) (by linarith) (fun k => J.symm (s k).1) v e0 n (fun k _ => hstepE k) fun k _ => by
    obtain ⟨res, h⟩ := hv k
    rw [h, stepD_reg A dt _ res 0]
  rw [show 4 * (72 * η) = 288 * η by ring] at a b
  rw [e0]
  exact ⟨a, le_trans b (le_of_eq (by ring))⟩

/-- **C159: the hypothesis on the norm is met on every grid.**  For fields with finitely many entries there is always a factor `κ`. -/
theorem C159_entries [Fintype ι] (J : E ≃ₗ[ℝ] (ι → ℝ)) : ∃ κ, 0 ≤ κ ∧ EntryBound J κ := by
  have : FiniteDimensional ℝ E := J.symm.finiteDimensional
  obtain ⟨C, hC⟩ : ∃ C : E ≃L[ℝ] (ι → ℝ), ∀ u, C u = J u := ⟨J.toContinuousLinearEquiv, fun _ => rfl⟩
  refine ⟨‖(C.symm : (ι → ℝ) →L[ℝ] E)‖ * ‖(C : E →L[ℝ] (ι → ℝ))‖, by positivity, fun u v h => ?_⟩
  have h1 : ‖u‖ ≤ ‖(C.symm : (ι → ℝ) →L[ℝ] E)‖ * ‖C u‖ := by simpa using (C.symm : (ι → ℝ) →L[ℝ] E).le_opNorm (C u)
  have h2 : ‖C v‖ ≤ ‖(C : E →L[ℝ] (ι → ℝ))‖ * ‖v‖ := (C : E →L[ℝ] (ι → ℝ)).le_opNorm v
  have h3 : ‖C u‖ ≤ ‖C v‖ := (pi_norm_le_iff_of_nonneg (norm_nonneg _)).2 fun i => by
    have h4 := norm_le_pi_norm (C v) i
    have h5 := h i
    rw [← hC, ← hC] at h5
    exact le_trans h5 h4
  calc _ ≤ ‖(C.symm : (ι → ℝ) →L[ℝ] E)‖ * (‖(C : E →L[ℝ] (ι → ℝ))‖ * ‖v‖) := le_trans h1 (mul_le_mul_of_nonneg_left (le_trans h3 h2) (norm_nonneg _))
    _ = _ := by ring

/-- The hypotheses can be met: the oscillator `x' = y, y' = -x`, whose energy `x² + y²` is constant, from `(1, 0)`, the register holding `(5, 7)`, with steps of `2/5`.  After a million steps in floating-point arithmetic its energy is still at most `(8/5)²`. -/
example : ∃ s : ℕ → (Fin 2 → ℝ) × (Fin 2 → ℝ), s 0 = (![1, 0], ![5, 7]) ∧ (∀ k, s (k + 1) = stepF (fl 53) (fun w => ![w 1, -w 0]) (2 / 5) (s k)) ∧ ∀ n ≤ 1000000, (s n).1 0 ^ 2 + (s n).1 1 ^ 2 ≤ (8 / 5) ^ 2 := by
  obtain ⟨s, hs0, hstep⟩ : ∃ s : ℕ → (Fin 2 → ℝ) × (Fin 2 → ℝ), s 0 = (![1, 0], ![5, 7]) ∧ ∀ k, s (k + 1) = stepF (fl 53) (fun w => ![w 1, -w 0]) (2 / 5) (s k) :=
    ⟨fun n => (stepF (fl 53) (fun w => ![w 1, -w 0]) (2 / 5))^[n] (![1, 0], ![5, 7]), rfl, fun k => Function.iterate_succ_apply' _ _ _⟩
  refine ⟨s, hs0, hstep, fun n hn => ?_⟩
  let J : EuclideanSpace ℝ (Fin 2) ≃ₗ[ℝ] (Fin 2 → ℝ) := WithLp.linearEquiv 2 ℝ (Fin 2 → ℝ)
  have hJ : ∀ u i, J u i = u i := fun _ _ => rfl
  have nrm : ∀ u : EuclideanSpace ℝ (Fin 2), ‖u‖ = √(u 0 ^ 2 + u 1 ^ 2) := fun u => by
    rw [EuclideanSpace.norm_eq, Fin.sum_univ_two]
    simp
  let A₀ : EuclideanSpace ℝ (Fin 2) →ₗ[ℝ] EuclideanSpace ℝ (Fin 2) :=
    { toFun := fun u => J.symm ![u 1, -u 0], map_add' := fun u v => by ext i; fin_cases i <;> simp [J, add_comm], map_smul' := fun c u => by ext i; fin_cases i <;> simp [J] }
  have hA₀ : ∀ u, ‖A₀ u‖ ≤ 1 * ‖u‖ := fun u => by
    rw [one_mul, nrm, nrm]
    refine le_of_eq (congrArg _ ?_)
    simp [A₀, J]
    ring
  let A : EuclideanSpace ℝ (Fin 2) →L[ℝ] EuclideanSpace ℝ (Fin 2) := A₀.mkContinuous 1 hA₀
  have hAn : ‖A‖ ≤ 1 := A₀.mkContinuous_norm_le (by norm_num) hA₀
  have hAf : ∀ u, A u = J.symm ![u 1, -u 0] := fun _ => rfl
  have hκ : EntryBound J 1 := fun u v h => by
    rw [one_mul, nrm, nrm]
    exact Real.sqrt_le_sqrt (add_le_add (sq_le_sq.2 (h 0)) (sq_le_sq.2 (h 1)))
  have key := C159_stable J 1 0 (2 ^ (-53 : ℤ)) (by norm_num) hκ le_rfl (by norm_num) (by norm_num) A
    (fun u => by rw [hAf, PiLp.inner_apply, Fin.sum_univ_two]; simp [J]; linarith) (2 / 5) (by norm_num) (by linarith) (fun w => ![w 1, -w 0])
    (fun u => by rw [hAf]; simp [hJ]) s hstep (fun n => (fun w => (stepD A (2 / 5) (w, 0)).1)^[n] (J.symm ![1, 0])) (by rw [hs0]; simp) (fun k => ⟨0, Function.iterate_succ_apply' _ _ _⟩) n
  have h1 := key.1
  have e0 : ‖(fun w => (stepD A (2 / 5) (w, 0)).1)^[0] (J.symm ![1, 0])‖ = 1 := by rw [nrm]; simp [J]
  rw [e0, mul_one] at h1
  have e1 : ‖J.symm (s n).1‖ = √((s n).1 0 ^ 2 + (s n).1 1 ^ 2) := by rw [nrm]; rfl
  rw [e1] at h1
  have hpow : ((1 : ℝ) + (1 / 10 ^ 15 + 288 * 2 ^ (-53 : ℤ))) ^ n ≤ 1 + 1 / 100 := by
    refine le_trans (pow_le_pow_right₀ (by norm_num) hn) ?_
    have h1 : ((1 : ℝ) + (1 / 10 ^ 15 + 288 * 2 ^ (-53 : ℤ))) ≤ Real.exp (1 / 10 ^ 12) := le_trans (by norm_num) (by linarith [Real.add_one_le_exp (1 / 10 ^ 12 : ℝ)] : (1 : ℝ) + 1 / 10 ^ 12 ≤ _)
    have h2 := pow_le_pow_left₀ (by norm_num) h1 1000000
    rw [← Real.exp_nat_mul] at h2
    have h3 := Real.exp_bound_div_one_sub_of_interval (x := ((1000000 : ℕ) : ℝ) * (1 / 10 ^ 12)) (by positivity) (by norm_num)
    refine le_trans h2 (le_trans h3 ?_)
    norm_num
  generalize ((1 : ℝ) + (1 / 10 ^ 15 + 288 * 2 ^ (-53 : ℤ))) ^ n = w at hpow h1
  exact (Real.sqrt_le_left (by norm_num)).1 (le_trans h1 (by linarith))

end Blitzdg.Time
