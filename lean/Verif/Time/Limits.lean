import Verif.Time.DoublesProps
import Mathlib.Analysis.InnerProductSpace.Spectrum

/-!
C162: how large a time step may be.  On systems that conserve the energy (waves) the scheme is stable for steps up to 3.3 over the norm of the operator and amplifies an oscillation for steps above 3.35 over its frequency; on
symmetric dissipative systems (diffusion) the numbers are 4.6 and 4.7.
-/

namespace Blitzdg.Time

variable {E : Type*} [NormedAddCommGroup E] [InnerProductSpace ℝ E]

open scoped RealInnerProductSpace

/-- Coefficients of the powers of the operator in one step. -/
noncomputable def gam (k : ℕ) : ℝ := ((stabD.getD k 0 : ℚ) : ℝ)

theorem step_gam (A : E →L[ℝ] E) (dt : ℝ) (u res : E) : (stepD A dt (u, res)).1 = ∑ k ∈ Finset.range 6, gam k • ((dt • A) ^ k) u := by
  rw [step_linearD]
  refine Finset.sum_congr rfl fun k _ => ?_
  rw [combo_smul_pow, smul_smul]
  rfl

theorem pow_apply (T : E →L[ℝ] E) (k : ℕ) (u : E) : (T ^ (k + 1)) u = T ((T ^ k) u) := by rw [pow_succ']; rfl

theorem pow_norm {T : E →L[ℝ] E} {κ : ℝ} (hs : ‖T‖ ≤ κ) (u : E) (k : ℕ) : ‖(T ^ (k + 1)) u‖ ^ 2 ≤ κ ^ 2 * ‖(T ^ k) u‖ ^ 2 := by
  rw [pow_apply, ← mul_pow]
  exact pow_le_pow_left₀ (norm_nonneg _) ((T.le_opNorm _).trans (mul_le_mul_of_nonneg_right hs (norm_nonneg _))) 2

/-- Energy conservation makes an operator skew. -/
theorem skew {T : E →L[ℝ] E} (hT : ∀ u, ⟪u, T u⟫ = 0) (v w : E) : ⟪T v, w⟫ = -⟪v, T w⟫ := by
  have h := hT (v + w)
  rw [map_add, inner_add_left, inner_add_right, inner_add_right, hT, hT, real_inner_comm (T v) w] at h
  linarith

theorem gram_step {T : E →L[ℝ] E} (hT : ∀ u, ⟪u, T u⟫ = 0) (u : E) (i j : ℕ) : gram T u i (j + 1) = -gram T u (i + 1) j := by
  unfold gram
  rw [pow_apply, pow_apply, skew hT]
  ring

/-- The square of the norm of a polynomial in an operator that conserves the energy. -/
theorem skew_sq {T : E →L[ℝ] E} (hT : ∀ u, ⟪u, T u⟫ = 0) (γ : ℕ → ℝ) (u : E) : ‖∑ k ∈ Finset.range 6, γ k • (T ^ k) u‖ ^ 2 =
    γ 0 ^ 2 * ‖u‖ ^ 2 + (γ 1 ^ 2 - 2 * γ 0 * γ 2) * ‖(T ^ 1) u‖ ^ 2 + (γ 2 ^ 2 + 2 * γ 0 * γ 4 - 2 * γ 1 * γ 3) * ‖(T ^ 2) u‖ ^ 2 + (γ 3 ^ 2 - 2 * γ 2 * γ 4 + 2 * γ 1 * γ 5) * ‖(T ^ 3) u‖ ^ 2 +
      (γ 4 ^ 2 - 2 * γ 3 * γ 5) * ‖(T ^ 4) u‖ ^ 2 + γ 5 ^ 2 * ‖(T ^ 5) u‖ ^ 2 := by
  have h := combo_norm T u [γ 0, γ 1, γ 2, γ 3, γ 4, γ 5]
  have e : combo T u [γ 0, γ 1, γ 2, γ 3, γ 4, γ 5] = ∑ k ∈ Finset.range 6, γ k • (T ^ k) u := by
    unfold combo
    simp [Finset.sum_range_succ]
  rw [e] at h
  rw [h]
  have d : ∀ k, gram T u k k = ‖(T ^ k) u‖ ^ 2 := fun k => real_inner_self_eq_norm_sq _
  have o : ∀ k, gram T u k (k + 1) = 0 := fun k => by unfold gram; rw [pow_apply, hT]
  have s := gram_symm T u
  have g := gram_step hT u
  have a02 : gram T u 0 2 = -‖(T ^ 1) u‖ ^ 2 := by rw [g 0 1, d]
  have a13 : gram T u 1 3 = -‖(T ^ 2) u‖ ^ 2 := by rw [g 1 2, d]
  have a24 : gram T u 2 4 = -‖(T ^ 3) u‖ ^ 2 := by rw [g 2 3, d]
  have a35 : gram T u 3 5 = -‖(T ^ 4) u‖ ^ 2 := by rw [g 3 4, d]
  have a04 : gram T u 0 4 = ‖(T ^ 2) u‖ ^ 2 := by rw [g 0 3, a13, neg_neg]
  have a15 : gram T u 1 5 = ‖(T ^ 3) u‖ ^ 2 := by rw [g 1 4, a24, neg_neg]
  have a03 : gram T u 0 3 = 0 := by rw [g 0 2, o 1, neg_zero]
  have a14 : gram T u 1 4 = 0 := by rw [g 1 3, o 2, neg_zero]
  have a25 : gram T u 2 5 = 0 := by rw [g 2 4, o 3, neg_zero]
  have a05 : gram T u 0 5 = 0 := by rw [g 0 4, a14, neg_zero]
  have d0 : gram T u 0 0 = ‖u‖ ^ 2 := by rw [d]; simp
  simp only [List.length_cons, List.length_nil, Finset.sum_range_succ, Finset.sum_range_zero, List.getD_cons_zero, List.getD_cons_succ, zero_add, Nat.reduceAdd]
  rw [s 1 0, s 2 0, s 3 0, s 4 0, s 5 0, s 2 1, s 3 1, s 4 1, s 5 1, s 3 2, s 4 2, s 5 2, s 4 3, s 5 3, s 5 4, o 0, o 1, o 2, o 3, o 4, a02, a13, a24, a35, a04, a15, a03, a14, a25, a05, d0, d 1, d 2, d 3, d 4, d 5]
  ring

theorem gam_zero : gam 0 = 1 := by
  have h : stabD.getD 0 0 = 1 := by decide +kernel
  unfold gam
  rw [h, Rat.cast_one]

/-- The coefficients of the squared norm. -/
theorem gam_q : |gam 1 ^ 2 - 2 * gam 0 * gam 2| ≤ 1 / 10 ^ 17 ∧ |gam 2 ^ 2 + 2 * gam 0 * gam 4 - 2 * gam 1 * gam 3| ≤ 1 / 10 ^ 18 ∧ |gam 3 ^ 2 - 2 * gam 2 * gam 4 + 2 * gam 1 * gam 5 + 7 / 1800| ≤ 1 / 10 ^ 17 ∧
    |gam 4 ^ 2 - 2 * gam 3 * gam 5 - 1 / 14400| ≤ 1 / 10 ^ 17 ∧ |gam 5 ^ 2 - 1 / 40000| ≤ 1 / 10 ^ 17 ∧ gam 2 ^ 2 + 2 * gam 0 * gam 4 - 2 * gam 1 * gam 3 ≤ 0 := by
  have h : let c := fun k => stabD.getD k 0
      |c 1 ^ 2 - 2 * c 0 * c 2| ≤ 1 / 10 ^ 17 ∧ |c 2 ^ 2 + 2 * c 0 * c 4 - 2 * c 1 * c 3| ≤ 1 / 10 ^ 18 ∧ |c 3 ^ 2 - 2 * c 2 * c 4 + 2 * c 1 * c 5 + 7 / 1800| ≤ 1 / 10 ^ 17 ∧
      |c 4 ^ 2 - 2 * c 3 * c 5 - 1 / 14400| ≤ 1 / 10 ^ 17 ∧ |c 5 ^ 2 - 1 / 40000| ≤ 1 / 10 ^ 17 ∧ c 2 ^ 2 + 2 * c 0 * c 4 - 2 * c 1 * c 3 ≤ 0 := by decide +kernel
  simp only at h
  unfold gam
  generalize stabD.getD 0 0 = c0 at h ⊢
  generalize stabD.getD 1 0 = c1 at h ⊢
  generalize stabD.getD 2 0 = c2 at h ⊢
  generalize stabD.getD 3 0 = c3 at h ⊢
  generalize stabD.getD 4 0 = c4 at h ⊢
  generalize stabD.getD 5 0 = c5 at h ⊢
  obtain ⟨h1, h2, h3, h4, h5, h6⟩ := h
  have g1 := (Rat.cast_le (K := ℝ)).2 h1
  have g2 := (Rat.cast_le (K := ℝ)).2 h2
  have g3 := (Rat.cast_le (K := ℝ)).2 h3
  have g4 := (Rat.cast_le (K := ℝ)).2 h4
  have g5 := (Rat.cast_le (K := ℝ)).2 h5
  have g6 := (Rat.cast_le (K := ℝ)).2 h6
  push_cast at g1 g2 g3 g4 g5 g6
  exact ⟨g1, g2, g3, g4, g5, g6⟩

/-- One step on a system that conserves the energy. -/
theorem wave_step {A : E →L[ℝ] E} (hA : ∀ u, ⟪u, A u⟫ = 0) {dt : ℝ} (hdt : 0 ≤ dt) (hs : dt * ‖A‖ ≤ 33 / 10) (u res : E) : ‖(stepD A dt (u, res)).1‖ ≤ (1 + 1 / 10 ^ 16) * ‖u‖ := by
  have hT : ‖dt • A‖ ≤ 33 / 10 := by rw [norm_smul, Real.norm_eq_abs, abs_of_nonneg hdt]; exact hs
  have hsk : ∀ u, ⟪u, (dt • A) u⟫ = 0 := fun u => by rw [smul_apply, real_inner_smul_right, hA, mul_zero]
  rw [step_gam]
  refine abs_le_of_sq_le_sq' ?_ (by positivity) |>.2
  rw [skew_sq hsk]
  have n1 := pow_norm hT u 0
  have n3 := pow_norm hT u 3
  have n4 := pow_norm hT u 4
  have p0 : ‖((dt • A) ^ 0) u‖ = ‖u‖ := by simp
  rw [p0] at n1
  obtain ⟨q1, -, q3, q4, q5, q2⟩ := gam_q
  have z0 := sq_nonneg ‖u‖
  have z1 := sq_nonneg ‖((dt • A) ^ 1) u‖
  have z2 := sq_nonneg ‖((dt • A) ^ 2) u‖
  have z3 := sq_nonneg ‖((dt • A) ^ 3) u‖
  have z4 := sq_nonneg ‖((dt • A) ^ 4) u‖
  have z5 := sq_nonneg ‖((dt • A) ^ 5) u‖
  rw [gam_zero] at q1 q2 ⊢
  simp only [zero_add, Nat.reduceAdd] at n1 n3 n4
  rw [mul_pow]
  generalize ‖u‖ ^ 2 = a0 at *
  generalize ‖((dt • A) ^ 1) u‖ ^ 2 = a1 at *
  generalize ‖((dt • A) ^ 2) u‖ ^ 2 = a2 at *
  generalize ‖((dt • A) ^ 3) u‖ ^ 2 = a3 at *
  generalize ‖((dt • A) ^ 4) u‖ ^ 2 = a4 at *
  generalize ‖((dt • A) ^ 5) u‖ ^ 2 = a5 at *
  have r1 := mul_le_mul_of_nonneg_right (abs_le.1 q1).2 z1
  have r2 := mul_nonpos_of_nonpos_of_nonneg q2 z2
  have r3 := mul_le_mul_of_nonneg_right (show gam 3 ^ 2 - 2 * gam 2 * gam 4 + 2 * gam 1 * gam 5 ≤ -7 / 1800 + 1 / 10 ^ 17 by have := (abs_le.1 q3).2; linarith) z3
  have r4 := mul_le_mul_of_nonneg_right (show gam 4 ^ 2 - 2 * gam 3 * gam 5 ≤ 1 / 14400 + 1 / 10 ^ 17 by have := (abs_le.1 q4).2; linarith) z4
  have r5 := mul_le_mul_of_nonneg_right (show gam 5 ^ 2 ≤ 1 / 40000 + 1 / 10 ^ 17 by have := (abs_le.1 q5).2; linarith) z5
  have t0 : (1 : ℝ) ^ 2 * a0 = a0 := by ring
  generalize (gam 1 ^ 2 - 2 * 1 * gam 2) * a1 = b1 at *
  generalize (gam 2 ^ 2 + 2 * 1 * gam 4 - 2 * gam 1 * gam 3) * a2 = b2 at *
  generalize (gam 3 ^ 2 - 2 * gam 2 * gam 4 + 2 * gam 1 * gam 5) * a3 = b3 at *
  generalize (gam 4 ^ 2 - 2 * gam 3 * gam 5) * a4 = b4 at *
  generalize gam 5 ^ 2 * a5 = b5 at *
  clear q1 q2 q3 q4 q5
  norm_num at n1 n3 n4 r1 r3 r4 r5 ⊢
  linarith

/-- **C162, waves, stable.**  On every linear system that conserves the energy, with steps of at most 3.3 over the norm of the operator and any contents of the register before each step, `n` steps increase the norm at most by
the factor `(1 + 10⁻¹⁶)ⁿ`. -/
theorem C162_wave (A : E →L[ℝ] E) (hA : ∀ u, ⟪u, A u⟫ = 0) (dt : ℝ) (hdt : 0 ≤ dt) (hs : dt * ‖A‖ ≤ 33 / 10) (u : ℕ → E) (hu : ∀ k, ∃ res, u (k + 1) = (stepD A dt (u k, res)).1) (n : ℕ) :
    ‖u n‖ ≤ (1 + 1 / 10 ^ 16) ^ n * ‖u 0‖ := by
  induction n with
  | zero => simp
  | succ n ih =>
    obtain ⟨res, e⟩ := hu n
    rw [e, pow_succ]
    calc _ ≤ (1 + 1 / 10 ^ 16) * ‖u n‖ := wave_step hA hdt hs _ _
      _ ≤ (1 + 1 / 10 ^ 16) * ((1 + 1 / 10 ^ 16) ^ n * ‖u 0‖) := mul_le_mul_of_nonneg_left ih (by norm_num)
      _ = _ := by ring

theorem pow_comm_apply (T : E →L[ℝ] E) (k : ℕ) (u : E) : (T ^ k) (T u) = T ((T ^ k) u) := by
  rw [← pow_apply, pow_succ]
  rfl

theorem step_comm (A : E →L[ℝ] E) (dt : ℝ) (u res res' : E) : A (stepD A dt (u, res)).1 = (stepD A dt (A u, res')).1 := by
  rw [step_linearD, step_linearD, map_sum]
  exact Finset.sum_congr rfl fun k _ => by rw [map_smul, pow_comm_apply]

/-- One step on an oscillation. -/
theorem osc_step {A : E →L[ℝ] E} (hA : ∀ u, ⟪u, A u⟫ = 0) {dt ω : ℝ} (hs : 335 / 100 ≤ dt * ω) {u : E} (hu : A (A u) = -(ω ^ 2) • u) (res : E) : 102 / 100 * ‖u‖ ≤ ‖(stepD A dt (u, res)).1‖ := by
  have hsk : ∀ u, ⟪u, (dt • A) u⟫ = 0 := fun u => by rw [smul_apply, real_inner_smul_right, hA, mul_zero]
  rw [step_gam]
  refine abs_le_of_sq_le_sq' ?_ (norm_nonneg _) |>.2
  rw [skew_sq hsk]
  obtain ⟨y, hy⟩ : ∃ y, y = (dt * ω) ^ 2 := ⟨_, rfl⟩
  have hy0 : 112225 / 10000 ≤ y := by rw [hy]; nlinarith
  have hTT : (dt • A) ((dt • A) u) = -y • u := by
    simp only [smul_apply, map_smul, hu, hy, smul_smul]
    congr 1
    ring
  have hT1 : ‖(dt • A) u‖ ^ 2 = y * ‖u‖ ^ 2 := by
    have := skew hsk u ((dt • A) u)
    rw [hTT, real_inner_smul_right, real_inner_self_eq_norm_sq, real_inner_self_eq_norm_sq] at this
    linarith
  have e1 : ((dt • A) ^ 1) u = (dt • A) u := by simp
  have e2 : ((dt • A) ^ 2) u = -y • u := by rw [pow_apply, e1, hTT]
  have e3 : ((dt • A) ^ 3) u = -y • (dt • A) u := by rw [pow_apply, e2, map_smul]
  have e4 : ((dt • A) ^ 4) u = -y • -y • u := by rw [pow_apply, e3, map_smul, hTT]
  have e5 : ((dt • A) ^ 5) u = -y • -y • (dt • A) u := by rw [pow_apply, e4, map_smul, map_smul]
  have hny : ‖(-y : ℝ)‖ ^ 2 = y ^ 2 := by rw [Real.norm_eq_abs, sq_abs]; ring
  rw [e1, e2, e3, e4, e5]
  simp only [norm_smul (-y), mul_pow, hny, hT1]
  obtain ⟨q1, q2, q3, q4, q5, -⟩ := gam_q
  rw [gam_zero] at q1 q2 ⊢
  generalize gam 1 ^ 2 - 2 * 1 * gam 2 = c1 at *
  generalize gam 2 ^ 2 + 2 * 1 * gam 4 - 2 * gam 1 * gam 3 = c2 at *
  generalize gam 3 ^ 2 - 2 * gam 2 * gam 4 + 2 * gam 1 * gam 5 = c3 at *
  generalize gam 4 ^ 2 - 2 * gam 3 * gam 5 = c4 at *
  generalize gam 5 ^ 2 = c5 at *
  have z := sq_nonneg ‖u‖
  generalize ‖u‖ ^ 2 = a at *
  have b1 := (abs_le.1 q1).1
  have b2 := (abs_le.1 q2).1
  have b3 := (abs_le.1 q3).1
  have b4 := (abs_le.1 q4).1
  have b5 := (abs_le.1 q5).1
  have y0 : 0 ≤ y := by linarith
  have m4 : 112225 / 10000 * y ^ 3 ≤ y * y ^ 3 := mul_le_mul_of_nonneg_right hy0 (by positivity)
  have m5 : (112225 / 10000) ^ 2 * y ^ 3 ≤ y ^ 2 * y ^ 3 := mul_le_mul_of_nonneg_right (pow_le_pow_left₀ (by norm_num) hy0 2) (by positivity)
  have m3 : (11 : ℝ) ^ 3 ≤ y ^ 3 := pow_le_pow_left₀ (by norm_num) (by linarith) 3
  have k1 : y ≤ y ^ 3 := by nlinarith [mul_nonneg y0 y0]
  have k2 : y ^ 2 ≤ y ^ 3 := by nlinarith [mul_nonneg y0 y0]
  have r1 := mul_le_mul_of_nonneg_right b1 y0
  have r2 := mul_le_mul_of_nonneg_right b2 (sq_nonneg y)
  have r3 := mul_le_mul_of_nonneg_right (show -7 / 1800 - 1 / 10 ^ 17 ≤ c3 by linarith) (show 0 ≤ y ^ 3 by positivity)
  have r4 := mul_le_mul_of_nonneg_right (show 1 / 14400 - 1 / 10 ^ 17 ≤ c4 by linarith) (show 0 ≤ y * y ^ 3 by positivity)
  have r5 := mul_le_mul_of_nonneg_right (show 1 / 40000 - 1 / 10 ^ 17 ≤ c5 by linarith) (show 0 ≤ y ^ 2 * y ^ 3 by positivity)
  have key : (102 / 100) ^ 2 ≤ 1 + c1 * y + c2 * y ^ 2 + c3 * y ^ 3 + c4 * (y * y ^ 3) + c5 * (y ^ 2 * y ^ 3) := by
    generalize c1 * y = x1 at *
    generalize c2 * y ^ 2 = x2 at *
    generalize c3 * y ^ 3 = x3 at *
    generalize c4 * (y * y ^ 3) = x4 at *
    generalize c5 * (y ^ 2 * y ^ 3) = x5 at *
    generalize y ^ 2 * y ^ 3 = y5 at *
    generalize y * y ^ 3 = y4 at *
    clear q1 q2 q3 q4 q5 b1 b2 b3 b4 b5
    norm_num at *
    linarith
  calc (102 / 100) ^ 2 * a ≤ (1 + c1 * y + c2 * y ^ 2 + c3 * y ^ 3 + c4 * (y * y ^ 3) + c5 * (y ^ 2 * y ^ 3)) * a := mul_le_mul_of_nonneg_right key z
    _ = _ := by ring

/-- **C162, waves, unstable.**  On a linear system that conserves the energy, an oscillation of frequency `ω` grows by at least two per cent in every step if the step is above `3.35 / ω`. -/
theorem C162_oscillation (A : E →L[ℝ] E) (hA : ∀ u, ⟪u, A u⟫ = 0) (dt ω : ℝ) (hs : 335 / 100 ≤ dt * ω) (u : ℕ → E) (h0 : A (A (u 0)) = -(ω ^ 2) • u 0) (hu : ∀ k, ∃ res, u (k + 1) = (stepD A dt (u k, res)).1) (n : ℕ) :
    (102 / 100) ^ n * ‖u 0‖ ≤ ‖u n‖ := by
  have inv : ∀ n, A (A (u n)) = -(ω ^ 2) • u n := by
    intro n
    induction n with
    | zero => exact h0
    | succ n ih =>
      obtain ⟨res, e⟩ := hu n
      rw [e, step_comm A dt (u n) res 0, step_comm A dt (A (u n)) 0 0, ih, step_linearD, step_linearD, Finset.smul_sum]
      exact Finset.sum_congr rfl fun k _ => by rw [map_smul, smul_comm]
  induction n with
  | zero => simp
  | succ n ih =>
    obtain ⟨res, e⟩ := hu n
    rw [e]
    calc (102 / 100) ^ (n + 1) * ‖u 0‖ = 102 / 100 * ((102 / 100) ^ n * ‖u 0‖) := by ring
      _ ≤ 102 / 100 * ‖u n‖ := mul_le_mul_of_nonneg_left ih (by norm_num)
      _ ≤ _ := osc_step hA hs (inv n) res

/-! ### Diffusion -/

/-- What a step does to an eigenvector. -/
noncomputable def amp (x : ℝ) : ℝ := ∑ k ∈ Finset.range 6, gam k * x ^ k

theorem step_eigen (A : E →L[ℝ] E) (dt μ : ℝ) (u res : E) (hu : A u = μ • u) : (stepD A dt (u, res)).1 = amp (dt * μ) • u := by
  rw [step_gam, amp, Finset.sum_smul]
  refine Finset.sum_congr rfl fun k _ => ?_
  have : ∀ k, ((dt • A) ^ k) u = (dt * μ) ^ k • u := by
    intro k
    induction k with
    | zero => simp
    | succ k ih =>
      rw [pow_apply, ih, map_smul, smul_apply, hu, smul_smul, smul_smul]
      congr 1
      ring
  rw [this, smul_smul]

theorem gam_near : |gam 1 - 1| ≤ 1 / 10 ^ 16 ∧ |gam 2 - 1 / 2| ≤ 1 / 10 ^ 16 ∧ |gam 3 - 1 / 6| ≤ 1 / 10 ^ 16 ∧ |gam 4 - 1 / 24| ≤ 1 / 10 ^ 16 ∧ |gam 5 - 1 / 200| ≤ 1 / 10 ^ 16 :=
  ⟨stab_idealD 1 (by norm_num), stab_idealD 2 (by norm_num), stab_idealD 3 (by norm_num), stab_idealD 4 (by norm_num), stab_idealD 5 (by norm_num)⟩

/-- Up to rounding, `amp (-x)` is the polynomial the scheme was designed with. -/
theorem amp_near (x : ℝ) (hx : 0 ≤ x) : |amp (-x) - (1 - x + x ^ 2 / 2 - x ^ 3 / 6 + x ^ 4 / 24 - x ^ 5 / 200)| ≤ 1 / 10 ^ 16 * (x + x ^ 2 + x ^ 3 + x ^ 4 + x ^ 5) := by
  obtain ⟨h1, h2, h3, h4, h5⟩ := gam_near
  have e : amp (-x) - (1 - x + x ^ 2 / 2 - x ^ 3 / 6 + x ^ 4 / 24 - x ^ 5 / 200) = -((gam 1 - 1) * x) + (gam 2 - 1 / 2) * x ^ 2 + -((gam 3 - 1 / 6) * x ^ 3) + (gam 4 - 1 / 24) * x ^ 4 + -((gam 5 - 1 / 200) * x ^ 5) := by
    unfold amp
    simp only [Finset.sum_range_succ, Finset.sum_range_zero, gam_zero]
    ring
  have b : ∀ (c : ℝ) (k : ℕ), |c| ≤ 1 / 10 ^ 16 → |c * x ^ k| ≤ 1 / 10 ^ 16 * x ^ k := fun c k h => by
    rw [abs_mul, abs_of_nonneg (pow_nonneg hx k)]
    exact mul_le_mul_of_nonneg_right h (pow_nonneg hx k)
  have b1 := b _ 1 h1
  rw [pow_one] at b1
  have b2 := b _ 2 h2
  have b3 := b _ 3 h3
  have b4 := b _ 4 h4
  have b5 := b _ 5 h5
  rw [e]
  generalize (gam 1 - 1) * x = y1 at *
  generalize (gam 2 - 1 / 2) * x ^ 2 = y2 at *
  generalize (gam 3 - 1 / 6) * x ^ 3 = y3 at *
  generalize (gam 4 - 1 / 24) * x ^ 4 = y4 at *
  generalize (gam 5 - 1 / 200) * x ^ 5 = y5 at *
  rw [abs_le] at *
  constructor <;> linarith [b1.1, b1.2, b2.1, b2.2, b3.1, b3.2, b4.1, b4.2, b5.1, b5.2]

theorem poly_upper (x : ℝ) (h0 : 0 ≤ x) : 1 - x + x ^ 2 / 2 - x ^ 3 / 6 + x ^ 4 / 24 - x ^ 5 / 200 ≤ 1 := by
  have h : 0 ≤ x ^ 4 - 25 / 3 * x ^ 3 + 100 / 3 * x ^ 2 - 100 * x + 200 := by
    nlinarith [sq_nonneg (x ^ 2 - 25 / 6 * x + 6), sq_nonneg (x - 63 / 10)]
  nlinarith [mul_nonneg h0 h]

theorem poly_lower (x : ℝ) (h1 : x ≤ 46 / 10) : -1 ≤ 1 - x + x ^ 2 / 2 - x ^ 3 / 6 + x ^ 4 / 24 - x ^ 5 / 200 := by
  obtain ⟨b3, hb3⟩ : ∃ b : ℝ, b = 46 / 10 - 25 / 3 := ⟨_, rfl⟩
  obtain ⟨b2, hb2⟩ : ∃ b : ℝ, b = 46 / 10 * b3 + 100 / 3 := ⟨_, rfl⟩
  obtain ⟨b1, hb1⟩ : ∃ b : ℝ, b = 46 / 10 * b2 - 100 := ⟨_, rfl⟩
  obtain ⟨b0, hb0⟩ : ∃ b : ℝ, b = 46 / 10 * b1 + 200 := ⟨_, rfl⟩
  have e : 400 - 200 * x + 100 * x ^ 2 - 100 / 3 * x ^ 3 + 25 / 3 * x ^ 4 - x ^ 5 = (46 / 10 - x) * (x ^ 4 + b3 * x ^ 3 + b2 * x ^ 2 + b1 * x + b0) + (400 - 46 / 10 * b0) := by
    rw [hb0, hb1, hb2, hb3]; ring
  norm_num at hb3
  rw [hb3] at hb2; norm_num at hb2
  rw [hb2] at hb1; norm_num at hb1
  rw [hb1] at hb0; norm_num at hb0
  have h : 0 ≤ x ^ 4 + b3 * x ^ 3 + b2 * x ^ 2 + b1 * x + b0 := by
    rw [hb0, hb1, hb2, hb3]
    nlinarith [sq_nonneg (x ^ 2 + (-56 / 30) * x), sq_nonneg (x - 1)]
  have := mul_nonneg (show 0 ≤ 46 / 10 - x by linarith) h
  have r : 0 ≤ 400 - 46 / 10 * b0 := by rw [hb0]; norm_num
  linarith

theorem amp_stable (x : ℝ) (h0 : 0 ≤ x) (h1 : x ≤ 46 / 10) : |amp (-x)| ≤ 1 + 1 / 10 ^ 12 := by
  have h := amp_near x h0
  have u := poly_upper x h0
  have l := poly_lower x h1
  have p : ∀ k, x ^ k ≤ (46 / 10) ^ k := fun k => pow_le_pow_left₀ h0 h1 k
  have p2 := p 2
  have p3 := p 3
  have p4 := p 4
  have p5 := p 5
  generalize 1 - x + x ^ 2 / 2 - x ^ 3 / 6 + x ^ 4 / 24 - x ^ 5 / 200 = P at *
  generalize x ^ 2 = x2 at *
  generalize x ^ 3 = x3 at *
  generalize x ^ 4 = x4 at *
  generalize x ^ 5 = x5 at *
  rw [abs_le] at *
  norm_num at *
  constructor <;> linarith [h.1, h.2]

theorem amp_unstable (x : ℝ) (h : 47 / 10 ≤ x) : amp (-x) ≤ -(105 / 100) := by
  have x0 : 0 ≤ x := by linarith
  have ha := (abs_le.1 (amp_near x x0)).2
  obtain ⟨d, hd⟩ : ∃ d, x = 47 / 10 + d := ⟨x - 47 / 10, by ring⟩
  have d0 : 0 ≤ d := by linarith
  have d2 := pow_nonneg d0 2
  have d3 := pow_nonneg d0 3
  have d4 := pow_nonneg d0 4
  have d5 := pow_nonneg d0 5
  rw [hd] at ha
  rw [hd]
  refine le_trans (le_add_of_sub_left_le ha) ?_
  ring_nf
  norm_num
  nlinarith

/-- One step on a symmetric dissipative system. -/
theorem diffusion_step [FiniteDimensional ℝ E] {A : E →L[ℝ] E} (hsym : ∀ u v, ⟪A u, v⟫ = ⟪u, A v⟫) (hA : ∀ u, ⟪u, A u⟫ ≤ 0) {dt : ℝ} (hdt : 0 ≤ dt) (hs : dt * ‖A‖ ≤ 46 / 10) (u res : E) :
    ‖(stepD A dt (u, res)).1‖ ≤ (1 + 1 / 10 ^ 12) * ‖u‖ := by
  have hS : (A : E →ₗ[ℝ] E).IsSymmetric := fun u v => hsym u v
  obtain ⟨b, hb⟩ : ∃ b : OrthonormalBasis (Fin (Module.finrank ℝ E)) ℝ E, ∃ μ : Fin (Module.finrank ℝ E) → ℝ, ∀ i, A (b i) = μ i • b i :=
    ⟨hS.eigenvectorBasis rfl, hS.eigenvalues rfl, fun i => hS.apply_eigenvectorBasis rfl i⟩
  obtain ⟨μ, hμ⟩ := hb
  have bound : ∀ i, |amp (dt * μ i)| ≤ 1 + 1 / 10 ^ 12 := by
    intro i
    have hn := b.orthonormal.1 i
    have h1 : μ i ≤ 0 := by
      have := hA (b i)
      rw [hμ, real_inner_smul_right, real_inner_self_eq_norm_sq, hn] at this
      linarith
    have h2 : -μ i ≤ ‖A‖ := by
      have := A.le_opNorm (b i)
      rw [hμ, norm_smul, hn, Real.norm_eq_abs, abs_of_nonpos h1] at this
      linarith
    have h3 : dt * -μ i ≤ dt * ‖A‖ := mul_le_mul_of_nonneg_left h2 hdt
    have := amp_stable (dt * -μ i) (mul_nonneg hdt (by linarith)) (by linarith)
    rwa [mul_neg, neg_neg] at this
  have hstep : ∀ i, ⟪b i, (stepD A dt (u, res)).1⟫ = amp (dt * μ i) * ⟪b i, u⟫ := by
    intro i
    have hp : ∀ k, ⟪b i, (A ^ k) u⟫ = μ i ^ k * ⟪b i, u⟫ := by
      intro k
      induction k with
      | zero => simp
      | succ k ih => rw [pow_apply, ← hsym, hμ, real_inner_smul_left, ih]; ring
    rw [step_linearD, inner_sum, amp, Finset.sum_mul]
    refine Finset.sum_congr rfl fun k _ => ?_
    rw [real_inner_smul_right, hp, gam]
    ring
  refine abs_le_of_sq_le_sq' ?_ (by positivity) |>.2
  rw [mul_pow, ← b.sum_sq_norm_inner_right, ← b.sum_sq_norm_inner_right, Finset.mul_sum]
  refine Finset.sum_le_sum fun i _ => ?_
  rw [hstep, norm_mul, mul_pow]
  exact mul_le_mul_of_nonneg_right (pow_le_pow_left₀ (norm_nonneg _) (bound i) 2) (sq_nonneg _)

/-- **C162, diffusion, stable.**  On every finite system `u' = A u` with `A` symmetric and dissipative, with steps of at most 4.6 over the norm of `A` and any contents of the register before each step, `n` steps increase the norm at
most by the factor `(1 + 10⁻¹²)ⁿ`. -/
theorem C162_diffusion [FiniteDimensional ℝ E] (A : E →L[ℝ] E) (hsym : ∀ u v, ⟪A u, v⟫ = ⟪u, A v⟫) (hA : ∀ u, ⟪u, A u⟫ ≤ 0) (dt : ℝ) (hdt : 0 ≤ dt) (hs : dt * ‖A‖ ≤ 46 / 10) (u : ℕ → E)
    (hu : ∀ k, ∃ res, u (k + 1) = (stepD A dt (u k, res)).1) (n : ℕ) : ‖u n‖ ≤ (1 + 1 / 10 ^ 12) ^ n * ‖u 0‖ := by
  induction n with
  | zero => simp
  | succ n ih =>
    obtain ⟨res, e⟩ := hu n
    rw [e, pow_succ]
    calc _ ≤ (1 + 1 / 10 ^ 12) * ‖u n‖ := diffusion_step hsym hA hdt hs _ _
      _ ≤ (1 + 1 / 10 ^ 12) * ((1 + 1 / 10 ^ 12) ^ n * ‖u 0‖) := mul_le_mul_of_nonneg_left ih (by norm_num)
      _ = _ := by ring

/-- **C162, diffusion, unstable.**  A field that ought to decay at the rate `μ` grows by at least five per cent in every step if the step is above `4.7 / μ`. -/
theorem C162_decay (A : E →L[ℝ] E) (dt μ : ℝ) (hs : 47 / 10 ≤ dt * μ) (u : ℕ → E) (h0 : A (u 0) = -μ • u 0) (hu : ∀ k, ∃ res, u (k + 1) = (stepD A dt (u k, res)).1) (n : ℕ) :
    (105 / 100) ^ n * ‖u 0‖ ≤ ‖u n‖ := by
  have inv : ∀ n, u n = amp (-(dt * μ)) ^ n • u 0 := by
    intro n
    induction n with
    | zero => simp
    | succ n ih =>
      obtain ⟨res, e⟩ := hu n
      have h1 : A (u n) = -μ • u n := by rw [ih, map_smul, h0, smul_comm]
      rw [e, step_eigen A dt (-μ) (u n) res h1, mul_neg, ih, smul_smul, pow_succ']
  have h := amp_unstable (dt * μ) hs
  rw [inv n, norm_smul, norm_pow, Real.norm_eq_abs, abs_of_nonpos (by linarith)]
  exact mul_le_mul_of_nonneg_right (pow_le_pow_left₀ (by norm_num) (by linarith) n) (norm_nonneg _)

/-- The steps of a run that starts with `u` and the register `r`. -/
theorem run_exists (A : E →L[ℝ] E) (dt : ℝ) (u r : E) : ∃ v : ℕ → E, v 0 = u ∧ ∀ k, ∃ res, v (k + 1) = (stepD A dt (v k, res)).1 := by
  refine ⟨fun n => ((stepD A dt)^[n] (u, r)).1, rfl, fun k => ⟨((stepD A dt)^[k] (u, r)).2, ?_⟩⟩
  simp only [Function.iterate_succ_apply']

/-- The hypotheses can be met, and the limits differ by little: the oscillator `u' = i u` in the complex plane with steps of 3.3 and 3.35. -/
example (n : ℕ) : (∃ u : ℕ → ℂ, u 0 = 1 ∧ (∀ k, ∃ res, u (k + 1) = (stepD (fun z => Complex.I * z) 3.3 (u k, res)).1) ∧ ‖u n‖ ≤ (1 + 1 / 10 ^ 16) ^ n) ∧
    ∃ u : ℕ → ℂ, u 0 = 1 ∧ (∀ k, ∃ res, u (k + 1) = (stepD (fun z => Complex.I * z) 3.35 (u k, res)).1) ∧ (102 / 100) ^ n ≤ ‖u n‖ := by
  have hA : ∀ u : ℂ, ⟪u, ContinuousLinearMap.mul ℝ ℂ Complex.I u⟫ = 0 := fun u => by
    rw [Complex.inner]
    simp [Complex.mul_re, Complex.mul_im]
    ring
  have hn : ‖ContinuousLinearMap.mul ℝ ℂ Complex.I‖ ≤ 1 := ContinuousLinearMap.opNorm_le_bound _ zero_le_one fun z => by simp
  constructor
  · obtain ⟨u, h0, hu⟩ := run_exists (ContinuousLinearMap.mul ℝ ℂ Complex.I) 3.3 1 5
    have := C162_wave _ hA 3.3 (by norm_num) (by nlinarith) u hu n
    rw [h0, norm_one, mul_one] at this
    exact ⟨u, h0, hu, this⟩
  · obtain ⟨u, h0, hu⟩ := run_exists (ContinuousLinearMap.mul ℝ ℂ Complex.I) 3.35 1 5
    have := C162_oscillation _ hA 3.35 1 (by norm_num) u (by rw [h0]; simp) hu n
    rw [h0, norm_one, mul_one] at this
    exact ⟨u, h0, hu, this⟩

/-- The same for decay, `u' = -u` with steps of 4.6 and 4.7. -/
example (n : ℕ) : (∃ u : ℕ → ℝ, u 0 = 1 ∧ (∀ k, ∃ res, u (k + 1) = (stepD (fun z => -z) 4.6 (u k, res)).1) ∧ |u n| ≤ (1 + 1 / 10 ^ 12) ^ n) ∧
    ∃ u : ℕ → ℝ, u 0 = 1 ∧ (∀ k, ∃ res, u (k + 1) = (stepD (fun z => -z) 4.7 (u k, res)).1) ∧ (105 / 100) ^ n ≤ |u n| := by
  have hn : ‖-ContinuousLinearMap.id ℝ ℝ‖ = 1 := by rw [norm_neg, ContinuousLinearMap.norm_id]
  constructor
  · obtain ⟨u, h0, hu⟩ := run_exists (-ContinuousLinearMap.id ℝ ℝ) 4.6 1 5
    have := C162_diffusion _ (fun u v => by simp) (fun u => by simp [mul_self_nonneg]) 4.6 (by norm_num) (by rw [hn]; norm_num) u hu n
    rw [h0, norm_one, mul_one] at this
    exact ⟨u, h0, hu, this⟩
  · obtain ⟨u, h0, hu⟩ := run_exists (-ContinuousLinearMap.id ℝ ℝ) 4.7 1 5
    have := C162_decay _ 4.7 1 (by norm_num) u (by rw [h0]; simp) hu n
    rw [h0, norm_one, mul_one] at this
    exact ⟨u, h0, hu, this⟩

end Blitzdg.Time
