import Mathlib.Analysis.Calculus.MeanValue
import Mathlib.Analysis.Calculus.Deriv.Pow
import Mathlib.Analysis.Calculus.Deriv.Mul
import Mathlib.Analysis.Calculus.Deriv.Add
import Mathlib.Analysis.SpecialFunctions.Exp

/-!
The explicit midpoint rule for a differential equation `y' = R(y)` in a normed space: local error, stability and convergence of second order with variable steps.  No code is modelled here; SW/PyOrderProps.lean applies the
theorem to the loops of the Python programs.
-/

namespace Blitzdg.Midpoint

open Set

variable {E : Type*} [NormedAddCommGroup E] [NormedSpace ℝ E]

/-- `y` solves `y' = R(y)` on `[0, T]`, and its second and third derivatives exist and are bounded by `M2` and `M3`. -/
structure Solution (R : E → E) (y : ℝ → E) (T M2 M3 : ℝ) : Prop where
  eq : ∀ t ∈ Icc 0 T, HasDerivWithinAt y (R (y t)) (Icc 0 T) t
  smooth : ∃ y2 y3 : ℝ → E, (∀ t ∈ Icc 0 T, HasDerivWithinAt (fun t => R (y t)) (y2 t) (Icc 0 T) t ∧ HasDerivWithinAt y2 (y3 t) (Icc 0 T) t) ∧ ∀ t ∈ Icc 0 T, ‖y2 t‖ ≤ M2 ∧ ‖y3 t‖ ≤ M3

/-- One step of the midpoint rule. -/
noncomputable def step (R : E → E) (τ : ℝ) (a : E) : E := a + τ • R (a + (τ / 2) • R a)

/-- Points within `r` of the solution. -/
def Tube (y : ℝ → E) (T r : ℝ) : Set E := {a | ∃ t ∈ Icc 0 T, ‖a - y t‖ ≤ r}

/-- `R` is Lipschitz with constant `L` on `D`. -/
def Lip (R : E → E) (L : ℝ) (D : Set E) : Prop := ∀ a ∈ D, ∀ b ∈ D, ‖R a - R b‖ ≤ L * ‖a - b‖

theorem within_right {f : ℝ → E} {f' : E} {T t : ℝ} (h0 : 0 ≤ t) (hT : t < T) (h : HasDerivWithinAt f f' (Icc 0 T) t) : HasDerivWithinAt f f' (Ici t) t :=
  (h.mono (Icc_subset_Icc_left h0)).mono_of_mem_nhdsWithin (Icc_mem_nhdsGE hT)

/-- Integration of a bound on a derivative. -/
theorem fence {f f' : ℝ → E} {T a b : ℝ} (h0 : 0 ≤ a) (hb : b ≤ T) (hf : ∀ t ∈ Icc 0 T, HasDerivWithinAt f (f' t) (Icc 0 T) t) (hz : f a = 0) {B B' : ℝ → ℝ} (ha : 0 ≤ B a) (hB : ∀ t, HasDerivAt B (B' t) t)
    (hbd : ∀ t ∈ Icc a b, ‖f' t‖ ≤ B' t) : ∀ t ∈ Icc a b, ‖f t‖ ≤ B t := by
  have hin : ∀ t ∈ Icc a b, t ∈ Icc 0 T := fun t ht => ⟨le_trans h0 ht.1, le_trans ht.2 hb⟩
  exact image_norm_le_of_norm_deriv_right_le_deriv_boundary (fun t ht => ((hf t (hin t ht)).continuousWithinAt).mono (Icc_subset_Icc h0 hb))
    (fun t ht => within_right (le_trans h0 ht.1) (lt_of_lt_of_le ht.2 hb) (hf t (hin t ⟨ht.1, ht.2.le⟩))) (by rw [hz, norm_zero]; exact ha) hB fun t ht => hbd t ⟨ht.1, ht.2.le⟩

/-- Taylor's formula of degree one. -/
theorem taylor1 {f f1 f2 : ℝ → E} {T a b M : ℝ} (h0 : 0 ≤ a) (hb : b ≤ T) (h1 : ∀ t ∈ Icc 0 T, HasDerivWithinAt f (f1 t) (Icc 0 T) t) (h2 : ∀ t ∈ Icc 0 T, HasDerivWithinAt f1 (f2 t) (Icc 0 T) t)
    (hM : ∀ t ∈ Icc 0 T, ‖f2 t‖ ≤ M) : ∀ t ∈ Icc a b, ‖f t - f a - (t - a) • f1 a‖ ≤ M / 2 * (t - a) ^ 2 := by
  have hin : ∀ t ∈ Icc a b, t ∈ Icc 0 T := fun t ht => ⟨le_trans h0 ht.1, le_trans ht.2 hb⟩
  have s1 : ∀ t ∈ Icc a b, ‖f1 t - f1 a‖ ≤ M * (t - a) := by
    refine fence h0 hb (f := fun t => f1 t - f1 a) (f' := f2) (B := fun t => M * (t - a)) (B' := fun _ => M) (fun t ht => (h2 t ht).sub_const _) (by simp) (by simp) (fun t => ?_) fun t ht => hM t (hin t ht)
    simpa using ((hasDerivAt_id t).sub_const a).const_mul M
  refine fence h0 hb (f := fun t => f t - f a - (t - a) • f1 a) (f' := fun t => f1 t - f1 a) (B := fun t => M / 2 * (t - a) ^ 2) (B' := fun t => M * (t - a)) (fun t ht => ?_) (by simp) (by simp) (fun t => ?_) s1
  · have e := (((hasDerivWithinAt_id t (Icc 0 T)).sub_const a).smul_const (f1 a))
    rw [one_smul] at e
    exact ((h1 t ht).sub_const _).sub e
  · refine ((((hasDerivAt_id' t).sub_const a).fun_pow 2).const_mul (M / 2)).congr_deriv ?_
    push_cast
    ring

/-- Taylor's formula of degree two. -/
theorem taylor2 {f f1 f2 f3 : ℝ → E} {T a b M : ℝ} (h0 : 0 ≤ a) (hb : b ≤ T) (h1 : ∀ t ∈ Icc 0 T, HasDerivWithinAt f (f1 t) (Icc 0 T) t) (h2 : ∀ t ∈ Icc 0 T, HasDerivWithinAt f1 (f2 t) (Icc 0 T) t)
    (h3 : ∀ t ∈ Icc 0 T, HasDerivWithinAt f2 (f3 t) (Icc 0 T) t) (hM : ∀ t ∈ Icc 0 T, ‖f3 t‖ ≤ M) :
    ∀ t ∈ Icc a b, ‖f t - f a - (t - a) • f1 a - ((t - a) ^ 2 / 2) • f2 a‖ ≤ M / 6 * (t - a) ^ 3 := by
  have s1 := taylor1 h0 hb h2 h3 hM
  refine fence h0 hb (f := fun t => f t - f a - (t - a) • f1 a - ((t - a) ^ 2 / 2) • f2 a) (f' := fun t => f1 t - f1 a - (t - a) • f2 a) (B := fun t => M / 6 * (t - a) ^ 3) (B' := fun t => M / 2 * (t - a) ^ 2)
    (fun t ht => ?_) (by simp) (by simp) (fun t => ?_) s1
  · have e := (((hasDerivWithinAt_id t (Icc 0 T)).sub_const a).smul_const (f1 a))
    rw [one_smul] at e
    have e2 : HasDerivAt (fun t => (t - a) ^ 2 / 2) (t - a) t := by
      refine ((((hasDerivAt_id' t).sub_const a).fun_pow 2).div_const 2).congr_deriv ?_
      push_cast
      ring
    exact (((h1 t ht).sub_const _).sub e).sub (e2.hasDerivWithinAt.smul_const (f2 a))
  · refine ((((hasDerivAt_id' t).sub_const a).fun_pow 3).const_mul (M / 6)).congr_deriv ?_
    push_cast
    ring

/-- The predicted state is within `M2 τ²/8` of the solution. -/
theorem mid_error {R : E → E} {y : ℝ → E} {T M2 M3 t τ : ℝ} (hy : Solution R y T M2 M3) (h0 : 0 ≤ t) (hτ : 0 ≤ τ) (hT : t + τ ≤ T) : ‖y (t + τ / 2) - (y t + (τ / 2) • R (y t))‖ ≤ M2 / 8 * τ ^ 2 := by
  obtain ⟨y2, y3, hd, hM⟩ := hy.smooth
  have := taylor1 h0 hT hy.eq (fun t ht => (hd t ht).1) (fun t ht => (hM t ht).1) (t + τ / 2) ⟨by linarith, by linarith⟩
  rw [add_sub_cancel_left] at this
  calc _ = ‖y (t + τ / 2) - y t - (τ / 2) • R (y t)‖ := by rw [sub_sub]
    _ ≤ _ := this
    _ = _ := by ring

/-- **Local error.** One step from a point of the solution misses the solution by at most `(L M2/8 + 7 M3/24) τ³`. -/
theorem local_error {R : E → E} {y : ℝ → E} {T M2 M3 L r t τ : ℝ} (hy : Solution R y T M2 M3) (hL : 0 ≤ L) (hR : Lip R L (Tube y T r)) (h0 : 0 ≤ t) (hτ : 0 ≤ τ) (hT : t + τ ≤ T) (hr : M2 / 8 * τ ^ 2 ≤ r) :
    ‖y (t + τ) - step R τ (y t)‖ ≤ (L * M2 / 8 + 7 * M3 / 24) * τ ^ 3 := by
  obtain ⟨y2, y3, hd, hM⟩ := hy.smooth
  have hmid := mid_error hy h0 hτ hT
  have hm : t + τ / 2 ∈ Icc 0 T := ⟨by linarith, by linarith⟩
  have hr0 : 0 ≤ r := le_trans (le_trans (norm_nonneg _) hmid) hr
  have d1 : y (t + τ / 2) ∈ Tube y T r := ⟨_, hm, by simpa using hr0⟩
  have d2 : y t + (τ / 2) • R (y t) ∈ Tube y T r := ⟨_, hm, by rw [norm_sub_rev]; exact le_trans hmid hr⟩
  have e1 := taylor2 h0 hT hy.eq (fun t ht => (hd t ht).1) (fun t ht => (hd t ht).2) (fun t ht => (hM t ht).2) (t + τ) ⟨by linarith, le_refl _⟩
  have e2 := taylor1 h0 hT (fun t ht => (hd t ht).1) (fun t ht => (hd t ht).2) (fun t ht => (hM t ht).2) (t + τ / 2) ⟨by linarith, by linarith⟩
  rw [add_sub_cancel_left] at e1 e2
  have e3 := hR _ d1 _ d2
  have key : y (t + τ) - step R τ (y t) = (y (t + τ) - y t - τ • R (y t) - (τ ^ 2 / 2) • y2 t) - τ • (R (y (t + τ / 2)) - R (y t) - (τ / 2) • y2 t) + τ • (R (y (t + τ / 2)) - R (y t + (τ / 2) • R (y t))) := by
    unfold step
    rw [smul_sub, smul_sub, smul_sub, smul_smul, show τ * (τ / 2) = τ ^ 2 / 2 by ring]
    abel
  rw [key]
  refine le_trans (norm_add_le _ _) (le_trans (add_le_add_left (norm_sub_le _ _) _) ?_)
  rw [norm_smul, norm_smul, Real.norm_eq_abs, abs_of_nonneg hτ]
  have f2 := mul_le_mul_of_nonneg_left e2 hτ
  have f3 := mul_le_mul_of_nonneg_left (le_trans e3 (mul_le_mul_of_nonneg_left hmid hL)) hτ
  nlinarith [e1, f2, f3]

/-- **Stability.** One step spreads two states by a factor of at most `exp(L τ)`. -/
theorem stable {R : E → E} {D : Set E} {L τ : ℝ} {a b : E} (hL : 0 ≤ L) (hR : Lip R L D) (hτ : 0 ≤ τ) (ha : a ∈ D) (hb : b ∈ D) (ha' : a + (τ / 2) • R a ∈ D) (hb' : b + (τ / 2) • R b ∈ D) :
    ‖(a + (τ / 2) • R a) - (b + (τ / 2) • R b)‖ ≤ (1 + L * τ / 2) * ‖a - b‖ ∧ ‖step R τ a - step R τ b‖ ≤ Real.exp (L * τ) * ‖a - b‖ := by
  have h1 : ‖(a + (τ / 2) • R a) - (b + (τ / 2) • R b)‖ ≤ (1 + L * τ / 2) * ‖a - b‖ := by
    have e : (a + (τ / 2) • R a) - (b + (τ / 2) • R b) = (a - b) + (τ / 2) • (R a - R b) := by rw [smul_sub]; abel
    rw [e]
    refine le_trans (norm_add_le _ _) ?_
    rw [norm_smul, Real.norm_eq_abs, abs_of_nonneg (by linarith)]
    have := mul_le_mul_of_nonneg_left (hR a ha b hb) (by linarith : 0 ≤ τ / 2)
    nlinarith
  refine ⟨h1, ?_⟩
  have e : step R τ a - step R τ b = (a - b) + τ • (R (a + (τ / 2) • R a) - R (b + (τ / 2) • R b)) := by unfold step; rw [smul_sub]; abel
  rw [e]
  refine le_trans (norm_add_le _ _) ?_
  rw [norm_smul, Real.norm_eq_abs, abs_of_nonneg hτ]
  have h2 := mul_le_mul_of_nonneg_left (le_trans (hR _ ha' _ hb') (mul_le_mul_of_nonneg_left h1 hL)) hτ
  have h3 : 1 + L * τ + (L * τ) ^ 2 / 2 ≤ Real.exp (L * τ) := Real.quadratic_le_exp_of_nonneg (mul_nonneg hL hτ)
  have h4 := mul_le_mul_of_nonneg_right h3 (norm_nonneg (a - b))
  nlinarith

/-- **Convergence.** If the steps are at most `δ`, and `δ` and the initial error are small enough for the bound to be below the radius of the tube in which `R` is Lipschitz, then after every step the error is at most
`exp(L t) (e₀ + C δ² t)`. -/
theorem convergence {R : E → E} {y : ℝ → E} {T M2 M3 L r δ : ℝ} (hy : Solution R y T M2 M3) (hL : 0 ≤ L) (hR : Lip R L (Tube y T r)) {m : ℕ} {τ t : ℕ → ℝ} {u : ℕ → E}
    (hM2 : 0 ≤ M2) (hM3 : 0 ≤ M3) (hδ : 0 ≤ δ) (hτ : ∀ j < m, 0 ≤ τ j ∧ τ j ≤ δ) (ht0 : t 0 = 0) (htc : ∀ j < m, t (j + 1) = t j + τ j) (htm : t m ≤ T)
    (hu : ∀ j < m, u j ∈ Tube y T r → u j + (τ j / 2) • R (u j) ∈ Tube y T r → u (j + 1) = step R (τ j) (u j))
    (hsmall : (1 + L * δ / 2) * (Real.exp (L * T) * (‖u 0 - y 0‖ + (L * M2 / 8 + 7 * M3 / 24) * δ ^ 2 * T)) + M2 / 8 * δ ^ 2 ≤ r) :
    ∀ j ≤ m, ‖u j - y (t j)‖ ≤ Real.exp (L * t j) * (‖u 0 - y 0‖ + (L * M2 / 8 + 7 * M3 / 24) * δ ^ 2 * t j) ∧ (j < m → u (j + 1) = step R (τ j) (u j)) := by
  obtain ⟨C, hC⟩ : ∃ C, C = L * M2 / 8 + 7 * M3 / 24 := ⟨_, rfl⟩
  rw [← hC] at hsmall ⊢
  have hC0 : 0 ≤ C := by rw [hC]; positivity
  have tmono : ∀ j ≤ m, 0 ≤ t j := by
    intro j
    induction j with
    | zero => intro _; exact ht0.ge
    | succ j ih =>
      intro hj
      rw [htc j (by omega)]
      exact add_nonneg (ih (by omega)) (hτ j (by omega)).1
  have tle : ∀ i j, i + j ≤ m → t i ≤ t (i + j) := by
    intro i j
    induction j with
    | zero => intro _; exact le_refl _
    | succ j ih =>
      intro hj
      rw [← add_assoc, htc (i + j) (by omega)]
      have := ih (by omega)
      have := (hτ (i + j) (by omega)).1
      linarith
  have tT : ∀ j ≤ m, t j ≤ T := fun j hj => by
    have := tle j (m - j) (by omega)
    rw [show j + (m - j) = m by omega] at this
    linarith
  have hT0 : 0 ≤ T := le_trans (tmono 0 (by omega)) (tT 0 (by omega))
  obtain ⟨ε, hε⟩ : ∃ ε, ε = ‖u 0 - y 0‖ := ⟨_, rfl⟩
  have hε0 : 0 ≤ ε := by rw [hε]; exact norm_nonneg _
  rw [← hε] at hsmall ⊢
  have bound : ∀ j ≤ m, Real.exp (L * t j) * (ε + C * δ ^ 2 * t j) ≤ Real.exp (L * T) * (ε + C * δ ^ 2 * T) := by
    intro j hj
    have h1 := tT j hj
    have h2 := tmono j hj
    have := (Real.exp_pos (L * t j)).le
    gcongr
  have big0 : 0 ≤ Real.exp (L * T) * (ε + C * δ ^ 2 * T) := by positivity
  have hr8 : ∀ τ, 0 ≤ τ → τ ≤ δ → M2 / 8 * τ ^ 2 ≤ r := by
    intro τ h1 h2
    have : M2 / 8 * τ ^ 2 ≤ M2 / 8 * δ ^ 2 := by gcongr
    have : 0 ≤ (1 + L * δ / 2) * (Real.exp (L * T) * (ε + C * δ ^ 2 * T)) := by positivity
    linarith
  have stepj : ∀ j < m, ‖u j - y (t j)‖ ≤ Real.exp (L * t j) * (ε + C * δ ^ 2 * t j) →
      u (j + 1) = step R (τ j) (u j) ∧ ‖u (j + 1) - y (t (j + 1))‖ ≤ Real.exp (L * t (j + 1)) * (ε + C * δ ^ 2 * t (j + 1)) := by
    intro j hj ih
    obtain ⟨hτ0, hτδ⟩ := hτ j hj
    have h0 := tmono j hj.le
    have h1 := tT (j + 1) hj
    rw [htc j hj] at h1
    have hb := le_trans ih (bound j hj.le)
    have hA0 : (0 : ℝ) ≤ L * δ / 2 := by positivity
    have h88 : 0 ≤ M2 / 8 * δ ^ 2 := by positivity
    have hr0 : 0 ≤ r := by nlinarith
    have hbr : ‖u j - y (t j)‖ ≤ r := by nlinarith
    have d1 : u j ∈ Tube y T r := ⟨t j, ⟨h0, tT j hj.le⟩, hbr⟩
    have d2 : y (t j) ∈ Tube y T r := ⟨t j, ⟨h0, tT j hj.le⟩, by simpa using hr0⟩
    have hmid := mid_error hy h0 hτ0 h1
    have hmm : t j + τ j / 2 ∈ Icc 0 T := ⟨by linarith, by linarith⟩
    have d3 : y (t j) + (τ j / 2) • R (y (t j)) ∈ Tube y T r := ⟨_, hmm, by rw [norm_sub_rev]; exact le_trans hmid (hr8 _ hτ0 hτδ)⟩
    have hspread : ‖(u j + (τ j / 2) • R (u j)) - (y (t j) + (τ j / 2) • R (y (t j)))‖ ≤ (1 + L * τ j / 2) * ‖u j - y (t j)‖ := by
      have e : (u j + (τ j / 2) • R (u j)) - (y (t j) + (τ j / 2) • R (y (t j))) = (u j - y (t j)) + (τ j / 2) • (R (u j) - R (y (t j))) := by rw [smul_sub]; abel
      rw [e]
      refine le_trans (norm_add_le _ _) ?_
      rw [norm_smul, Real.norm_eq_abs, abs_of_nonneg (by linarith)]
      have := mul_le_mul_of_nonneg_left (hR _ d1 _ d2) (by linarith : 0 ≤ τ j / 2)
      nlinarith
    have d4 : u j + (τ j / 2) • R (u j) ∈ Tube y T r := by
      refine ⟨_, hmm, ?_⟩
      have e : u j + (τ j / 2) • R (u j) - y (t j + τ j / 2) = ((u j + (τ j / 2) • R (u j)) - (y (t j) + (τ j / 2) • R (y (t j)))) - (y (t j + τ j / 2) - (y (t j) + (τ j / 2) • R (y (t j)))) := by abel
      rw [e]
      refine le_trans (norm_sub_le _ _) ?_
      have g1 : (1 + L * τ j / 2) * ‖u j - y (t j)‖ ≤ (1 + L * δ / 2) * (Real.exp (L * T) * (ε + C * δ ^ 2 * T)) := by gcongr
      have g2 : M2 / 8 * (τ j) ^ 2 ≤ M2 / 8 * δ ^ 2 := by gcongr
      linarith
    have hstep := hu j hj d1 d4
    refine ⟨hstep, ?_⟩
    have hst := (stable hL hR hτ0 d1 d2 d4 d3).2
    have hloc := local_error hy hL hR h0 hτ0 h1 (hr8 _ hτ0 hτδ)
    rw [← hC] at hloc
    rw [hstep, htc j hj]
    have e : step R (τ j) (u j) - y (t j + τ j) = (step R (τ j) (u j) - step R (τ j) (y (t j))) - (y (t j + τ j) - step R (τ j) (y (t j))) := by abel
    rw [e]
    refine le_trans (norm_sub_le _ _) ?_
    have p1 : ‖step R (τ j) (u j) - step R (τ j) (y (t j))‖ ≤ Real.exp (L * τ j) * (Real.exp (L * t j) * (ε + C * δ ^ 2 * t j)) :=
      le_trans hst (mul_le_mul_of_nonneg_left ih (Real.exp_pos _).le)
    rw [← mul_assoc, ← Real.exp_add, show L * τ j + L * t j = L * (t j + τ j) by ring] at p1
    have p2 : C * (τ j) ^ 3 ≤ Real.exp (L * (t j + τ j)) * (C * δ ^ 2 * τ j) := by
      have q1 : 1 ≤ Real.exp (L * (t j + τ j)) := Real.one_le_exp (by positivity)
      have q2 : C * (τ j) ^ 3 ≤ C * δ ^ 2 * τ j := by
        have : (τ j) ^ 2 ≤ δ ^ 2 := by gcongr
        have := mul_le_mul_of_nonneg_left this (mul_nonneg hC0 hτ0)
        nlinarith
      have q3 : 0 ≤ C * δ ^ 2 * τ j := by positivity
      nlinarith
    have : Real.exp (L * (t j + τ j)) * (ε + C * δ ^ 2 * (t j + τ j)) = Real.exp (L * (t j + τ j)) * (ε + C * δ ^ 2 * t j) + Real.exp (L * (t j + τ j)) * (C * δ ^ 2 * τ j) := by ring
    rw [this]
    exact add_le_add p1 (le_trans hloc p2)
  have all : ∀ j ≤ m, ‖u j - y (t j)‖ ≤ Real.exp (L * t j) * (ε + C * δ ^ 2 * t j) := by
    intro j
    induction j with
    | zero => intro _; rw [ht0]; simp [hε]
    | succ j ih => intro hj; exact (stepj j (by omega) (ih (by omega))).2
  exact fun j hj => ⟨all j hj, fun h => (stepj j h (all j hj)).1⟩

end Blitzdg.Midpoint
