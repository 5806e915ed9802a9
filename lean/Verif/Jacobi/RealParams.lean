import Verif.Jacobi.QuadProps
import Mathlib.Analysis.SpecialFunctions.Gamma.Beta
import Mathlib.Analysis.SpecialFunctions.Integrability.Basic

/-!
C48 and C69 for all real parameters `α, β > -1` with `α + β ≠ -1`: orthonormal polynomials and Gauss rules for the weight `(1-x)^α (1+x)^β`, which may be unbounded at the ends.
-/

namespace Blitzdg.Jacobi

open Polynomial MeasureTheory
open Blitzdg.Sparse (DMat rowMajor)
open Blitzdg.Dense (Done eigenSolve SyevdOk C37_eigen toMat)

variable {α β : ℝ}

/-! ### The weighted integral -/

/-- The weight `(1-x)^α (1+x)^β`, real exponents. -/
noncomputable def rweight (α β x : ℝ) : ℝ := (1 - x) ^ α * (1 + x) ^ β

/-- The weighted integral over [-1, 1]. -/
noncomputable def rint (α β : ℝ) (p : ℝ[X]) : ℝ := ∫ x in (-1 : ℝ)..1, rweight α β x * p.eval x

theorem rweight_integrable (hα : -1 < α) (hβ : -1 < β) : IntervalIntegrable (rweight α β) volume (-1) 1 := by
  have h1 : IntervalIntegrable (rweight α β) volume (-1) 0 := by
    have i : IntervalIntegrable (fun x : ℝ => (1 + x) ^ β) volume (-1) 0 := by
      have := (intervalIntegral.intervalIntegrable_rpow' (a := 0) (b := 1) hβ).comp_add_left 1
      simpa using this
    refine i.continuousOn_mul ?_
    rw [Set.uIcc_of_le (by norm_num)]
    intro x hx
    exact ((continuousAt_const.sub continuousAt_id).rpow_const (.inl (by have := hx.2; show 1 - x ≠ 0; linarith))).continuousWithinAt
  have h2 : IntervalIntegrable (rweight α β) volume 0 1 := by
    have i : IntervalIntegrable (fun x : ℝ => (1 - x) ^ α) volume 0 1 := by
      have := (intervalIntegral.intervalIntegrable_rpow' (a := 0) (b := 1) hα).comp_sub_left 1
      simpa using this.symm
    refine i.mul_continuousOn ?_
    rw [Set.uIcc_of_le (by norm_num)]
    intro x hx
    exact ((continuousAt_const.add continuousAt_id).rpow_const (.inl (by have := hx.1; show 1 + x ≠ 0; linarith))).continuousWithinAt
  exact h1.trans h2

theorem rint_integrable (hα : -1 < α) (hβ : -1 < β) (p : ℝ[X]) : IntervalIntegrable (fun x => rweight α β x * p.eval x) volume (-1) 1 :=
  (rweight_integrable hα hβ).mul_continuousOn p.continuous.continuousOn

theorem rint_add (hα : -1 < α) (hβ : -1 < β) (p q : ℝ[X]) : rint α β (p + q) = rint α β p + rint α β q := by
  unfold rint
  rw [← intervalIntegral.integral_add (rint_integrable hα hβ p) (rint_integrable hα hβ q)]
  congr 1; funext x; rw [eval_add]; ring

theorem rint_smul (α β c : ℝ) (p : ℝ[X]) : rint α β (C c * p) = c * rint α β p := by
  unfold rint
  rw [← intervalIntegral.integral_const_mul]
  congr 1; funext x; rw [eval_mul, eval_C]; ring

/-- For natural parameters this is the weight with powers. -/
theorem rweight_nat (a b : ℕ) (x : ℝ) : rweight a b x = (1 - x) ^ a * (1 + x) ^ b := by
  unfold rweight; rw [Real.rpow_natCast, Real.rpow_natCast]

theorem rint_nat (a b : ℕ) (p : ℝ[X]) : rint a b p = wint a b p := by
  unfold rint wint weight
  congr 1; funext x; rw [rweight_nat]

/-- Euler's integral over [0, 1]. -/
theorem beta_real {u v : ℝ} (hu : 0 < u) (hv : 0 < v) : ∫ x in (0 : ℝ)..1, x ^ (u - 1) * (1 - x) ^ (v - 1) = Real.Gamma u * Real.Gamma v / Real.Gamma (u + v) := by
  have h := Complex.Gamma_mul_Gamma_eq_betaIntegral (s := u) (t := v) (by simpa using hu) (by simpa using hv)
  have e : Complex.betaIntegral u v = ((∫ x in (0 : ℝ)..1, x ^ (u - 1) * (1 - x) ^ (v - 1) : ℝ) : ℂ) := by
    rw [Complex.betaIntegral, ← intervalIntegral.integral_ofReal]
    apply intervalIntegral.integral_congr
    intro x hx
    rw [Set.uIcc_of_le (by norm_num)] at hx
    simp only
    rw [Complex.ofReal_mul, Complex.ofReal_cpow hx.1, Complex.ofReal_cpow (by linarith [hx.2])]
    push_cast
    rfl
  rw [e, ← Complex.ofReal_add, Complex.Gamma_ofReal, Complex.Gamma_ofReal, Complex.Gamma_ofReal] at h
  have h' : Real.Gamma u * Real.Gamma v = Real.Gamma (u + v) * ∫ x in (0 : ℝ)..1, x ^ (u - 1) * (1 - x) ^ (v - 1) := by exact_mod_cast h
  have hg := (Real.Gamma_pos_of_pos (add_pos hu hv)).ne'
  rw [h', mul_div_cancel_left₀ _ hg]

/-- The integral of the weight is the constant used by the code. -/
theorem rint_one (hα : -1 < α) (hβ : -1 < β) (hab : α + β ≠ -1) : rint α β 1 = gamma0 α β := by
  have hb := beta_real (u := β + 1) (v := α + 1) (by linarith) (by linarith)
  have hs := intervalIntegral.integral_comp_mul_add (a := 0) (b := 1) (rweight α β) (two_ne_zero) (-1)
  have e : ∀ t ∈ Set.uIcc (0 : ℝ) 1, rweight α β (2 * t + -1) = 2 ^ (α + β) * (t ^ (β + 1 - 1) * (1 - t) ^ (α + 1 - 1)) := by
    intro t ht
    rw [Set.uIcc_of_le (by norm_num)] at ht
    unfold rweight
    rw [show 1 - (2 * t + -1) = 2 * (1 - t) by ring, show 1 + (2 * t + -1) = 2 * t by ring, Real.mul_rpow (by norm_num) (by linarith [ht.2]), Real.mul_rpow (by norm_num) ht.1,
      Real.rpow_add (by norm_num), add_sub_cancel_right, add_sub_cancel_right]
    ring
  rw [intervalIntegral.integral_congr e, intervalIntegral.integral_const_mul, hb] at hs
  norm_num at hs
  have h1 : rint α β 1 = ∫ x in (-1 : ℝ)..1, rweight α β x := by
    unfold rint; congr 1; funext x; simp
  rw [h1]
  unfold gamma0
  have g : Real.Gamma (α + β + 2) = (α + β + 1) * Real.Gamma (α + β + 1) := by
    rw [show α + β + 2 = α + β + 1 + 1 by ring, Real.Gamma_add_one fun h => hab (by linarith)]
  have d1 : α + β + 1 ≠ 0 := fun h => hab (by linarith)
  have d2 : Real.Gamma (α + β + 1) ≠ 0 := fun h => by
    have h3 := Real.Gamma_pos_of_pos (show 0 < α + β + 2 by linarith)
    rw [g, h, mul_zero] at h3
    exact lt_irrefl _ h3
  rw [show β + 1 + (α + 1) = α + β + 2 by ring, g] at hs
  have p2 : (2 : ℝ) ^ (α + β + 1) = 2 * 2 ^ (α + β) := by rw [Real.rpow_add (by norm_num), Real.rpow_one]; ring
  rw [p2]
  have := hs.symm
  field_simp at this ⊢
  linear_combination this

theorem rweight_deriv (α β : ℝ) {x : ℝ} (h1 : -1 < x) (h2 : x < 1) :
    HasDerivAt (rweight (α + 1) (β + 1)) (rweight α β x * (-(α + 1) * (1 + x) + (β + 1) * (1 - x))) x := by
  have p1 : 0 < 1 - x := by linarith
  have p2 : 0 < 1 + x := by linarith
  have d1 : HasDerivAt (fun y : ℝ => (1 - y) ^ (α + 1)) (-1 * (α + 1) * (1 - x) ^ (α + 1 - 1)) x :=
    ((hasDerivAt_id' x).const_sub 1).rpow_const (.inl p1.ne')
  have d2 : HasDerivAt (fun y : ℝ => (1 + y) ^ (β + 1)) (1 * (β + 1) * (1 + x) ^ (β + 1 - 1)) x :=
    ((hasDerivAt_id' x).const_add 1).rpow_const (.inl p2.ne')
  refine (d1.mul d2).congr_deriv ?_
  unfold rweight
  rw [add_sub_cancel_right, add_sub_cancel_right, Real.rpow_add p1, Real.rpow_add p2, Real.rpow_one, Real.rpow_one]
  ring

/-- Integration by parts: no boundary terms, because the weight with exponents raised by one vanishes at the ends. -/
theorem rint_parts (hα : -1 < α) (hβ : -1 < β) (p : ℝ[X]) :
    rint α β ((C (β - α) - C (α + β + 2) * X) * p + (1 - X ^ 2) * derivative p) = 0 := by
  have hd : ∀ x ∈ Set.Ioo (-1 : ℝ) 1, HasDerivAt (fun y => rweight (α + 1) (β + 1) y * p.eval y)
      (rweight α β x * ((C (β - α) - C (α + β + 2) * X) * p + (1 - X ^ 2) * derivative p).eval x) x := by
    intro x hx
    have p1 : 0 < 1 - x := by linarith [hx.2]
    have p2 : 0 < 1 + x := by linarith [hx.1]
    refine ((rweight_deriv α β hx.1 hx.2).mul (p.hasDerivAt x)).congr_deriv ?_
    have e : rweight (α + 1) (β + 1) x = rweight α β x * ((1 - x) * (1 + x)) := by
      unfold rweight
      rw [Real.rpow_add p1, Real.rpow_add p2, Real.rpow_one, Real.rpow_one]; ring
    rw [e]
    simp only [eval_add, eval_mul, eval_sub, eval_C, eval_X, eval_one, eval_pow]
    ring
  have hc : ContinuousOn (fun y => rweight (α + 1) (β + 1) y * p.eval y) (Set.Icc (-1) 1) := by
    refine ContinuousOn.mul ?_ p.continuous.continuousOn
    unfold rweight
    refine ContinuousOn.mul ?_ ?_
    · exact ((continuous_const.sub continuous_id).rpow_const fun x => .inr (by linarith)).continuousOn
    · exact ((continuous_const.add continuous_id).rpow_const fun x => .inr (by linarith)).continuousOn
  unfold rint
  rw [intervalIntegral.integral_eq_sub_of_hasDerivAt_of_le (by norm_num) hc hd (rint_integrable hα hβ _)]
  have z1 : rweight (α + 1) (β + 1) 1 = 0 := by
    unfold rweight; rw [sub_self, Real.zero_rpow (by linarith), zero_mul]
  have z2 : rweight (α + 1) (β + 1) (-1) = 0 := by
    unfold rweight; rw [show (1 : ℝ) + -1 = 0 by ring, Real.zero_rpow (by linarith), mul_zero]
  rw [z1, z2]; ring

/-- Orthogonality to constants, from the differential equation. -/
theorem rint_pos (hα : -1 < α) (hβ : -1 < β) (n : ℕ) : rint α β (poly α β (n + 1)) = 0 := by
  set A : ℝ[X] := C (1 / 2) - C (1 / 2) * X with hA
  set y : ℝ[X] := (Q α β (n + 1)).comp A with hy
  have hdA : derivative A = C (-(1 / 2)) := by simp [hA]
  have hy1 : derivative y = C (-(1 / 2)) * (derivative (Q α β (n + 1))).comp A := by rw [hy, derivative_comp, hdA]
  have hy2 : derivative (derivative y) = C (1 / 4) * (derivative (derivative (Q α β (n + 1)))).comp A := by
    rw [hy1, derivative_C_mul, derivative_comp, hdA, ← mul_assoc, ← C_mul]; norm_num
  have hode : (C (β - α) - C (α + β + 2) * X) * derivative y + (1 - X ^ 2) * derivative (derivative y) = C (-(((n : ℝ) + 1) * (n + 1 + α + β + 1))) * y := by
    apply Polynomial.funext
    intro x
    have h := congrArg (Polynomial.eval ((1 - x) / 2)) (Q_ode (β := β) hα (n + 1))
    simp only [eval_add, eval_mul, eval_sub, eval_X, eval_one, eval_C, eval_zero] at h
    have hAx : A.eval x = (1 - x) / 2 := by simp [hA]; ring
    rw [hy2, hy1, hy]
    simp only [eval_add, eval_sub, eval_pow, eval_one, eval_X, eval_mul, eval_C, eval_comp, hAx]
    push_cast at h
    linear_combination h
  have hz := rint_parts hα hβ (derivative y)
  rw [hode, rint_smul] at hz
  have hne : -(((n : ℝ) + 1) * (n + 1 + α + β + 1)) ≠ 0 := by
    have hn : (0 : ℝ) ≤ n := Nat.cast_nonneg n
    exact neg_ne_zero.2 (mul_pos (by linarith) (by linarith)).ne'
  have : poly α β (n + 1) = C (kap α β (n + 1)) * y := rfl
  rw [this, rint_smul, (mul_eq_zero.1 hz).resolve_left hne, mul_zero]

/-- Inner product of two of the polynomials, indices ordered. -/
theorem rint_orth (hα : -1 < α) (hβ : -1 < β) (hab : α + β ≠ -1) (m : ℕ) : ∀ n, m ≤ n → rint α β (poly α β n * poly α β m) = if n = m then 1 else 0 := by
  have hg := gamma0_pos hα hβ hab
  have hp0 := poly_zero α β
  have radd := rint_add hα hβ
  have hx : ∀ n : ℕ, ∃ b0 r, X * poly α β n = C (anew α β n) * poly α β (n + 1) + C b0 * poly α β n + r ∧
      ((n = 0 ∧ r = 0) ∨ ∃ k, n = k + 1 ∧ r = C (anew α β k) * poly α β k) := by
    intro n
    rcases n with _ | n
    · exact ⟨_, 0, by rw [poly_rec0 hα hβ hab, add_zero], .inl ⟨rfl, rfl⟩⟩
    · exact ⟨_, _, poly_rec hα hβ hab n, .inr ⟨n, rfl, rfl⟩⟩
  induction m using Nat.strong_induction_on with
  | _ m ih =>
    rcases m with _ | m
    · intro n _
      rw [hp0, mul_comm, rint_smul]
      rcases n with _ | n
      · rw [if_pos rfl, hp0, show (C (kap α β 0) : ℝ[X]) = C (kap α β 0) * 1 by ring, rint_smul, rint_one hα hβ hab]
        simp only [kap]
        have s := Real.mul_self_sqrt hg.le
        have s1 : Real.sqrt (gamma0 α β) ≠ 0 := (Real.sqrt_pos.2 hg).ne'
        field_simp
        rw [pow_two, s]
      · rw [if_neg (by omega), rint_pos hα hβ, mul_zero]
    · intro n hmn
      obtain ⟨k, rfl⟩ : ∃ k, n = k + 1 := ⟨n - 1, by omega⟩
      have hm := ih m (by omega)
      have ham := anew_pos hα hβ hab m
      obtain ⟨bm, rm, em, hrm⟩ := hx m
      have h1 : rint α β (poly α β (k + 1) * (X * poly α β m))
          = anew α β m * rint α β (poly α β (k + 1) * poly α β (m + 1)) := by
        rw [em]
        have e : poly α β (k + 1) * (C (anew α β m) * poly α β (m + 1) + C bm * poly α β m + rm)
            = C (anew α β m) * (poly α β (k + 1) * poly α β (m + 1)) + C bm * (poly α β (k + 1) * poly α β m) + poly α β (k + 1) * rm := by ring
        rw [e, radd, radd, rint_smul, rint_smul, hm (k + 1) (by omega), if_neg (by omega)]
        rcases hrm with ⟨-, rfl⟩ | ⟨j, rfl, rfl⟩
        · have : rint α β (poly α β (k + 1) * 0) = 0 := by simp [rint]
          rw [this]; ring
        · rw [show poly α β (k + 1) * (C (anew α β j) * poly α β j) = C (anew α β j) * (poly α β (k + 1) * poly α β j) by ring, rint_smul,
            ih j (by omega) (k + 1) (by omega), if_neg (by omega)]
          ring
      have h2 : rint α β (poly α β (k + 1) * (X * poly α β m)) = anew α β k * rint α β (poly α β k * poly α β m) := by
        have e : poly α β (k + 1) * (X * poly α β m)
            = C (anew α β (k + 1)) * (poly α β (k + 2) * poly α β m) + C (bnew α β (k + 1)) * (poly α β (k + 1) * poly α β m)
              + C (anew α β k) * (poly α β k * poly α β m) := by
          have := poly_rec hα hβ hab k
          linear_combination poly α β m * this
        rw [e, radd, radd, rint_smul, rint_smul, rint_smul, hm (k + 2) (by omega), if_neg (by omega), hm (k + 1) (by omega),
          if_neg (by omega)]
        ring
      rw [h1, hm k (by omega)] at h2
      by_cases hkm : k = m
      · subst hkm
        rw [if_pos rfl, mul_one] at h2
        rw [if_pos rfl]
        exact mul_left_cancel₀ ham.ne' (by rw [h2, mul_one])
      · rw [if_neg hkm, mul_zero] at h2
        rw [if_neg (by omega)]
        exact (mul_eq_zero.1 h2).resolve_left ham.ne'

theorem rint_orth' (hα : -1 < α) (hβ : -1 < β) (hab : α + β ≠ -1) (n m : ℕ) : rint α β (poly α β n * poly α β m) = if n = m then 1 else 0 := by
  rcases Nat.le_total m n with h | h
  · exact rint_orth hα hβ hab m n h
  · rw [mul_comm, rint_orth hα hβ hab n m h]
    by_cases e : n = m
    · simp [e]
    · rw [if_neg e, if_neg (Ne.symm e)]

/-- **C48, real parameters.** For all real `α, β > -1` with `α + β ≠ -1` the values returned by `computeJacobiPolynomial` are, at every real argument, those of a polynomial of exact degree `n` with positive
leading coefficient, and these polynomials are orthonormal on [-1, 1] with respect to the weight `(1-x)^α (1+x)^β`. -/
theorem C48_orthonormal_real (hα : -1 < α) (hβ : -1 < β) (hab : α + β ≠ -1) :
    (∀ n, ∃ P : ℝ[X], P.natDegree = n ∧ 0 < P.leadingCoeff ∧ ∀ x, jacobiP α β n x = P.eval x) ∧
    ∀ n m, ∫ x in (-1 : ℝ)..1, (1 - x) ^ α * (1 + x) ^ β * (jacobiP α β n x * jacobiP α β m x) = if n = m then 1 else 0 := by
  refine ⟨fun n => ⟨poly α β n, (poly_degree hα hβ hab n).1, (poly_degree hα hβ hab n).2, fun x => (poly_eval hα hβ hab n x).symm⟩, fun n m => ?_⟩
  rw [← rint_orth' hα hβ hab n m]
  unfold rint rweight
  congr 1; funext x
  rw [eval_mul, poly_eval hα hβ hab, poly_eval hα hβ hab]

/-! ### Gauss rules -/

/-- A quadrature rule of `n` points on [-1, 1] for the weight `(1-x)^α (1+x)^β`, real exponents: points strictly increasing inside the interval, weights positive, every polynomial of degree at most
`2n - 1` integrated exactly. -/
structure GaussRuleR (α β : ℝ) (n : ℕ) (x w : List ℝ) : Prop where
  lx : x.length = n
  lw : w.length = n
  increasing : ∀ i j : ℕ, i < j → j < n → x.getD i 0 < x.getD j 0
  inside : ∀ i < n, -1 < x.getD i 0 ∧ x.getD i 0 < 1
  positive : ∀ i < n, 0 < w.getD i 0
  exact : ∀ p : ℝ[X], p.natDegree ≤ 2 * n - 1 →
    ∑ i ∈ Finset.range n, w.getD i 0 * p.eval (x.getD i 0) = ∫ t in (-1 : ℝ)..1, (1 - t) ^ α * (1 + t) ^ β * p.eval t

/-- For natural parameters the two specifications are the same. -/
theorem gaussRuleR_nat (a b n : ℕ) (x w : List ℝ) : GaussRuleR a b n x w ↔ GaussRule a b n x w := by
  constructor
  · rintro ⟨h1, h2, h3, h4, h5, h6⟩
    refine ⟨h1, h2, h3, h4, h5, fun p hp => ?_⟩
    rw [h6 p hp]; simp only [Real.rpow_natCast]
  · rintro ⟨h1, h2, h3, h4, h5, h6⟩
    refine ⟨h1, h2, h3, h4, h5, fun p hp => ?_⟩
    rw [h6 p hp]; simp only [Real.rpow_natCast]

theorem rint_sq_pos (hα : -1 < α) (hβ : -1 < β) (p : ℝ[X]) (hp : ∀ x, -1 < x → x < 1 → 0 ≤ p.eval x) (hne : p ≠ 0) : 0 < rint α β p := by
  have hw : ∀ x : ℝ, -1 < x → x < 1 → 0 < rweight α β x := by
    intro x h1 h2
    exact mul_pos (Real.rpow_pos_of_pos (by linarith) _) (Real.rpow_pos_of_pos (by linarith) _)
  unfold rint
  have hne1 : ∀ᵐ x : ℝ, x ≠ 1 := by
    simp [ae_iff]
  rw [intervalIntegral.integral_pos_iff_support_of_nonneg_ae' ?_ (rint_integrable hα hβ p)]
  · refine ⟨by norm_num, ?_⟩
    have hsub : Set.Ioo (-1 : ℝ) 1 \ (p.roots.toFinset : Set ℝ) ⊆ Function.support (fun x => rweight α β x * p.eval x) ∩ Set.Ioc (-1) 1 := by
      intro x hx
      refine ⟨?_, hx.1.1, hx.1.2.le⟩
      refine mul_ne_zero (hw x hx.1.1 hx.1.2).ne' fun h => hx.2 ?_
      simp [hne, h]
    refine lt_of_lt_of_le ?_ (measure_mono hsub)
    rw [measure_sdiff_null (Set.Finite.measure_zero (Finset.finite_toSet _) _), Real.volume_Ioo]
    norm_num
  · rw [Set.uIoc_of_le (by norm_num)]
    filter_upwards [ae_restrict_mem measurableSet_Ioc, ae_restrict_of_ae hne1] with x hx h1
    have h2 : x < 1 := lt_of_le_of_ne hx.2 h1
    exact mul_nonneg (hw x hx.1 h2).le (hp x hx.1 h2)

/-- A rule exact to degree `2n - 1`, with `n` points, has all the other properties (points given in ascending order). -/
theorem gaussR_of_exact (hα : -1 < α) (hβ : -1 < β) (n : ℕ) (x w : ℕ → ℝ)
    (hex : ∀ p : ℝ[X], p.natDegree ≤ 2 * n - 1 → ∑ i ∈ Finset.range n, w i * p.eval (x i) = rint α β p) :
    ∀ i < n, 0 < w i ∧ -1 < x i ∧ x i < 1 ∧ ∀ j < n, j ≠ i → x j ≠ x i := by
  intro i hi
  set q : ℝ[X] := ∏ j ∈ (Finset.range n).erase i, (X - C (x j)) with hq
  have hq0 : q ≠ 0 := (monic_prod_of_monic _ _ fun j _ => monic_X_sub_C (x j)).ne_zero
  have hqd : q.natDegree = n - 1 := by
    rw [hq, natDegree_prod_of_monic _ _ fun j _ => monic_X_sub_C (x j)]
    simp [Finset.card_erase_of_mem (Finset.mem_range.2 hi)]
  have hqz : ∀ j < n, j ≠ i → q.eval (x j) = 0 := by
    intro j hj hji
    rw [hq, eval_prod]
    exact Finset.prod_eq_zero (Finset.mem_erase.2 ⟨hji, Finset.mem_range.2 hj⟩) (by simp)
  have key : ∀ r : ℝ[X], r.natDegree ≤ 1 → (∀ t, -1 < t → t < 1 → 0 ≤ r.eval t) → r ≠ 0 → 0 < w i * (r.eval (x i) * q.eval (x i) ^ 2) := by
    intro r hr hp hr0
    have hd : (r * q ^ 2).natDegree ≤ 2 * n - 1 := by
      refine natDegree_mul_le.trans ?_
      have : (q ^ 2).natDegree ≤ 2 * (n - 1) := natDegree_pow_le.trans (by rw [hqd])
      omega
    have h := hex (r * q ^ 2) hd
    rw [Finset.sum_eq_single i] at h
    · have hpos := rint_sq_pos hα hβ (r * q ^ 2) (fun t h1 h2 => by
        rw [eval_mul, eval_pow]; exact mul_nonneg (hp t h1 h2) (sq_nonneg _)) (mul_ne_zero hr0 (pow_ne_zero 2 hq0))
      rw [← h, eval_mul, eval_pow] at hpos
      exact hpos
    · intro j hj hji
      rw [eval_mul, eval_pow, hqz j (Finset.mem_range.1 hj) hji]; simp
    · intro h; exact absurd (Finset.mem_range.2 hi) h
  have k1 := key 1 (by simp) (fun t _ _ => by simp) one_ne_zero
  have k2 := key (C 1 - X) (by rw [← neg_sub, natDegree_neg]; exact (natDegree_X_sub_C (1 : ℝ)).le) (fun t _ h => by simp; linarith)
    (fun h => by have := congrArg (Polynomial.eval 0) h; simp at this)
  have k3 := key (X + C 1) (natDegree_X_add_C (1 : ℝ)).le (fun t h _ => by simp; linarith)
    (fun h => by have := congrArg (Polynomial.eval 0) h; simp at this)
  simp only [eval_one, one_mul, eval_sub, eval_C, eval_X, eval_add] at k1 k2 k3
  have hsq : q.eval (x i) ≠ 0 := by
    intro h; rw [h] at k1; simp at k1
  have hsq2 : 0 < q.eval (x i) ^ 2 := by positivity
  have hw : 0 < w i := pos_of_mul_pos_left k1 hsq2.le
  refine ⟨hw, ?_, ?_, ?_⟩
  · have := pos_of_mul_pos_left (pos_of_mul_pos_right k3 hw.le) hsq2.le
    linarith
  · have := pos_of_mul_pos_left (pos_of_mul_pos_right k2 hw.le) hsq2.le
    linarith
  · intro j hj hji he
    exact hsq (by rw [← he]; exact hqz j hj hji)

/-- Discrete orthonormality implies exactness. -/
theorem exactR_of_discrete (hα : -1 < α) (hβ : -1 < β) (hab : α + β ≠ -1) (N : ℕ) (x w : ℕ → ℝ)
    (h1 : ∀ k ≤ N, ∀ l ≤ N, ∑ i ∈ Finset.range (N + 1), w i * ((poly α β k).eval (x i) * (poly α β l).eval (x i)) = if k = l then 1 else 0)
    (h2 : ∀ i ≤ N, w i * (poly α β (N + 1)).eval (x i) = 0) (p : ℝ[X]) (hp : p.natDegree ≤ 2 * (N + 1) - 1) :
    ∑ i ∈ Finset.range (N + 1), w i * p.eval (x i) = rint α β p := by
  let L : ℝ[X] → ℝ := fun p => ∑ i ∈ Finset.range (N + 1), w i * p.eval (x i)
  have Ladd : ∀ p q, L (p + q) = L p + L q := by
    intro p q; simp only [L, eval_add, mul_add, Finset.sum_add_distrib]
  have Lsmul : ∀ c p, L (C c * p) = c * L p := by
    intro c p; simp only [L, eval_mul, eval_C, Finset.mul_sum]; exact Finset.sum_congr rfl fun i _ => by ring
  have Lsum : ∀ (s : Finset ℕ) (f : ℕ → ℝ[X]), L (∑ k ∈ s, f k) = ∑ k ∈ s, L (f k) := by
    intro s f
    induction s using Finset.induction_on with
    | empty => simp [L]
    | insert k s hk ih => rw [Finset.sum_insert hk, Finset.sum_insert hk, Ladd, ih]
  have Wsum : ∀ (s : Finset ℕ) (f : ℕ → ℝ[X]), rint α β (∑ k ∈ s, f k) = ∑ k ∈ s, rint α β (f k) := by
    intro s f
    induction s using Finset.induction_on with
    | empty => simp [rint]
    | insert k s hk ih => rw [Finset.sum_insert hk, Finset.sum_insert hk, rint_add hα hβ, ih]
  have hpq : ∀ k ≤ N, ∀ l ≤ N + 1, L (poly α β k * poly α β l) = rint α β (poly α β k * poly α β l) := by
    intro k hk l hl
    rw [rint_orth' hα hβ hab k l]
    rcases Nat.lt_or_ge N l with h | h
    · obtain rfl : l = N + 1 := by omega
      rw [if_neg (by omega)]
      apply Finset.sum_eq_zero
      intro i hi
      have := h2 i (by have := Finset.mem_range.1 hi; omega)
      rw [eval_mul]
      linear_combination (poly α β k).eval (x i) * this
    · rw [← h1 k hk l h]
      simp only [L, eval_mul]
  have hmono : ∀ m ≤ 2 * N + 1, L (X ^ m) = rint α β (X ^ m) := by
    intro m hm
    obtain ⟨i, j, hi, hj, rfl⟩ : ∃ i j, i ≤ N ∧ j ≤ N + 1 ∧ m = i + j := ⟨m - min m (N + 1), min m (N + 1), by omega, by omega, by omega⟩
    obtain ⟨c, hc⟩ := poly_span hα hβ hab i (X ^ i) (by rw [natDegree_X_pow])
    obtain ⟨d, hd⟩ := poly_span hα hβ hab j (X ^ j) (by rw [natDegree_X_pow])
    rw [pow_add, hc, hd, Finset.sum_mul_sum, Lsum, Wsum]
    apply Finset.sum_congr rfl
    intro k hk
    rw [Lsum, Wsum]
    apply Finset.sum_congr rfl
    intro l hl
    have e : C (c k) * poly α β k * (C (d l) * poly α β l) = C (c k * d l) * (poly α β k * poly α β l) := by rw [C_mul]; ring
    rw [e, Lsmul, rint_smul, hpq k (by have := Finset.mem_range.1 hk; omega) l (by have := Finset.mem_range.1 hl; omega)]
  change L p = rint α β p
  rw [p.as_sum_range_C_mul_X_pow, Lsum, Wsum]
  apply Finset.sum_congr rfl
  intro k hk
  rw [Lsmul, rint_smul, hmono k (by have := Finset.mem_range.1 hk; omega)]

/-- What the eigenvalue routine leaves behind: the arguments unchanged, or ascending points, orthonormal vectors, the eigenvector equations of the tridiagonal matrix row by row, and weights from the
first components. -/
theorem eigR (query : Nat → Int) (dsyevd : Nat → List ℝ → Int × List ℝ × List ℝ) (hl : SyevdOk dsyevd) (α β eps : ℝ) (N : ℕ) (hN : 1 ≤ N) (x w : List ℝ) (hx : x.length = N + 1)
    (hw : w.length = N + 1) :
    quadWeights query dsyevd α β eps N x w = .ok (.threw (x, w)) ∨
      ∃ (x' w' : List ℝ) (V : ℕ → ℕ → ℝ), quadWeights query dsyevd α β eps N x w = .ok (.ret (x', w')) ∧ x'.length = N + 1 ∧ w'.length = N + 1 ∧ (∀ i j, i ≤ j → j < N + 1 → x'.getD i 0 ≤ x'.getD j 0) ∧
        (∀ i < N + 1, w'.getD i 0 = V 0 i * V 0 i * gamma0 α β) ∧ (∀ k ≤ N, ∀ l ≤ N, ∑ i ∈ Finset.range (N + 1), V k i * V l i = if k = l then 1 else 0) ∧
        ∀ i ≤ N, ∀ k ≤ N, (if k = 0 then diagEntry α β eps 0 else bnew α β k) * V k i + (if k < N then anew α β k * V (k + 1) i else 0)
          + (if k = 0 then 0 else anew α β (k - 1) * V (k - 1) i) = V k i * x'.getD i 0 := by
  unfold quadWeights
  rw [if_neg (by omega)]
  set A := addTranspose (gaussUpper α β eps N) with hA
  obtain ⟨sr, sc⟩ := gaussMatrix_shape α β eps N
  rcases C37_eigen query dsyevd hl A x { rows := N + 1, cols := N + 1, at' := fun _ _ => 0 } (N + 1) ⟨sr, sc⟩ hx ⟨rfl, rfl⟩ with h | ⟨x', V, h, lx', _, _, _, hort, hasc, hsym⟩
  · left
    rw [h]; rfl
  right
  have hAsym : ∀ i j, toMat A (N + 1) (N + 1) i j = toMat A (N + 1) (N + 1) j i := by
    intro i j
    simp only [toMat]
    rw [hA, gaussMatrix_eq _ _ _ _ _ _ i.2 j.2, gaussMatrix_eq _ _ _ _ _ _ j.2 i.2]
    by_cases hij : (j : ℕ) = i
    · rw [hij]
    · rw [if_neg hij, if_neg (Ne.symm hij)]; ring
  have hev := hsym hAsym
  have hvv : toMat V (N + 1) (N + 1) * (toMat V (N + 1) (N + 1)).transpose = 1 := mul_eq_one_comm.1 hort
  refine ⟨x', (List.range w.length).map fun i => V.at' 0 i * V.at' 0 i * gamma0 α β, V.at', ?_, lx', by simp [hw], ?_, ?_, ?_, ?_⟩
  · rw [h]
    simp only [Out.bind_ok, firstRowWeights]
    rw [if_pos (by omega)]
    rfl
  · intro i j hij hj
    exact hasc ⟨i, by omega⟩ ⟨j, hj⟩ (by simpa using hij)
  · intro i hi
    rw [List.getD_eq_getElem?_getD, List.getElem?_map, List.getElem?_range (by omega)]
    rfl
  · intro k hk l hl
    have := congrFun (congrFun hvv ⟨k, by omega⟩) ⟨l, by omega⟩
    rw [Matrix.mul_apply, Matrix.one_apply] at this
    simp only [toMat, Matrix.transpose_apply, Fin.mk.injEq] at this
    rw [← this, Finset.sum_range]
  · intro i hi k hk
    have h := congrFun (congrFun hev ⟨k, by omega⟩) ⟨i, by omega⟩
    rw [Matrix.mul_apply, Matrix.mul_diagonal] at h
    simp only [toMat] at h
    rw [← h, ← Finset.sum_range (fun l => A.at' k l * V.at' l i)]
    have hrs := row_sum (diagEntry α β eps) (anew α β) N k hk (fun l => V.at' l i)
    have e : (if k = 0 then diagEntry α β eps 0 else bnew α β k) = diagEntry α β eps k := by
      by_cases hk0 : k = 0
      · rw [if_pos hk0, hk0]
      · rw [if_neg hk0, diagEntry, if_neg (by tauto)]
    rw [e, ← hrs]
    apply Finset.sum_congr rfl
    intro l hl
    rw [hA, gaussMatrix_eq _ _ _ _ _ _ (by omega) (by have := Finset.mem_range.1 hl; omega)]

/-- **C69, real parameters.** For all real `α, β > -1` with `α + β ≠ -1`, every order `N ≥ 1` and output arrays of length `N + 1`, `computeJacobiQuadWeights` either throws and leaves its arguments alone, or
returns; and what it returns is the Gauss rule of `N + 1` points for the weight `(1-x)^α (1+x)^β` exactly if `α = β` or `α + β` is at least ten times the machine epsilon. -/
theorem C69_gauss_real (query : Nat → Int) (dsyevd : Nat → List ℝ → Int × List ℝ × List ℝ) (hl : SyevdOk dsyevd) (hα : -1 < α) (hβ : -1 < β) (hab : α + β ≠ -1) (eps : ℝ) (h0 : 0 < eps)
    (N : ℕ) (hN : 1 ≤ N) (x w : List ℝ) (hx : x.length = N + 1) (hw : w.length = N + 1) :
    quadWeights query dsyevd α β eps N x w = .ok (.threw (x, w)) ∨
      ∃ x' w', quadWeights query dsyevd α β eps N x w = .ok (.ret (x', w')) ∧ (GaussRuleR α β (N + 1) x' w' ↔ α = β ∨ 10 * eps ≤ α + β) := by
  have hg := gamma0_pos hα hβ hab
  rcases eigR query dsyevd hl α β eps N hN x w hx hw with h | ⟨x', w', V, h, lx, lw, hasc, hwi, hvt, hrow⟩
  · exact .inl h
  refine .inr ⟨x', w', h, ?_, ?_⟩
  · -- the mean of the rule is the first diagonal entry
    intro hr
    by_contra hn
    push Not at hn
    have hmean : ∑ i ∈ Finset.range (N + 1), w'.getD i 0 * x'.getD i 0 = 0 := by
      have e : ∀ i ∈ Finset.range (N + 1), w'.getD i 0 * x'.getD i 0 = gamma0 α β * (anew α β 0 * (V 0 i * V 1 i)) := by
        intro i hi
        have hi' := Finset.mem_range.1 hi
        have r := hrow i (by omega) 0 (by omega)
        rw [if_pos rfl, if_pos (by omega), if_pos rfl, diagEntry, if_pos ⟨rfl, hn.2⟩] at r
        rw [hwi i hi']
        linear_combination -(V 0 i * gamma0 α β) * r
      rw [Finset.sum_congr rfl e, ← Finset.mul_sum, ← Finset.mul_sum, hvt 0 (by omega) 1 (by omega), if_neg (by omega)]
      ring
    have hex := hr.exact X (by rw [natDegree_X]; omega)
    simp only [eval_X] at hex
    rw [hmean] at hex
    have hp := rint_parts hα hβ 1
    rw [derivative_one, mul_zero, add_zero, mul_one, sub_eq_add_neg, ← neg_mul, ← C_neg, rint_add hα hβ, rint_smul, show (C (β - α) : ℝ[X]) = C (β - α) * 1 by ring, rint_smul,
      rint_one hα hβ hab] at hp
    have hX : rint α β X = 0 := by
      unfold rint rweight
      rw [hex]
      simp only [eval_X]
    rw [hX, mul_zero, add_zero] at hp
    rcases mul_eq_zero.1 hp with h | h
    · exact hn.1 (by linarith)
    · exact hg.ne' h
  · intro hc
    have hb0 : diagEntry α β eps 0 = (β - α) / (α + β + 2) := by
      apply diagEntry_ok _ _ _ (by linarith)
      · intro h; rcases hc with h' | h'
        · exact h'
        · linarith
      · intro h; rcases hc with h' | h'
        · exact h'
        · linarith
    have hval := fun i (hi : i ≤ N) => eig_values hα hβ hab (diagEntry α β eps 0) hb0 N (fun k => V k i) (x'.getD i 0) (hrow i hi)
    have hk0 : kap α β 0 * kap α β 0 * gamma0 α β = 1 := by
      simp only [kap]
      have s := Real.mul_self_sqrt hg.le
      have s1 : Real.sqrt (gamma0 α β) ≠ 0 := (Real.sqrt_pos.2 hg).ne'
      field_simp
      rw [pow_two, s]
    have hdisc : ∀ k ≤ N, ∀ l ≤ N, ∑ i ∈ Finset.range (N + 1), w'.getD i 0 * ((poly α β k).eval (x'.getD i 0) * (poly α β l).eval (x'.getD i 0))
        = if k = l then 1 else 0 := by
      intro k hk l hl
      rw [← hvt k hk l hl]
      apply Finset.sum_congr rfl
      intro i hi
      have hi' := Finset.mem_range.1 hi
      rw [hwi i hi']
      have e1 := (hval i (by omega)).1 k hk
      have e2 := (hval i (by omega)).1 l hl
      have : V 0 i * V 0 i * gamma0 α β * ((poly α β k).eval (x'.getD i 0) * (poly α β l).eval (x'.getD i 0))
          = gamma0 α β * ((V 0 i * (poly α β k).eval (x'.getD i 0)) * (V 0 i * (poly α β l).eval (x'.getD i 0))) := by ring
      rw [this, ← e1, ← e2]
      linear_combination (V k i * V l i) * hk0
    have hlast : ∀ i ≤ N, w'.getD i 0 * (poly α β (N + 1)).eval (x'.getD i 0) = 0 := by
      intro i hi
      rw [hwi i (by omega)]
      have := (hval i hi).2
      linear_combination V 0 i * gamma0 α β * this
    have hex := exactR_of_discrete hα hβ hab N (fun i => x'.getD i 0) (fun i => w'.getD i 0) hdisc hlast
    have hall := gaussR_of_exact hα hβ (N + 1) (fun i => x'.getD i 0) (fun i => w'.getD i 0) hex
    refine ⟨lx, lw, ?_, fun i hi => ⟨(hall i hi).2.1, (hall i hi).2.2.1⟩, fun i hi => (hall i hi).1, hex⟩
    intro i j hij hj
    exact lt_of_le_of_ne (hasc i j (by omega) hj) ((hall j hj).2.2.2 i (by omega) (by omega))

/-- **C69, real parameters, one point.** With `N = 0` the call always returns one point and the weight 2; for all real `α, β > -1` this is the Gauss rule of one point exactly if the weight function has
integral 2. -/
theorem C69_one_point_real (query : Nat → Int) (dsyevd : Nat → List ℝ → Int × List ℝ × List ℝ) (hα : -1 < α) (hβ : -1 < β) (eps x0 w0 : ℝ) :
    ∃ x' w', quadWeights query dsyevd α β eps 0 [x0] [w0] = .ok (.ret (x', w')) ∧ (GaussRuleR α β 1 x' w' ↔ ∫ t in (-1 : ℝ)..1, (1 - t) ^ α * (1 + t) ^ β = 2) := by
  have hs : α + β + 2 ≠ 0 := by linarith
  have hone : rint α β 1 = ∫ t in (-1 : ℝ)..1, (1 - t) ^ α * (1 + t) ^ β := by
    unfold rint rweight; simp only [eval_one, mul_one]
  have hX : (α + β + 2) * rint α β X = (β - α) * rint α β 1 := by
    have hp := rint_parts hα hβ 1
    rw [derivative_one, mul_zero, add_zero, mul_one, sub_eq_add_neg, ← neg_mul, ← C_neg, rint_add hα hβ, rint_smul, show (C (β - α) : ℝ[X]) = C (β - α) * 1 by ring, rint_smul] at hp
    linarith
  refine ⟨[-(α - β) / (α + β + 2)], [2], by simp [quadWeights, wr], fun h => ?_, fun h => ?_⟩
  · have := h.exact 1 (by simp)
    simp only [eval_one, mul_one, Finset.sum_range_one] at this
    rw [← this]; rfl
  · refine ⟨rfl, rfl, by intro i j h1 h2; omega, ?_, ?_, ?_⟩
    · intro i hi
      obtain rfl : i = 0 := by omega
      show -1 < -(α - β) / (α + β + 2) ∧ -(α - β) / (α + β + 2) < 1
      have h0 : 0 < α + β + 2 := by linarith
      rw [lt_div_iff₀ h0, div_lt_iff₀ h0]
      constructor <;> linarith
    · intro i hi
      obtain rfl : i = 0 := by omega
      show (0 : ℝ) < 2
      norm_num
    · intro p hp
      obtain ⟨c, d, rfl⟩ := exists_eq_X_add_C_of_natDegree_le_one (show p.natDegree ≤ 1 by omega)
      change _ = rint α β (C c * X + C d)
      rw [rint_add hα hβ, rint_smul, show (C d : ℝ[X]) = C d * 1 by ring, rint_smul, hone, h]
      rw [hone, h] at hX
      have e : rint α β X = (β - α) * 2 / (α + β + 2) := by
        rw [eq_div_iff hs]; linarith
      rw [e]
      simp only [Finset.sum_range_one]
      show 2 * eval (-(α - β) / (α + β + 2)) (C c * X + C d * 1) = _
      simp only [eval_add, eval_mul, eval_C, eval_X, eval_one]
      field_simp
      ring

/-- With an exact eigenvalue routine the call returns, whatever the parameters. -/
theorem quadWeightsR_returns (α β eps : ℝ) (N : ℕ) (hN : 1 ≤ N) (x w : List ℝ) (hx : x.length = N + 1) (hw : w.length = N + 1) :
    ∃ x' w', quadWeights (fun _ => 0) Dense.exactSyevd α β eps N x w = .ok (.ret (x', w')) := by
  obtain ⟨sr, sc⟩ := gaussMatrix_shape α β eps N
  obtain ⟨x', V', he⟩ := Dense.eigenSolve_returns (addTranspose (gaussUpper α β eps N)) x { rows := N + 1, cols := N + 1, at' := fun _ _ => 0 } (N + 1) ⟨sr, sc⟩ hx ⟨rfl, rfl⟩
  refine ⟨x', (List.range w.length).map fun i => V'.at' 0 i * V'.at' 0 i * gamma0 α β, ?_⟩
  unfold quadWeights
  rw [if_neg (by omega), he]
  simp only [Out.bind_ok, firstRowWeights]
  rw [if_pos (by omega)]
  rfl

/-- Both sides of `C69_gauss_real` occur in calls that return: the Chebyshev weight of the second kind is integrated by its rule, the weight `(1-x)^(1/2) (1+x)^(-3/4)` is not. -/
example : ∃ x' w', quadWeights (fun _ => 0) Dense.exactSyevd (1 / 2) (1 / 2) (1 / 2 ^ 52) 2 [0, 0, 0] [0, 0, 0] = .ok (.ret (x', w')) ∧ GaussRuleR (1 / 2) (1 / 2) 3 x' w' := by
  obtain ⟨y, v, hy⟩ := quadWeightsR_returns (1 / 2) (1 / 2) (1 / 2 ^ 52) 2 (by omega) [0, 0, 0] [0, 0, 0] rfl rfl
  rcases C69_gauss_real (fun _ => 0) Dense.exactSyevd Dense.exactSyevd_ok (α := 1 / 2) (β := 1 / 2) (by norm_num) (by norm_num) (by norm_num) (1 / 2 ^ 52) (by norm_num) 2 (by omega)
    [0, 0, 0] [0, 0, 0] rfl rfl with h | ⟨x', w', h, hr⟩
  · rw [hy] at h; simp at h
  · exact ⟨x', w', h, hr.2 (.inl rfl)⟩
example : ∃ x' w', quadWeights (fun _ => 0) Dense.exactSyevd (1 / 2) (-3 / 4) (1 / 2 ^ 52) 2 [0, 0, 0] [0, 0, 0] = .ok (.ret (x', w')) ∧ ¬ GaussRuleR (1 / 2) (-3 / 4) 3 x' w' := by
  obtain ⟨y, v, hy⟩ := quadWeightsR_returns (1 / 2) (-3 / 4) (1 / 2 ^ 52) 2 (by omega) [0, 0, 0] [0, 0, 0] rfl rfl
  rcases C69_gauss_real (fun _ => 0) Dense.exactSyevd Dense.exactSyevd_ok (α := 1 / 2) (β := -3 / 4) (by norm_num) (by norm_num) (by norm_num) (1 / 2 ^ 52) (by norm_num) 2 (by omega)
    [0, 0, 0] [0, 0, 0] rfl rfl with h | ⟨x', w', h, hr⟩
  · rw [hy] at h; simp at h
  · refine ⟨x', w', h, fun hc => ?_⟩
    rcases hr.1 hc with h | h <;> norm_num at h

/-! ### Gauss-Lobatto points -/

/-- The points of a rule exact to degree `2n - 1` are the zeros of the polynomial of degree `n`. -/
theorem gaussR_zeros (hα : -1 < α) (hβ : -1 < β) (hab : α + β ≠ -1) (n : ℕ) (hn : 1 ≤ n) (x w : List ℝ) (hr : GaussRuleR α β n x w) : ∀ i < n, (poly α β n).eval (x.getD i 0) = 0 := by
  intro i hi
  set q : ℝ[X] := ∏ j ∈ (Finset.range n).erase i, (X - C (x.getD j 0)) with hq
  have hqd : q.natDegree = n - 1 := by
    rw [hq, natDegree_prod_of_monic _ _ fun j _ => monic_X_sub_C (x.getD j 0)]
    simp [Finset.card_erase_of_mem (Finset.mem_range.2 hi)]
  have hqz : ∀ j < n, j ≠ i → q.eval (x.getD j 0) = 0 := by
    intro j hj hji
    rw [hq, eval_prod]
    exact Finset.prod_eq_zero (Finset.mem_erase.2 ⟨hji, Finset.mem_range.2 hj⟩) (by simp)
  have hqi : q.eval (x.getD i 0) ≠ 0 := by
    rw [hq, eval_prod]
    refine Finset.prod_ne_zero_iff.2 fun j hj => ?_
    obtain ⟨hji, hj'⟩ := Finset.mem_erase.1 hj
    have hj'' := Finset.mem_range.1 hj'
    simp only [eval_sub, eval_X, eval_C]
    rcases lt_or_gt_of_ne hji with h | h
    · exact sub_ne_zero.2 (hr.increasing j i h hi).ne'
    · exact sub_ne_zero.2 (hr.increasing i j h hj'').ne
  obtain ⟨c, hc⟩ := poly_span hα hβ hab (n - 1) q hqd.le
  have hzero : rint α β (poly α β n * q) = 0 := by
    have Wsum : ∀ (s : Finset ℕ) (f : ℕ → ℝ[X]), rint α β (∑ k ∈ s, f k) = ∑ k ∈ s, rint α β (f k) := by
      intro s f
      induction s using Finset.induction_on with
      | empty => simp [rint]
      | insert k s hk ih => rw [Finset.sum_insert hk, Finset.sum_insert hk, rint_add hα hβ, ih]
    rw [hc, Finset.mul_sum, Wsum]
    apply Finset.sum_eq_zero
    intro k hk
    have hk' := Finset.mem_range.1 hk
    rw [show poly α β n * (C (c k) * poly α β k) = C (c k) * (poly α β n * poly α β k) by ring, rint_smul, rint_orth' hα hβ hab, if_neg (by omega), mul_zero]
  have hex := hr.exact (poly α β n * q) (natDegree_mul_le.trans (by rw [(poly_degree hα hβ hab n).1, hqd]; omega))
  rw [Finset.sum_eq_single i] at hex
  · have : w.getD i 0 * ((poly α β n).eval (x.getD i 0) * q.eval (x.getD i 0)) = 0 := by
      rw [← eval_mul, hex]; exact hzero
    exact (mul_eq_zero.1 ((mul_eq_zero.1 this).resolve_left (hr.positive i hi).ne')).resolve_right hqi
  · intro j hj hji
    rw [eval_mul, hqz j (Finset.mem_range.1 hj) hji]; simp
  · intro h; exact absurd (Finset.mem_range.2 hi) h

/-- **C70, real parameters.** For all real `α, β > -1` with `α + β ≠ -1` that are equal or whose sum exceeds -2 by ten times the machine epsilon, every order `N ≥ 1` and an output array of length `N + 1`, `computeGaussLobottoPoints` either throws, or yields points that
increase strictly from -1 to 1 and whose interior points are critical points of the polynomial of degree `N` computed by `computeJacobiPolynomial` (all of them, as there are `N - 1`); for `α = β` they
are symmetric about 0. -/
theorem C70_gauss_lobatto_real (query : Nat → Int) (dsyevd : Nat → List ℝ → Int × List ℝ × List ℝ) (hl : SyevdOk dsyevd) (hα : -1 < α) (hβ : -1 < β) (hab : α + β ≠ -1) (eps : ℝ) (h0 : 0 < eps)
    (he : α = β ∨ 10 * eps ≤ α + β + 2) (N : ℕ) (hN : 1 ≤ N) (x : List ℝ) (hx : x.length = N + 1) :
    (∃ x', gllPoints query dsyevd α β eps N x = .ok (.threw x')) ∨
      ∃ x', gllPoints query dsyevd α β eps N x = .ok (.ret x') ∧ x'.length = N + 1 ∧ x'.getD 0 0 = -1 ∧ x'.getD N 0 = 1 ∧
        (∀ i j : ℕ, i < j → j ≤ N → x'.getD i 0 < x'.getD j 0) ∧ (α = β → ∀ i ≤ N, x'.getD (N - i) 0 = -x'.getD i 0) ∧
        ∀ i, 1 ≤ i → i < N → HasDerivAt (jacobiP α β N) 0 (x'.getD i 0) := by
  have hα' : -1 < α + 1 := by linarith
  have hβ' : -1 < β + 1 := by linarith
  have hab' : (α + 1) + (β + 1) ≠ -1 := by linarith
  unfold gllPoints
  by_cases hN1 : N = 1
  · subst hN1
    right
    obtain ⟨p, q, rfl⟩ := List.length_eq_two.1 hx
    refine ⟨[-1, 1], by simp [wr], rfl, rfl, rfl, ?_, ?_, by intro i h1 h2; omega⟩
    · intro i j h1 h2
      obtain rfl : i = 0 := by omega
      obtain rfl : j = 1 := by omega
      norm_num
    · intro _ i hi
      rcases (by omega : i = 0 ∨ i = 1) with rfl | rfl <;> simp
  rw [if_neg hN1, if_neg (by omega)]
  rw [wr_of_lt (by omega : 0 < x.length)]
  simp only [Out.bind_ok]
  rw [wr_of_lt (by simp; omega)]
  simp only [Out.bind_ok]
  -- the interior points
  have hint : quadWeights query dsyevd (α + 1) (β + 1) eps (N - 2) (List.replicate (N - 1) 0) (List.replicate (N - 1) 0)
        = .ok (.threw (List.replicate (N - 1) 0, List.replicate (N - 1) 0)) ∨
      ∃ xj wj, quadWeights query dsyevd (α + 1) (β + 1) eps (N - 2) (List.replicate (N - 1) 0) (List.replicate (N - 1) 0) = .ok (.ret (xj, wj)) ∧
        xj.length = N - 1 ∧ (∀ i j : ℕ, i < j → j < N - 1 → xj.getD i 0 < xj.getD j 0) ∧ (∀ i < N - 1, -1 < xj.getD i 0 ∧ xj.getD i 0 < 1) ∧
        ∀ i < N - 1, (poly (α + 1) (β + 1) (N - 1)).eval (xj.getD i 0) = 0 := by
    by_cases hN2 : N = 2
    · subst hN2
      right
      refine ⟨[-(α + 1 - (β + 1)) / (α + 1 + (β + 1) + 2)], [2], by simp [quadWeights, wr], rfl, by intro i j h1 h2; omega, ?_, ?_⟩
      · intro i hi
        obtain rfl : i = 0 := by omega
        show -1 < -(α + 1 - (β + 1)) / (α + 1 + (β + 1) + 2) ∧ -(α + 1 - (β + 1)) / (α + 1 + (β + 1) + 2) < 1
        have h0 : 0 < α + 1 + (β + 1) + 2 := by linarith
        rw [lt_div_iff₀ h0, div_lt_iff₀ h0]
        constructor <;> linarith
      · intro i hi
        obtain rfl : i = 0 := by omega
        show (poly (α + 1) (β + 1) 1).eval (-(α + 1 - (β + 1)) / (α + 1 + (β + 1) + 2)) = 0
        have hr := poly_rec0 hα' hβ' hab'
        have ha := anew_pos hα' hβ' hab' 0
        have he := congrArg (Polynomial.eval (-(α + 1 - (β + 1)) / (α + 1 + (β + 1) + 2))) hr
        simp only [eval_mul, eval_add, eval_X, eval_C] at he
        have hz : anew (α + 1) (β + 1) 0 * (poly (α + 1) (β + 1) 1).eval (-(α + 1 - (β + 1)) / (α + 1 + (β + 1) + 2)) = 0 := by
          linear_combination -he
        exact (mul_eq_zero.1 hz).resolve_left ha.ne'
    · rcases C69_gauss_real query dsyevd hl hα' hβ' hab' eps h0 (N - 2) (by omega) (List.replicate (N - 1) 0) (List.replicate (N - 1) 0)
        (by simp; omega) (by simp; omega) with h | ⟨xj, wj, h, hr⟩
      · exact .inl h
      · have hr := hr.2 (he.imp (fun h => by rw [h]) fun h => by linarith)
        have e : N - 2 + 1 = N - 1 := by omega
        rw [e] at hr
        exact .inr ⟨xj, wj, h, hr.lx, hr.increasing, hr.inside, gaussR_zeros hα' hβ' hab' (N - 1) (by omega) xj wj hr⟩
  rcases hint with h | ⟨xj, wj, h, lj, hinc, hins, hzero⟩
  · left
    rw [h]
    exact ⟨_, rfl⟩
  right
  rw [h]
  simp only [Out.bind_ok]
  obtain ⟨x', e, l, hv⟩ := copyInterior_eq N xj ((x.set 0 (-1)).set N 1) lj (by simpa using hx) hN
  have v0 : x'.getD 0 0 = -1 := by
    rw [hv 0, if_neg (by omega), List.getD_eq_getElem?_getD, List.getElem?_set_ne (by omega), List.getElem?_set_self (by omega)]
    rfl
  have vN : x'.getD N 0 = 1 := by
    rw [hv N, if_neg (by omega), List.getD_eq_getElem?_getD, List.getElem?_set_self (by simp; omega)]
    rfl
  have vi : ∀ i, 1 ≤ i → i < N → x'.getD i 0 = xj.getD (i - 1) 0 := fun i h1 h2 => by rw [hv i, if_pos ⟨h1, h2⟩]
  refine ⟨x', by rw [e]; rfl, l, v0, vN, ?_, ?_, ?_⟩
  · intro i j hij hj
    rcases Nat.eq_zero_or_pos i with rfl | hi0
    · rw [v0]
      rcases Nat.lt_or_ge j N with h | h
      · rw [vi j (by omega) h]; exact (hins _ (by omega)).1
      · obtain rfl : j = N := by omega
        rw [vN]; norm_num
    · rw [vi i hi0 (by omega)]
      rcases Nat.lt_or_ge j N with h | h
      · rw [vi j (by omega) h]; exact hinc _ _ (by omega) (by omega)
      · obtain rfl : j = N := by omega
        rw [vN]; exact (hins _ (by omega)).2
  · rintro rfl i hi
    rcases Nat.eq_zero_or_pos i with rfl | hi0
    · rw [v0, Nat.sub_zero, vN]; norm_num
    · rcases Nat.lt_or_ge i N with h | h
      · rw [vi i hi0 h, vi (N - i) (by omega) (by omega)]
        obtain ⟨hd, hlc⟩ := poly_degree hα' hα' hab' (N - 1)
        have := zeros_symm (N - 1) (poly (α + 1) (α + 1) (N - 1)) (leadingCoeff_ne_zero.1 hlc.ne') hd
          (fun t ht => by
            rw [poly_eval hα' hα' hab'] at ht ⊢
            rw [C48_symmetry, ht, mul_zero]) (fun i => xj.getD i 0) hzero hinc (i - 1) (by omega)
        rw [← this]
        congr 1
        omega
      · obtain rfl : i = N := by omega
        rw [Nat.sub_self, v0, vN]
  · intro i h1 h2
    have hd := C68_gradient hα hβ hab N (x'.getD i 0)
    refine hd.congr_deriv ?_
    unfold gradJacobi
    rw [if_neg (by omega), ← poly_eval hα' hβ' hab', vi i h1 h2, hzero (i - 1) (by omega), mul_zero]

/-- Also for parameters whose sum is less than -1: the hypotheses hold for `α = -3/4`, `β = -1/2`, and the call of order 2 returns. -/
example (query : Nat → Int) (dsyevd : Nat → List ℝ → Int × List ℝ × List ℝ) :
    (-1 : ℝ) < -3 / 4 ∧ (-1 : ℝ) < -1 / 2 ∧ (-3 / 4 + -1 / 2 : ℝ) ≠ -1 ∧ (10 * (1 / 2 ^ 52) : ℝ) ≤ -3 / 4 + -1 / 2 + 2 ∧
      gllPoints query dsyevd (-3 / 4) (-1 / 2) (1 / 2 ^ 52) 2 [0, 0, 0] = .ok (.ret [-1, 1 / 11, 1]) := by
  refine ⟨by norm_num, by norm_num, by norm_num, by norm_num, ?_⟩
  simp [gllPoints, quadWeights, wr, copyInterior, loopM, rd]
  norm_num

/-- The hypotheses are met by calls that return with unequal parameters that are not whole numbers: order 2, whose middle point is `(β-α)/(α+β+4)`. -/
example (query : Nat → Int) (dsyevd : Nat → List ℝ → Int × List ℝ × List ℝ) :
    gllPoints query dsyevd (1 / 2) (3 / 2) (1 / 2 ^ 52) 2 [0, 0, 0] = .ok (.ret [-1, 1 / 6, 1]) := by
  simp [gllPoints, quadWeights, wr, copyInterior, loopM, rd]
  norm_num

end Blitzdg.Jacobi
