import Verif.Jacobi.Explicit
import Mathlib.MeasureTheory.Integral.IntervalIntegral.FundThmCalculus
import Mathlib.Analysis.SpecialFunctions.Integrals.Basic
import Mathlib.Analysis.Calculus.Deriv.Polynomial
import Mathlib.Topology.Algebra.Polynomial

/-! Properties C48 (orthonormal polynomials, symmetry) and C68 (exact gradients). -/

namespace Blitzdg.Jacobi

open Polynomial

variable {α β : ℝ}

/-! ### The recurrence computes the closed form -/

/-- Square of the quotient of consecutive normalisation factors. -/
noncomputable def ratio (α β : ℝ) (n : ℕ) : ℝ :=
  (2 * n + α + β + 3) * (n + α + β + 1) * (n + α + 1) / ((2 * n + α + β + 1) * (n + 1) * (n + β + 1))

/-- Normalisation factor: value at `x = 1`. -/
noncomputable def kap (α β : ℝ) : ℕ → ℝ
  | 0 => 1 / Real.sqrt (gamma0 α β)
  | n + 1 => kap α β n * Real.sqrt (ratio α β n)

theorem gamma0_pos (hα : -1 < α) (hβ : -1 < β) (hab : α + β ≠ -1) : 0 < gamma0 α β := by
  have h1 := Real.Gamma_pos_of_pos (show 0 < α + 1 by linarith)
  have h2 := Real.Gamma_pos_of_pos (show 0 < β + 1 by linarith)
  have h3 := Real.Gamma_pos_of_pos (show 0 < α + β + 1 + 1 by linarith)
  have h4 : α + β + 1 ≠ 0 := fun h => hab (by linarith)
  rw [Real.Gamma_add_one h4] at h3
  have e : gamma0 α β = 2 ^ (α + β + 1) * Real.Gamma (α + 1) * Real.Gamma (β + 1) / ((α + β + 1) * Real.Gamma (α + β + 1)) := by
    unfold gamma0
    rw [div_mul_eq_mul_div, div_mul_eq_mul_div, div_div]
  rw [e]
  positivity

theorem ratio_pos (hα : -1 < α) (hβ : -1 < β) (hab : α + β ≠ -1) (n : ℕ) : 0 < ratio α β n := by
  rcases n with _ | n
  · have h1 : α + β + 1 ≠ 0 := fun h => hab (by linarith)
    have e : ratio α β 0 = (α + β + 3) * (α + 1) / (β + 1) := by
      unfold ratio; simp only [Nat.cast_zero, mul_zero, zero_add]; field_simp
    rw [e]
    exact div_pos (mul_pos (by linarith) (by linarith)) (by linarith)
  · have hn : (0 : ℝ) ≤ n := Nat.cast_nonneg n
    unfold ratio
    push_cast
    apply div_pos
    · apply mul_pos (mul_pos _ _) <;> linarith
    · apply mul_pos (mul_pos _ _) <;> linarith

theorem step_ne (hα : -1 < α) (hβ : -1 < β) (hab : α + β ≠ -1) (n : ℕ) : 2 * (n : ℝ) + α + β + 1 ≠ 0 ∧ (n : ℝ) + α + β + 1 ≠ 0 := by
  rcases n with _ | n
  · exact ⟨fun h => hab (by push_cast at h; linarith), fun h => hab (by push_cast at h; linarith)⟩
  · have hn : (0 : ℝ) ≤ n := Nat.cast_nonneg n
    push_cast
    exact ⟨by linarith, by linarith⟩

theorem kap_pos (hα : -1 < α) (hβ : -1 < β) (hab : α + β ≠ -1) (n : ℕ) : 0 < kap α β n := by
  induction n with
  | zero => exact one_div_pos.2 (Real.sqrt_pos.2 (gamma0_pos hα hβ hab))
  | succ n ih => exact mul_pos ih (Real.sqrt_pos.2 (ratio_pos hα hβ hab n))

theorem anew_eq (hα : -1 < α) (hβ : -1 < β) (hab : α + β ≠ -1) (n : ℕ) :
    anew α β n * Real.sqrt (ratio α β n) = 2 * (n + α + β + 1) * (n + α + 1) / ((2 * n + α + β + 2) * (2 * n + α + β + 1)) ∧
    anew α β n = 2 * (n + 1) * (n + β + 1) / ((2 * n + α + β + 2) * (2 * n + α + β + 3)) * Real.sqrt (ratio α β n) := by
  have hn : (0 : ℝ) ≤ n := Nat.cast_nonneg n
  have hr := ratio_pos hα hβ hab n
  have q1 : 0 < 2 * (n : ℝ) + α + β + 3 := by linarith
  obtain ⟨q2, q4⟩ := step_ne hα hβ hab n
  have q3 : 0 < 2 * (n : ℝ) + α + β + 2 := by linarith
  have q5 : 0 < (n : ℝ) + α + 1 := by linarith
  have q6 : 0 < (n : ℝ) + β + 1 := by linarith
  have q7 : 0 < (n : ℝ) + 1 := by linarith
  have e : ((n : ℝ) + 1) * (n + 1 + α + β) * (n + 1 + α) * (n + 1 + β) / ((2 * n + α + β) + 1) / ((2 * n + α + β) + 3)
      = ((n + 1) * (n + β + 1) / (2 * n + α + β + 3)) ^ 2 * ratio α β n := by
    unfold ratio; field_simp; ring
  have ha : anew α β n = 2 * (n + 1) * (n + β + 1) / ((2 * n + α + β + 2) * (2 * n + α + β + 3)) * Real.sqrt (ratio α β n) := by
    unfold anew
    rw [e, Real.sqrt_mul (sq_nonneg _), Real.sqrt_sq (by positivity)]
    field_simp
  refine ⟨?_, ha⟩
  rw [ha, mul_assoc, Real.mul_self_sqrt hr.le]
  unfold ratio
  field_simp

theorem anew_pos (hα : -1 < α) (hβ : -1 < β) (hab : α + β ≠ -1) (n : ℕ) : 0 < anew α β n := by
  have hn : (0 : ℝ) ≤ n := Nat.cast_nonneg n
  rw [(anew_eq hα hβ hab n).2]
  apply mul_pos _ (Real.sqrt_pos.2 (ratio_pos hα hβ hab n))
  apply div_pos
  · apply mul_pos (mul_pos _ _) <;> linarith
  · apply mul_pos <;> linarith

/-- The closed form at `x`. -/
noncomputable def pt (α β : ℝ) (n : ℕ) (x : ℝ) : ℝ := (Q α β n).eval ((1 - x) / 2)

theorem pt_zero (x : ℝ) : pt α β 0 x = 1 := by simp [pt, Q, co_zero]

theorem pt_one (hα : -1 < α) (x : ℝ) : pt α β 1 x = ((α + β + 2) * x / 2 + (α - β) / 2) / (α + 1) := by
  have h : α + 1 ≠ 0 := by linarith
  simp [pt, Q, Finset.sum_range_succ, co, poch]
  field_simp
  ring

theorem pt_rec (hα : -1 < α) (hβ : -1 < β) (hab : α + β ≠ -1) (n : ℕ) (x : ℝ) :
    anew α β (n + 1) * Real.sqrt (ratio α β (n + 1)) * pt α β (n + 2) x
      = (x - bnew α β (n + 1)) * pt α β (n + 1) x - anew α β n / Real.sqrt (ratio α β n) * pt α β n x := by
  have h := congrArg (Polynomial.eval ((1 - x) / 2)) (Q_rec hα (by linarith) n)
  simp only [eval_mul, eval_sub, eval_C, eval_X] at h
  rw [(anew_eq hα hβ hab (n + 1)).1]
  have hs : Real.sqrt (ratio α β n) ≠ 0 := (Real.sqrt_pos.2 (ratio_pos hα hβ hab n)).ne'
  have e2 : anew α β n / Real.sqrt (ratio α β n) = 2 * (n + 1) * (n + 1 + β) / ((2 * (n + 1) + α + β) * (2 * (n + 1) + α + β + 1)) := by
    rw [(anew_eq hα hβ hab n).2, mul_div_assoc, div_self hs, mul_one]
    congr 1 <;> ring
  rw [e2]
  unfold pt bnew
  push_cast
  have e3 : (2 : ℝ) * (n + 1 + α + β + 1) * (n + 1 + α + 1) = 2 * (n + 1 + α + β + 1) * (n + 2 + α) := by ring
  rw [e3]
  linear_combination h

theorem start_eq (hα : -1 < α) (hβ : -1 < β) (hab : α + β ≠ -1) (x : ℝ) :
    start α β x = { aold := anew α β 0, prev := kap α β 0 * pt α β 0 x, cur := kap α β 1 * pt α β 1 x } := by
  have hg := gamma0_pos hα hβ hab
  have h1 : α + β + 1 ≠ 0 := fun h => hab (by linarith)
  have h3 : 0 < α + β + 3 := by linarith
  have hα1 : 0 < α + 1 := by linarith
  have hβ1 : 0 < β + 1 := by linarith
  unfold start
  congr 1
  · unfold anew
    simp only [Nat.cast_zero, mul_zero, zero_add, one_mul]
    congr 2
    · ring
    · field_simp
      ring
  · rw [pt_zero, mul_one]; rfl
  · rw [pt_one hα]
    simp only [kap]
    have hr : ratio α β 0 = (α + β + 3) * (α + 1) / (β + 1) := by
      unfold ratio; simp only [Nat.cast_zero, mul_zero, zero_add]; field_simp
    have e : gamma1 α β = (α + 1) ^ 2 * (gamma0 α β / ratio α β 0) := by
      unfold gamma1; rw [hr]; field_simp
    rw [e, Real.sqrt_mul (sq_nonneg _), Real.sqrt_sq hα1.le, Real.sqrt_div hg.le]
    have s1 : Real.sqrt (gamma0 α β) ≠ 0 := (Real.sqrt_pos.2 hg).ne'
    have s2 : Real.sqrt (ratio α β 0) ≠ 0 := (Real.sqrt_pos.2 (ratio_pos hα hβ hab 0)).ne'
    field_simp

theorem loop_eq (hα : -1 < α) (hβ : -1 < β) (hab : α + β ≠ -1) (x : ℝ) (k : ℕ) :
    ((List.range k).map (· + 1)).foldl (step α β x) (start α β x)
      = { aold := anew α β k, prev := kap α β k * pt α β k x, cur := kap α β (k + 1) * pt α β (k + 1) x } := by
  induction k with
  | zero => exact start_eq hα hβ hab x
  | succ k ih =>
    rw [List.range_succ, List.map_append, List.foldl_append, ih]
    simp only [List.map_cons, List.map_nil, List.foldl_cons, List.foldl_nil, step]
    congr 1
    have hrec := pt_rec hα hβ hab k x
    have ha := (anew_pos hα hβ hab (k + 1)).ne'
    have hs : Real.sqrt (ratio α β k) ≠ 0 := (Real.sqrt_pos.2 (ratio_pos hα hβ hab k)).ne'
    have hk : kap α β (k + 1) = kap α β k * Real.sqrt (ratio α β k) := rfl
    have hk2 : kap α β (k + 1 + 1) = kap α β (k + 1) * Real.sqrt (ratio α β (k + 1)) := rfl
    rw [one_div, inv_mul_eq_iff_eq_mul₀ ha, hk2]
    have e : anew α β k * (kap α β k * pt α β k x) = kap α β (k + 1) * (anew α β k / Real.sqrt (ratio α β k) * pt α β k x) := by
      rw [hk]; field_simp
    have : -anew α β k * (kap α β k * pt α β k x) = -(anew α β k * (kap α β k * pt α β k x)) := by ring
    rw [this, e]
    linear_combination (-kap α β (k + 1)) * hrec

/-- The value computed by the code, in closed form. -/
theorem jacobi_closed (hα : -1 < α) (hβ : -1 < β) (hab : α + β ≠ -1) (n : ℕ) (x : ℝ) : jacobiP α β n x = kap α β n * pt α β n x := by
  unfold jacobiP
  have h0 := start_eq hα hβ hab x
  rcases n with _ | _ | n
  · rw [if_pos rfl, h0]
  · rw [if_neg (by omega), if_pos rfl, h0]
  · rw [if_neg (by omega), if_neg (by omega), show n + 1 + 1 - 1 = n + 1 by omega, loop_eq hα hβ hab x (n + 1)]

/-! ### Polynomials of exact degree -/

/-- The computed function as a polynomial. -/
noncomputable def poly (α β : ℝ) (n : ℕ) : ℝ[X] := C (kap α β n) * (Q α β n).comp (C (1 / 2) - C (1 / 2) * X)

theorem poly_eval (hα : -1 < α) (hβ : -1 < β) (hab : α + β ≠ -1) (n : ℕ) (x : ℝ) : (poly α β n).eval x = jacobiP α β n x := by
  rw [jacobi_closed hα hβ hab, poly, eval_mul, eval_C, eval_comp, pt]
  simp only [eval_sub, eval_mul, eval_C, eval_X]
  congr 2; ring

theorem Q_natDegree (hα : -1 < α) (hab : -2 < α + β) (n : ℕ) : (Q α β n).natDegree = n ∧ (Q α β n).coeff n = co α β n n ∧ co α β n n ≠ 0 := by
  have hn : (0 : ℝ) ≤ n := Nat.cast_nonneg n
  have hne : co α β n n ≠ 0 := by
    rcases Nat.eq_zero_or_pos n with rfl | hpos
    · rw [co_zero]; exact one_ne_zero
    · have hn1 : (1 : ℝ) ≤ n := by exact_mod_cast hpos
      have h1 := (poch_pos (show 0 < (n : ℝ) + α + β + 1 by linarith) n).ne'
      have h2 := (poch_pos (show 0 < α + 1 by linarith) n).ne'
      unfold co
      rw [Nat.choose_self]
      simp [h1, h2]
  refine ⟨?_, Q_coeff α β n n, hne⟩
  apply natDegree_eq_of_le_of_coeff_ne_zero
  · rw [natDegree_le_iff_coeff_eq_zero]
    intro k hk
    rw [Q_coeff, co_of_lt hk]
  · rw [Q_coeff]; exact hne

theorem affine_natDegree : ((C (1 / 2) - C (1 / 2) * X : ℝ[X])).natDegree = 1 ∧ ((C (1 / 2) - C (1 / 2) * X : ℝ[X])).leadingCoeff = -(1 / 2) := by
  have e : (C (1 / 2) - C (1 / 2) * X : ℝ[X]) = C (-(1 / 2)) * X + C (1 / 2) := by
    rw [C_neg]; ring
  rw [e]
  exact ⟨natDegree_linear (by norm_num), leadingCoeff_linear (by norm_num)⟩

/-- Exact degree and positive leading coefficient. -/
theorem poly_degree (hα : -1 < α) (hβ : -1 < β) (hab : α + β ≠ -1) (n : ℕ) : (poly α β n).natDegree = n ∧ 0 < (poly α β n).leadingCoeff := by
  obtain ⟨h1, h2, h3⟩ := Q_natDegree hα (by linarith) n
  obtain ⟨a1, a2⟩ := affine_natDegree
  have hk := kap_pos hα hβ hab n
  have hl : (poly α β n).leadingCoeff = kap α β n * (co α β n n * (-(1 / 2)) ^ n) := by
    rw [poly, leadingCoeff_mul, leadingCoeff_C, leadingCoeff_comp (by rw [a1]; exact one_ne_zero), a2, h1, leadingCoeff, h1, h2]
  constructor
  · rw [poly, natDegree_C_mul hk.ne', natDegree_comp, h1, a1, mul_one]
  · rw [hl]
    apply mul_pos hk
    have hn : (0 : ℝ) ≤ n := Nat.cast_nonneg n
    have hd := poch_pos (show 0 < α + 1 by linarith) n
    have hp : 0 < poch ((n : ℝ) + α + β + 1) n := by
      rcases Nat.eq_zero_or_pos n with rfl | hpos
      · simp [poch]
      · have hn1 : (1 : ℝ) ≤ n := by exact_mod_cast hpos
        exact poch_pos (by linarith) n
    have e : co α β n n * (-(1 / 2)) ^ n = poch ((n : ℝ) + α + β + 1) n / poch (α + 1) n * (1 / 2) ^ n := by
      unfold co
      rw [Nat.choose_self, neg_pow (1 / 2 : ℝ) n]
      have : ((-1 : ℝ) ^ n) * ((-1) ^ n) = 1 := by rw [← mul_pow]; norm_num
      push_cast
      linear_combination (poch ((n : ℝ) + α + β + 1) n / poch (α + 1) n * (1 / 2) ^ n) * this
    rw [e]; positivity

/-! ### C68: gradients -/

theorem kap_shift (hα : -1 < α) (hβ : -1 < β) (hab : α + β ≠ -1) (n : ℕ) :
    kap α β (n + 1) * ((n + 1 : ℝ) * (n + 1 + α + β + 1) / (2 * (α + 1))) = Real.sqrt ((n + 1 : ℝ) * (n + 1 + α + β + 1)) * kap (α + 1) (β + 1) n := by
  have hα1 : 0 < α + 1 := by linarith
  have hβ1 : 0 < β + 1 := by linarith
  have hab1 : α + β + 1 ≠ 0 := fun h => hab (by linarith)
  induction n with
  | zero =>
    have hg := gamma0_pos hα hβ hab
    have hr := ratio_pos hα hβ hab 0
    have hr0 : ratio α β 0 = (α + β + 3) * (α + 1) / (β + 1) := by
      unfold ratio; simp only [Nat.cast_zero, mul_zero, zero_add]; field_simp
    have e : gamma0 (α + 1) (β + 1) = 4 * (α + 1) * (β + 1) / ((α + β + 3) * (α + β + 2)) * gamma0 α β := by
      unfold gamma0
      rw [Real.Gamma_add_one (show α + 1 ≠ 0 by linarith), Real.Gamma_add_one (show β + 1 ≠ 0 by linarith),
        show α + 1 + (β + 1) + 1 = α + β + 1 + 1 + 1 by ring, Real.Gamma_add_one (show α + β + 1 + 1 ≠ 0 by linarith),
        Real.Gamma_add_one hab1, Real.rpow_add_one (by norm_num), Real.rpow_add_one (by norm_num)]
      have : Real.Gamma (α + β + 1) ≠ 0 := fun h => by
        have h3 := Real.Gamma_pos_of_pos (show 0 < α + β + 1 + 1 by linarith)
        rw [Real.Gamma_add_one hab1, h, mul_zero] at h3
        exact lt_irrefl _ h3
      have d1 : α + β + 1 + 1 + 1 ≠ 0 := by linarith
      have d2 : α + β + 1 + 1 ≠ 0 := by linarith
      have d3 : α + β + 3 ≠ 0 := by linarith
      have d4 : α + β + 2 ≠ 0 := by linarith
      field_simp
      ring
    simp only [kap]
    push_cast
    rw [e]
    have c1 : 0 < α + β + 3 := by linarith
    have c2 : 0 < α + β + 2 := by linarith
    have e2 : 4 * (α + 1) * (β + 1) / ((α + β + 3) * (α + β + 2)) * gamma0 α β
        = (2 * (α + 1)) ^ 2 * gamma0 α β / (ratio α β 0 * (α + β + 2)) := by
      rw [hr0]; field_simp; ring
    rw [e2, Real.sqrt_div (by positivity), Real.sqrt_mul (sq_nonneg (2 * (α + 1))), Real.sqrt_sq (by linarith), Real.sqrt_mul hr.le,
      show ((0 : ℝ) + 1) * (0 + 1 + α + β + 1) = α + β + 2 by ring]
    have s1 : Real.sqrt (gamma0 α β) ≠ 0 := (Real.sqrt_pos.2 hg).ne'
    have s3 : Real.sqrt (α + β + 2) * Real.sqrt (α + β + 2) = α + β + 2 := Real.mul_self_sqrt c2.le
    field_simp
    linear_combination -s3
  | succ n ih =>
    have hn : (0 : ℝ) ≤ n := Nat.cast_nonneg n
    have hk : kap α β (n + 1 + 1) = kap α β (n + 1) * Real.sqrt (ratio α β (n + 1)) := rfl
    have hk' : kap (α + 1) (β + 1) (n + 1) = kap (α + 1) (β + 1) n * Real.sqrt (ratio (α + 1) (β + 1) n) := rfl
    rw [hk, hk']
    have c1 : 0 < (n : ℝ) + 1 + α + β + 1 := by linarith
    have c2 : 0 < (n : ℝ) + 1 + 1 + α + β + 1 := by linarith
    have c3 : 0 < (n : ℝ) + 1 := by linarith
    have c4 : 0 < (n : ℝ) + 1 + 1 := by linarith
    have c5 : 0 < 2 * ((n : ℝ) + 1) + α + β + 1 := by linarith
    have c6 : 0 < 2 * ((n : ℝ) + 1) + α + β + 3 := by linarith
    have c7 : 0 < (n : ℝ) + 1 + β + 1 := by linarith
    have c8 : 0 < (n : ℝ) + 1 + α + 1 := by linarith
    have hr := ratio_pos hα hβ hab (n + 1)
    -- ratio of the shifted parameters
    have e : ratio (α + 1) (β + 1) n = ratio α β (n + 1) * (((n : ℝ) + 1 + 1) * (n + 1 + 1 + α + β + 1) / ((n + 1) * (n + 1 + α + β + 1))) := by
      unfold ratio
      push_cast
      have d1 : 2 * (n : ℝ) + (α + 1) + (β + 1) + 1 ≠ 0 := by linarith
      have d2 : (n : ℝ) + (β + 1) + 1 ≠ 0 := by linarith
      field_simp
      ring
    rw [e, Real.sqrt_mul hr.le, Real.sqrt_div (by positivity)]
    push_cast
    have u1 : Real.sqrt (((n : ℝ) + 1) * (n + 1 + α + β + 1)) ≠ 0 := (Real.sqrt_pos.2 (by positivity)).ne'
    have u2 : Real.sqrt (((n : ℝ) + 1) * (n + 1 + α + β + 1)) * Real.sqrt (((n : ℝ) + 1) * (n + 1 + α + β + 1)) = (n + 1) * (n + 1 + α + β + 1) :=
      Real.mul_self_sqrt (by positivity)
    have u3 : Real.sqrt (((n : ℝ) + 1 + 1) * (n + 1 + 1 + α + β + 1)) * Real.sqrt (((n : ℝ) + 1 + 1) * (n + 1 + 1 + α + β + 1))
        = (n + 1 + 1) * (n + 1 + 1 + α + β + 1) := Real.mul_self_sqrt (by positivity)
    set S := Real.sqrt (((n : ℝ) + 1) * (n + 1 + α + β + 1))
    set T := Real.sqrt (((n : ℝ) + 1 + 1) * (n + 1 + 1 + α + β + 1))
    set W := Real.sqrt (ratio α β (n + 1))
    -- kap_{n}(shifted) from the induction hypothesis
    have hx : kap (α + 1) (β + 1) n = kap α β (n + 1) * S / (2 * (α + 1)) := by
      have h2 : kap α β (n + 1) * (S * S / (2 * (α + 1))) = S * kap (α + 1) (β + 1) n := by rw [u2]; exact ih
      have : S * (kap α β (n + 1) * S / (2 * (α + 1))) = S * kap (α + 1) (β + 1) n := by rw [← h2]; ring
      exact (mul_left_cancel₀ u1 this).symm
    rw [hx]
    field_simp
    rw [pow_two, u3]
    ring

/-- **C68.** For all parameters `α, β > -1` with `α + β ≠ -1`, every degree and every point, the value returned by `computeGradJacobi` is the
derivative of the function computed by `computeJacobiPolynomial`. -/
theorem C68_gradient (hα : -1 < α) (hβ : -1 < β) (hab : α + β ≠ -1) (n : ℕ) (x : ℝ) :
    HasDerivAt (jacobiP α β n) (gradJacobi α β n x) x := by
  have hf : jacobiP α β n = fun y => (poly α β n).eval y := by
    funext y; exact (poly_eval hα hβ hab n y).symm
  rw [hf]
  have hd := (poly α β n).hasDerivAt x
  refine hd.congr_deriv ?_
  symm
  rcases n with _ | n
  · have : Q α β 0 = 1 := by simp [Q, co_zero]
    simp [gradJacobi, poly, this]
  · unfold gradJacobi
    rw [if_neg (by omega), Nat.add_sub_cancel, jacobi_closed (by linarith) (by linarith) (by linarith)]
    have hs := kap_shift hα hβ hab n
    rw [poly, derivative_C_mul, derivative_comp, Q_deriv hα]
    simp only [derivative_sub, derivative_C, derivative_C_mul, derivative_X, eval_mul, eval_comp, eval_C, eval_sub, eval_X, eval_zero, eval_one, pt,
      mul_comp, C_comp]
    push_cast
    rw [show (1 : ℝ) / 2 - 1 / 2 * x = (1 - x) / 2 by ring, ← mul_assoc, ← hs]
    have : α + 1 ≠ 0 := by linarith
    field_simp
    ring

/-! ### C48: symmetry -/

theorem gamma0_symm (α β : ℝ) : gamma0 β α = gamma0 α β := by
  unfold gamma0; rw [add_comm β α]; ring

theorem anew_symm (α β : ℝ) (i : ℕ) : anew β α i = anew α β i := by
  unfold anew
  congr 2
  · ring
  · congr 1
    · congr 1
      · ring
      · ring
    · ring

theorem loop_symm (α β x : ℝ) (k : ℕ) :
    let a := ((List.range k).map (· + 1)).foldl (step α β (-x)) (start α β (-x))
    let b := ((List.range k).map (· + 1)).foldl (step β α x) (start β α x)
    a.aold = b.aold ∧ a.prev = (-1) ^ k * b.prev ∧ a.cur = (-1) ^ (k + 1) * b.cur := by
  induction k with
  | zero =>
    simp only [List.range_zero, List.map_nil, List.foldl_nil, start]
    refine ⟨?_, ?_, ?_⟩
    · rw [show (2 : ℝ) + β + α = 2 + α + β by ring, show (β + 1) * (α + 1) / (β + α + 3) = (α + 1) * (β + 1) / (α + β + 3) by ring]
    · rw [gamma0_symm]; ring
    · unfold gamma1
      rw [gamma0_symm α β, show (β + 1) * (α + 1) / (β + α + 3) * gamma0 α β = (α + 1) * (β + 1) / (α + β + 3) * gamma0 α β by ring]
      ring
  | succ k ih =>
    simp only [List.range_succ, List.map_append, List.map_cons, List.map_nil, List.foldl_append, List.foldl_cons, List.foldl_nil, step] at ih ⊢
    obtain ⟨h1, h2, h3⟩ := ih
    refine ⟨(anew_symm α β _).symm, h3, ?_⟩
    rw [h1, h2, h3, anew_symm α β]
    have hb : bnew β α (k + 1) = -bnew α β (k + 1) := by
      unfold bnew; rw [show 2 * ((k + 1 : ℕ) : ℝ) + β + α = 2 * ((k + 1 : ℕ) : ℝ) + α + β by ring]; ring
    rw [hb]
    ring

/-- **C48, symmetry.** For all real parameters, degrees and arguments (whatever the parameters, even where the normalisation is not defined
mathematically): the value at `-x` for `(α, β)` is `(-1)^n` times the value at `x` for `(β, α)`. -/
theorem C48_symmetry (α β : ℝ) (n : ℕ) (x : ℝ) : jacobiP α β n (-x) = (-1) ^ n * jacobiP β α n x := by
  unfold jacobiP
  rcases n with _ | _ | n
  · have := (loop_symm α β x 0).2.1
    simpa using this
  · have := (loop_symm α β x 0).2.2
    simpa using this
  · rw [if_neg (by omega), if_neg (by omega), if_neg (by omega), if_neg (by omega)]
    exact (loop_symm α β x (n + 1)).2.2

/-! ### C48: orthonormality -/

/-- The weight `(1-x)^a (1+x)^b`. -/
def weight (a b : ℕ) (x : ℝ) : ℝ := (1 - x) ^ a * (1 + x) ^ b

/-- The weighted integral over [-1, 1]. -/
noncomputable def wint (a b : ℕ) (p : ℝ[X]) : ℝ := ∫ x in (-1 : ℝ)..1, weight a b x * p.eval x

theorem wint_integrable (a b : ℕ) (p : ℝ[X]) : IntervalIntegrable (fun x => weight a b x * p.eval x) MeasureTheory.volume (-1) 1 := by
  apply Continuous.intervalIntegrable
  unfold weight
  have := p.continuous
  fun_prop

theorem wint_add (a b : ℕ) (p q : ℝ[X]) : wint a b (p + q) = wint a b p + wint a b q := by
  unfold wint
  rw [← intervalIntegral.integral_add (wint_integrable a b p) (wint_integrable a b q)]
  congr 1; funext x; rw [eval_add]; ring

theorem wint_smul (a b : ℕ) (c : ℝ) (p : ℝ[X]) : wint a b (C c * p) = c * wint a b p := by
  unfold wint
  rw [← intervalIntegral.integral_const_mul]
  congr 1; funext x; rw [eval_mul, eval_C]; ring

theorem weight_deriv (a b : ℕ) (x : ℝ) :
    HasDerivAt (weight (a + 1) (b + 1)) (-((a : ℝ) + 1) * weight a (b + 1) x + ((b : ℝ) + 1) * weight (a + 1) b x) x := by
  have h1 : HasDerivAt (fun y : ℝ => (1 - y) ^ (a + 1)) (((a : ℝ) + 1) * (1 - x) ^ a * (-1)) x := by
    refine (((hasDerivAt_id' x).const_sub 1).fun_pow (a + 1)).congr_deriv ?_
    simp
  have h2 : HasDerivAt (fun y : ℝ => (1 + y) ^ (b + 1)) (((b : ℝ) + 1) * (1 + x) ^ b * 1) x := by
    refine (((hasDerivAt_id' x).const_add 1).fun_pow (b + 1)).congr_deriv ?_
    simp
  refine (h1.mul h2).congr_deriv ?_
  unfold weight; ring

theorem integral_deriv_zero (a b : ℕ) (p : ℝ[X]) :
    ∫ x in (-1 : ℝ)..1, ((-((a : ℝ) + 1) * weight a (b + 1) x + ((b : ℝ) + 1) * weight (a + 1) b x) * p.eval x
      + weight (a + 1) (b + 1) x * (derivative p).eval x) = 0 := by
  have h : ∀ x ∈ Set.uIcc (-1 : ℝ) 1, HasDerivAt (fun y => weight (a + 1) (b + 1) y * p.eval y)
      ((-((a : ℝ) + 1) * weight a (b + 1) x + ((b : ℝ) + 1) * weight (a + 1) b x) * p.eval x + weight (a + 1) (b + 1) x * (derivative p).eval x) x :=
    fun x _ => (weight_deriv a b x).mul (p.hasDerivAt x)
  rw [intervalIntegral.integral_eq_sub_of_hasDerivAt h]
  · simp [weight]
  · apply Continuous.intervalIntegrable
    have h1 := p.continuous
    have h2 := (derivative p).continuous
    unfold weight
    fun_prop

/-- The integral of the weight is the constant used by the code. -/
theorem wint_one (a b : ℕ) : wint a b 1 = gamma0 a b := by
  have hg : ∀ a b : ℕ, gamma0 a b = 2 ^ (a + b + 1) * (a.factorial * b.factorial) / ((a + b + 1).factorial : ℝ) := by
    intro a b
    unfold gamma0
    have h1 : Real.Gamma ((a : ℝ) + 1) = a.factorial := Real.Gamma_nat_eq_factorial a
    have h2 : Real.Gamma ((b : ℝ) + 1) = b.factorial := Real.Gamma_nat_eq_factorial b
    have h3 : Real.Gamma ((a : ℝ) + b + 1) = (a + b).factorial := by
      have := Real.Gamma_nat_eq_factorial (a + b)
      push_cast at this; exact this
    have h4 : (2 : ℝ) ^ ((a : ℝ) + b + 1) = 2 ^ (a + b + 1) := by
      rw [← Real.rpow_natCast]; push_cast; rfl
    rw [h1, h2, h3, h4, Nat.factorial_succ (a + b)]
    have : ((a + b).factorial : ℝ) ≠ 0 := by exact_mod_cast (Nat.factorial_pos _).ne'
    have : (a : ℝ) + b + 1 ≠ 0 := by positivity
    push_cast
    field_simp
  rw [hg]
  induction b generalizing a with
  | zero =>
    unfold wint weight
    have hd : ∀ x ∈ Set.uIcc (-1 : ℝ) 1, HasDerivAt (fun y : ℝ => -((1 - y) ^ (a + 1) / ((a : ℝ) + 1))) ((1 - x) ^ a * (1 + x) ^ 0 * eval x 1) x := by
      intro x _
      have hne : (a : ℝ) + 1 ≠ 0 := by positivity
      refine ((((hasDerivAt_id' x).const_sub 1).fun_pow (a + 1)).div_const ((a : ℝ) + 1) |>.neg).congr_deriv ?_
      simp
      field_simp
    rw [intervalIntegral.integral_eq_sub_of_hasDerivAt hd]
    · have hne : (a : ℝ) + 1 ≠ 0 := by positivity
      have hf : (a.factorial : ℝ) ≠ 0 := by exact_mod_cast (Nat.factorial_pos _).ne'
      simp only [Nat.factorial_zero, Nat.factorial_succ, add_zero]
      push_cast
      norm_num
      field_simp
    · apply Continuous.intervalIntegrable
      simp
      fun_prop
  | succ b ih =>
    have h := integral_deriv_zero a b 1
    have e : (fun x : ℝ => (-((a : ℝ) + 1) * weight a (b + 1) x + ((b : ℝ) + 1) * weight (a + 1) b x) * eval x (1 : ℝ[X])
        + weight (a + 1) (b + 1) x * eval x (derivative (1 : ℝ[X])))
        = fun x => -((a : ℝ) + 1) * (weight a (b + 1) x * eval x (1 : ℝ[X])) + ((b : ℝ) + 1) * (weight (a + 1) b x * eval x (1 : ℝ[X])) := by
      funext x; simp
    rw [e, intervalIntegral.integral_add ((wint_integrable a (b + 1) 1).const_mul _) ((wint_integrable (a + 1) b 1).const_mul _),
      intervalIntegral.integral_const_mul, intervalIntegral.integral_const_mul] at h
    change -((a : ℝ) + 1) * wint a (b + 1) 1 + ((b : ℝ) + 1) * wint (a + 1) b 1 = 0 at h
    rw [ih (a + 1)] at h
    have hne : (a : ℝ) + 1 ≠ 0 := by positivity
    have hw : wint a (b + 1) 1 = ((b : ℝ) + 1) / (a + 1) * (2 ^ (a + 1 + b + 1) * ((a + 1).factorial * b.factorial) / ((a + 1 + b + 1).factorial : ℝ)) := by
      field_simp
      field_simp at h
      linear_combination -h
    rw [hw, show a + 1 + b + 1 = a + (b + 1) + 1 by ring, Nat.factorial_succ a, Nat.factorial_succ b]
    push_cast
    field_simp

/-- Orthogonality to constants, from the differential equation. -/
theorem wint_pos (a b n : ℕ) : wint a b (poly a b (n + 1)) = 0 := by
  have hα : (-1 : ℝ) < a := by have := Nat.cast_nonneg (α := ℝ) a; linarith
  -- the differential equation in x
  set A : ℝ[X] := C (1 / 2) - C (1 / 2) * X with hA
  set y : ℝ[X] := (Q a b (n + 1)).comp A with hy
  have hdA : derivative A = C (-(1 / 2)) := by simp [hA]
  have hy1 : derivative y = C (-(1 / 2)) * (derivative (Q a b (n + 1))).comp A := by rw [hy, derivative_comp, hdA]
  have hy2 : derivative (derivative y) = C (1 / 4) * (derivative (derivative (Q a b (n + 1)))).comp A := by
    rw [hy1, derivative_C_mul, derivative_comp, hdA, ← mul_assoc, ← C_mul]; norm_num
  have hode : ∀ x : ℝ, (1 - x) * (1 + x) * (derivative (derivative y)).eval x + ((b : ℝ) - a - (a + b + 2) * x) * (derivative y).eval x
      + ((n : ℝ) + 1) * (n + 1 + a + b + 1) * y.eval x = 0 := by
    intro x
    have h := congrArg (Polynomial.eval ((1 - x) / 2)) (Q_ode (β := (b : ℝ)) hα (n + 1))
    simp only [eval_add, eval_mul, eval_sub, eval_X, eval_one, eval_C, eval_zero] at h
    have hAx : A.eval x = (1 - x) / 2 := by simp [hA]; ring
    rw [hy2, hy1, hy]
    simp only [eval_mul, eval_C, eval_comp, hAx]
    push_cast at h
    linear_combination h
  have hz := integral_deriv_zero a b (derivative y)
  have e : (fun x : ℝ => (-((a : ℝ) + 1) * weight a (b + 1) x + ((b : ℝ) + 1) * weight (a + 1) b x) * (derivative y).eval x
      + weight (a + 1) (b + 1) x * (derivative (derivative y)).eval x)
      = fun x => -(((n : ℝ) + 1) * (n + 1 + a + b + 1)) * (weight a b x * y.eval x) := by
    funext x
    have := hode x
    unfold weight
    linear_combination (1 - x) ^ a * (1 + x) ^ b * this
  rw [e, intervalIntegral.integral_const_mul] at hz
  have hne : -(((n : ℝ) + 1) * (n + 1 + a + b + 1)) ≠ 0 := by
    apply neg_ne_zero.2; positivity
  have hw : wint a b y = 0 := by
    rcases mul_eq_zero.1 hz with h | h
    · exact absurd h hne
    · exact h
  have : poly a b (n + 1) = C (kap a b (n + 1)) * y := rfl
  rw [this, wint_smul, hw, mul_zero]

theorem poly_rec (hα : -1 < α) (hβ : -1 < β) (hab : α + β ≠ -1) (n : ℕ) :
    X * poly α β (n + 1) = C (anew α β (n + 1)) * poly α β (n + 2) + C (bnew α β (n + 1)) * poly α β (n + 1) + C (anew α β n) * poly α β n := by
  apply Polynomial.funext
  intro x
  simp only [eval_mul, eval_add, eval_C, eval_X, poly_eval hα hβ hab, jacobi_closed hα hβ hab]
  have hrec := pt_rec hα hβ hab n x
  have hs : Real.sqrt (ratio α β n) ≠ 0 := (Real.sqrt_pos.2 (ratio_pos hα hβ hab n)).ne'
  have hk : kap α β (n + 1) = kap α β n * Real.sqrt (ratio α β n) := rfl
  have hk2 : kap α β (n + 2) = kap α β (n + 1) * Real.sqrt (ratio α β (n + 1)) := rfl
  have e : anew α β n * (kap α β n * pt α β n x) = kap α β (n + 1) * (anew α β n / Real.sqrt (ratio α β n) * pt α β n x) := by
    rw [hk]; field_simp
  rw [e, hk2]
  linear_combination (-kap α β (n + 1)) * hrec

theorem poly_rec0 (hα : -1 < α) (hβ : -1 < β) (hab : α + β ≠ -1) :
    X * poly α β 0 = C (anew α β 0) * poly α β 1 + C ((β - α) / (α + β + 2)) * poly α β 0 := by
  apply Polynomial.funext
  intro x
  simp only [eval_mul, eval_add, eval_C, eval_X, poly_eval hα hβ hab, jacobi_closed hα hβ hab]
  have hk : kap α β 1 = kap α β 0 * Real.sqrt (ratio α β 0) := rfl
  have ha := (anew_eq hα hβ hab 0).1
  rw [pt_zero, pt_one hα, hk]
  push_cast at ha
  have d1 : α + 1 ≠ 0 := by linarith
  have d2 : α + β + 2 ≠ 0 := by linarith
  have d3 : α + β + 1 ≠ 0 := fun h => hab (by linarith)
  have e : anew α β 0 * Real.sqrt (ratio α β 0) = 2 * (α + 1) / (α + β + 2) := by
    rw [ha]
    rw [show (0 : ℝ) + α + β + 1 = α + β + 1 by ring, show (2 : ℝ) * 0 + α + β + 2 = α + β + 2 by ring,
      show (2 : ℝ) * 0 + α + β + 1 = α + β + 1 by ring]
    field_simp
    ring
  have : anew α β 0 * (kap α β 0 * Real.sqrt (ratio α β 0) * (((α + β + 2) * x / 2 + (α - β) / 2) / (α + 1)))
      = (anew α β 0 * Real.sqrt (ratio α β 0)) * (kap α β 0 * (((α + β + 2) * x / 2 + (α - β) / 2) / (α + 1))) := by ring
  rw [this, e]
  field_simp
  ring

/-- Inner product of two of the polynomials, indices ordered. -/
theorem wint_orth (a b m : ℕ) : ∀ n, m ≤ n → wint a b (poly a b n * poly a b m) = if n = m then 1 else 0 := by
  have hα : (-1 : ℝ) < a := by have := Nat.cast_nonneg (α := ℝ) a; linarith
  have hβ : (-1 : ℝ) < b := by have := Nat.cast_nonneg (α := ℝ) b; linarith
  have hab : (a : ℝ) + b ≠ -1 := by have := Nat.cast_nonneg (α := ℝ) a; have := Nat.cast_nonneg (α := ℝ) b; linarith
  have hg := gamma0_pos hα hβ hab
  have hp0 : poly a b 0 = C (kap a b 0) := by
    have : Q (a : ℝ) b 0 = 1 := by simp [Q, co_zero]
    simp [poly, this]
  -- products with x, uniformly in the index
  have hx : ∀ n : ℕ, ∃ b0 r, X * poly a b n = C (anew a b n) * poly a b (n + 1) + C b0 * poly a b n + r ∧
      ((n = 0 ∧ r = 0) ∨ ∃ k, n = k + 1 ∧ r = C (anew a b k) * poly a b k) := by
    intro n
    rcases n with _ | n
    · exact ⟨_, 0, by rw [poly_rec0 hα hβ hab, add_zero], .inl ⟨rfl, rfl⟩⟩
    · exact ⟨_, _, poly_rec hα hβ hab n, .inr ⟨n, rfl, rfl⟩⟩
  induction m using Nat.strong_induction_on with
  | _ m ih =>
    rcases m with _ | m
    · intro n _
      rw [hp0, mul_comm, wint_smul]
      rcases n with _ | n
      · rw [if_pos rfl, hp0, show (C (kap (a : ℝ) b 0) : ℝ[X]) = C (kap a b 0) * 1 by ring, wint_smul, wint_one]
        simp only [kap]
        have s := Real.mul_self_sqrt hg.le
        have s1 : Real.sqrt (gamma0 a b) ≠ 0 := (Real.sqrt_pos.2 hg).ne'
        field_simp
        rw [pow_two, s]
      · rw [if_neg (by omega), wint_pos, mul_zero]
    · intro n hmn
      obtain ⟨k, rfl⟩ : ∃ k, n = k + 1 := ⟨n - 1, by omega⟩
      have hm := ih m (by omega)
      have ham := anew_pos hα hβ hab m
      obtain ⟨bm, rm, em, hrm⟩ := hx m
      -- I(p_n * x p_m) computed in two ways
      have h1 : wint a b (poly a b (k + 1) * (X * poly a b m))
          = anew a b m * wint a b (poly a b (k + 1) * poly a b (m + 1)) := by
        rw [em]
        have e : poly a b (k + 1) * (C (anew (a : ℝ) b m) * poly a b (m + 1) + C bm * poly a b m + rm)
            = C (anew a b m) * (poly a b (k + 1) * poly a b (m + 1)) + C bm * (poly a b (k + 1) * poly a b m) + poly a b (k + 1) * rm := by ring
        rw [e, wint_add, wint_add, wint_smul, wint_smul, hm (k + 1) (by omega), if_neg (by omega)]
        rcases hrm with ⟨-, rfl⟩ | ⟨j, rfl, rfl⟩
        · have : wint a b (poly a b (k + 1) * 0) = 0 := by simp [wint]
          rw [this]; ring
        · rw [show poly (a : ℝ) b (k + 1) * (C (anew a b j) * poly a b j) = C (anew a b j) * (poly a b (k + 1) * poly a b j) by ring, wint_smul,
            ih j (by omega) (k + 1) (by omega), if_neg (by omega)]
          ring
      have h2 : wint a b (poly a b (k + 1) * (X * poly a b m)) = anew a b k * wint a b (poly a b k * poly a b m) := by
        have e : poly a b (k + 1) * (X * poly a b m)
            = C (anew a b (k + 1)) * (poly a b (k + 2) * poly a b m) + C (bnew a b (k + 1)) * (poly a b (k + 1) * poly a b m)
              + C (anew a b k) * (poly a b k * poly a b m) := by
          have := poly_rec hα hβ hab k
          linear_combination poly a b m * this
        rw [e, wint_add, wint_add, wint_smul, wint_smul, wint_smul, hm (k + 2) (by omega), if_neg (by omega), hm (k + 1) (by omega),
          if_neg (by omega)]
        ring
      rw [h1, hm k (by omega)] at h2
      by_cases hkm : k = m
      · subst hkm
        rw [if_pos rfl, mul_one] at h2
        rw [if_pos rfl]
        exact mul_left_cancel₀ ham.ne' (by rw [h2, mul_one])
      · rw [if_neg hkm, mul_zero] at h2
        rw [if_neg (by omega)]
        rcases mul_eq_zero.1 h2 with h | h
        · exact absurd h ham.ne'
        · exact h

/-- **C48.** For natural `α = a`, `β = b` (the code uses 0, 1 and `2i+1`), the values returned by `computeJacobiPolynomial` are, at every real
argument, those of a polynomial of exact degree `n` with positive leading coefficient, and these polynomials are orthonormal on [-1, 1] with
respect to the weight `(1-x)^a (1+x)^b`, which is 1 for `a = b = 0`. -/
theorem C48_orthonormal (a b : ℕ) :
    (∀ n, ∃ P : ℝ[X], P.natDegree = n ∧ 0 < P.leadingCoeff ∧ ∀ x, jacobiP a b n x = P.eval x) ∧
    ∀ n m, ∫ x in (-1 : ℝ)..1, (1 - x) ^ a * (1 + x) ^ b * (jacobiP a b n x * jacobiP a b m x) = if n = m then 1 else 0 := by
  have hα : (-1 : ℝ) < a := by have := Nat.cast_nonneg (α := ℝ) a; linarith
  have hβ : (-1 : ℝ) < b := by have := Nat.cast_nonneg (α := ℝ) b; linarith
  have hab : (a : ℝ) + b ≠ -1 := by have := Nat.cast_nonneg (α := ℝ) a; have := Nat.cast_nonneg (α := ℝ) b; linarith
  refine ⟨fun n => ⟨poly a b n, (poly_degree hα hβ hab n).1, (poly_degree hα hβ hab n).2, fun x => (poly_eval hα hβ hab n x).symm⟩, fun n m => ?_⟩
  have key : ∀ n m, ∫ x in (-1 : ℝ)..1, (1 - x) ^ a * (1 + x) ^ b * (jacobiP a b n x * jacobiP a b m x) = wint a b (poly a b n * poly a b m) := by
    intro n m
    unfold wint weight
    congr 1; funext x
    rw [eval_mul, poly_eval hα hβ hab, poly_eval hα hβ hab]
  rw [key]
  rcases Nat.le_total m n with h | h
  · exact wint_orth a b m n h
  · rw [mul_comm, wint_orth a b n m h]
    by_cases e : n = m
    · simp [e]
    · rw [if_neg e, if_neg (Ne.symm e)]

/-- The case `α = β = 0` of the property, spelled out. -/
theorem C48_legendre (n m : ℕ) : ∫ x in (-1 : ℝ)..1, jacobiP 0 0 n x * jacobiP 0 0 m x = if n = m then 1 else 0 := by
  have := (C48_orthonormal 0 0).2 n m
  simpa using this

/-- Concrete values: degree two of the normalised Legendre polynomials is `sqrt(5/2) (3 x² - 1) / 2`. -/
example (x : ℝ) : jacobiP 0 0 2 x = kap 0 0 2 * ((3 * x ^ 2 - 1) / 2) := by
  rw [jacobi_closed (by norm_num) (by norm_num) (by norm_num)]
  congr 1
  simp only [pt, Q, Finset.sum_range_succ, Finset.sum_range_zero, co, poch, Finset.prod_range_succ, Finset.prod_range_zero]
  simp [Nat.choose]
  ring

end Blitzdg.Jacobi
