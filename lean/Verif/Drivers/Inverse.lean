import Verif.Drivers.PolySpace
import Verif.Nodes1D.OpsProps

/-! Inverse inequalities for polynomials on the reference element with explicit constants, and the norm of the advection operator.  Used for property C157. -/

namespace Blitzdg.Drivers

open Polynomial
open Blitzdg.Jacobi (kap Q co poch jacobiP)
open Blitzdg.Nodes1D (leg_eval leg_span leg_orth wint00)
open scoped RealInnerProductSpace

theorem kap_sq (n : ℕ) : kap 0 0 n ^ 2 = n + 1 / 2 := by
  induction n with
  | zero =>
    rw [kap, div_pow, one_pow, Real.sq_sqrt (Jacobi.gamma0_pos (by norm_num) (by norm_num) (by norm_num)).le]
    simp [Jacobi.gamma0]
  | succ n ih =>
    rw [kap, mul_pow, ih, Real.sq_sqrt (Jacobi.ratio_pos (by norm_num) (by norm_num) (by norm_num) n).le, Jacobi.ratio]
    have hn : (0 : ℝ) ≤ n := Nat.cast_nonneg n
    push_cast
    field_simp
    ring

theorem leg_one (n : ℕ) : (Jacobi.poly 0 0 n).eval 1 = kap 0 0 n := by
  rw [Jacobi.poly, eval_mul, eval_C, eval_comp]
  simp only [eval_sub, eval_mul, eval_C, eval_X, mul_one, sub_self]
  rw [← coeff_zero_eq_eval_zero, Jacobi.Q_coeff, Jacobi.co_zero, mul_one]

theorem leg_deriv_one (n : ℕ) : (derivative (Jacobi.poly 0 0 n)).eval 1 = kap 0 0 n * (n * (n + 1) / 2) := by
  rw [Jacobi.poly, derivative_C_mul, eval_mul, eval_C, derivative_comp, eval_mul, eval_comp]
  simp only [derivative_sub, derivative_C, derivative_mul, derivative_X, eval_sub, eval_mul, eval_C, eval_X, mul_one, sub_self, zero_mul, zero_add, zero_sub, eval_neg]
  rw [← coeff_zero_eq_eval_zero, coeff_derivative, Jacobi.Q_coeff, co, Jacobi.poch_succ, Jacobi.poch_succ]
  simp [poch]
  left
  ring

theorem leg_flip (n : ℕ) : (Jacobi.poly 0 0 n).comp (-X) = C ((-1) ^ n) * Jacobi.poly 0 0 n := by
  refine Polynomial.funext fun x => ?_
  rw [eval_comp, eval_mul, eval_C, eval_neg, eval_X, leg_eval, leg_eval, Jacobi.C48_symmetry]

theorem leg_ends (n : ℕ) : (Jacobi.poly 0 0 n).eval (-1) = (-1) ^ n * kap 0 0 n ∧ (derivative (Jacobi.poly 0 0 n)).eval (-1) = -((-1) ^ n * (kap 0 0 n * (n * (n + 1) / 2))) := by
  have h := leg_flip n
  constructor
  · have := congrArg (eval 1) h
    rwa [eval_comp, eval_mul, eval_C, eval_neg, eval_X, leg_one] at this
  · have := congrArg (fun q => (derivative q).eval 1) h
    simp only [derivative_comp, derivative_neg, derivative_X, derivative_C_mul, eval_mul, eval_comp, eval_neg, eval_X, eval_one, eval_C, leg_deriv_one] at this
    linarith

/-- A polynomial of lower degree is orthogonal to a Legendre polynomial. -/
theorem leg_lower (n : ℕ) (q : ℝ[X]) (hq : q.natDegree < n) : ∫ x in (-1 : ℝ)..1, (Jacobi.poly 0 0 n).eval x * q.eval x = 0 := by
  obtain ⟨m, rfl⟩ : ∃ m, n = m + 1 := ⟨n - 1, by omega⟩
  obtain ⟨c, hc⟩ := leg_span m q (by omega)
  have h1 : ∫ x in (-1 : ℝ)..1, (Jacobi.poly 0 0 (m + 1)).eval x * q.eval x = Jacobi.wint 0 0 (Jacobi.poly 0 0 (m + 1) * q) := by
    rw [wint00]; congr 1; funext x; rw [eval_mul]
  rw [h1, hc, Finset.mul_sum, Nodes1D.wint_sum]
  refine Finset.sum_eq_zero fun k hk => ?_
  have := Finset.mem_range.1 hk
  rw [show Jacobi.poly 0 0 (m + 1) * (C (c k) * Jacobi.poly 0 0 k) = C (c k) * (Jacobi.poly 0 0 (m + 1) * Jacobi.poly 0 0 k) by ring, Jacobi.wint_smul, leg_orth, if_neg (by omega), mul_zero]

/-- The derivative of a Legendre polynomial. -/
theorem leg_deriv_norm (n : ℕ) : ∫ x in (-1 : ℝ)..1, (derivative (Jacobi.poly 0 0 n)).eval x ^ 2 = (n + 1 / 2) * (n * (n + 1)) := by
  obtain ⟨P, hP⟩ : ∃ P, P = Jacobi.poly 0 0 n := ⟨_, rfl⟩
  have hi := intervalIntegral.integral_eq_sub_of_hasDerivAt (f := fun x => P.eval x * (derivative P).eval x) (f' := fun x => (derivative P).eval x ^ 2 + P.eval x * (derivative (derivative P)).eval x) (a := -1) (b := 1)
    (fun x _ => ((P.hasDerivAt x).mul ((derivative P).hasDerivAt x)).congr_deriv (by ring)) (by
      refine Continuous.intervalIntegrable ?_ _ _
      fun_prop)
  rw [intervalIntegral.integral_add (Continuous.intervalIntegrable (by fun_prop) _ _) (Continuous.intervalIntegrable (by fun_prop) _ _)] at hi
  have hl : ∫ x in (-1 : ℝ)..1, P.eval x * (derivative (derivative P)).eval x = 0 := by
    rcases n with _ | n
    · have : P = C (P.coeff 0) := by
        refine eq_C_of_natDegree_eq_zero ?_
        rw [hP]
        exact (Jacobi.poly_degree (by norm_num) (by norm_num) (by norm_num) 0).1
      rw [this]
      simp
    · rw [hP]
      refine leg_lower _ _ ?_
      have h1 := natDegree_derivative_le (derivative (Jacobi.poly 0 0 (n + 1)))
      have h2 := natDegree_derivative_le (Jacobi.poly 0 0 (n + 1))
      rw [(Jacobi.poly_degree (by norm_num) (by norm_num) (by norm_num) (n + 1)).1] at h2
      omega
  rw [hl, add_zero] at hi
  rw [← hP, hi]
  simp only [hP, leg_one, leg_deriv_one, (leg_ends n).1, (leg_ends n).2]
  have e : ((-1 : ℝ) ^ n) * ((-1) ^ n) = 1 := by rw [← mul_pow]; simp
  rw [← kap_sq]
  linear_combination (kap 0 0 n ^ 2 * (n * (n + 1) / 2)) * e

variable {N : ℕ}

/-- Coefficients of a polynomial in the Legendre basis. -/
theorem Ref.expand (P : Ref N) : ∃ c : ℕ → ℝ, P.poly = ∑ k ∈ Finset.range (N + 1), C (c k) * Jacobi.poly 0 0 k ∧ ‖P‖ ^ 2 = ∑ k ∈ Finset.range (N + 1), c k ^ 2 := by
  obtain ⟨c, hc⟩ := leg_span N P.poly P.deg
  refine ⟨c, hc, ?_⟩
  have h1 : ‖P‖ ^ 2 = Jacobi.wint 0 0 (P.poly * P.poly) := by
    rw [← real_inner_self_eq_norm_sq, Ref.inner_def, wint00]; congr 1; funext x; rw [eval_mul]
  rw [h1, hc, Finset.sum_mul_sum, Nodes1D.wint_sum]
  refine Finset.sum_congr rfl fun k hk => ?_
  rw [Nodes1D.wint_sum, Finset.sum_eq_single k]
  · rw [show C (c k) * Jacobi.poly 0 0 k * (C (c k) * Jacobi.poly 0 0 k) = C (c k * c k) * (Jacobi.poly 0 0 k * Jacobi.poly 0 0 k) by rw [C_mul]; ring, Jacobi.wint_smul, leg_orth, if_pos rfl]
    ring
  · intro l _ hl
    rw [show C (c k) * Jacobi.poly 0 0 k * (C (c l) * Jacobi.poly 0 0 l) = C (c k * c l) * (Jacobi.poly 0 0 k * Jacobi.poly 0 0 l) by rw [C_mul]; ring, Jacobi.wint_smul, leg_orth, if_neg (Ne.symm hl), mul_zero]
  · intro h; exact absurd hk h

theorem sum_kap (N : ℕ) : ∑ k ∈ Finset.range (N + 1), kap 0 0 k ^ 2 = ((N + 1) ^ 2 / 2 : ℝ) := by
  induction N with
  | zero => simp [kap_sq]
  | succ N ih => rw [Finset.sum_range_succ, ih, kap_sq]; push_cast; ring

/-- The value at an end of the element. -/
theorem Ref.end_le (P : Ref N) {x : ℝ} (hx : x = 1 ∨ x = -1) : P.poly.eval x ^ 2 ≤ (N + 1) ^ 2 / 2 * ‖P‖ ^ 2 := by
  obtain ⟨c, h1, h2⟩ := P.expand
  rw [h1, h2, eval_finsetSum, ← sum_kap]
  simp only [eval_mul, eval_C]
  refine le_trans (Finset.sum_mul_sq_le_sq_mul_sq _ _ _) (le_of_eq ?_)
  rw [mul_comm]
  congr 1
  refine Finset.sum_congr rfl fun k _ => ?_
  rcases hx with rfl | rfl
  · rw [leg_one]
  · rw [(leg_ends k).1, mul_pow, ← pow_mul, mul_comm k, pow_mul]
    simp

theorem Ref.end_abs (P : Ref N) {x : ℝ} (hx : x = 1 ∨ x = -1) : |P.poly.eval x| ≤ (N + 1) / √2 * ‖P‖ := by
  refine abs_le_of_sq_le_sq ?_ (by positivity)
  have := P.end_le hx
  rw [mul_pow, div_pow, Real.sq_sqrt (by norm_num)]
  exact this

theorem Ref.left_norm : ‖(Ref.left : Ref N)‖ ≤ (N + 1) / √2 := by
  have h := (Ref.left : Ref N).end_abs (Or.inr rfl)
  rw [← Ref.inner_left, real_inner_self_eq_norm_sq, abs_of_nonneg (sq_nonneg _), sq] at h
  rcases (norm_nonneg (Ref.left : Ref N)).eq_or_lt with h0 | h0
  · rw [← h0]; positivity
  · exact le_of_mul_le_mul_right h h0

theorem sum_deriv (N : ℕ) : ∑ k ∈ Finset.range (N + 1), ((k : ℝ) + 1 / 2) * (k * (k + 1)) = N * (N + 1) ^ 2 * (N + 2) / 4 := by
  induction N with
  | zero => simp
  | succ N ih => rw [Finset.sum_range_succ, ih]; push_cast; ring

/-- The inverse inequality for the derivative. -/
theorem Ref.D_norm (P : Ref N) : ‖Ref.D P‖ ≤ (N + 1) ^ 2 / 2 * ‖P‖ := by
  obtain ⟨c, h1, h2⟩ := P.expand
  have hN : (0 : ℝ) ≤ N := Nat.cast_nonneg N
  -- the derivative, mode by mode
  have hle : ‖Ref.D P‖ ≤ ∑ k ∈ Finset.range (N + 1), |c k| * √((k + 1 / 2) * (k * (k + 1))) := by
    obtain ⟨φ, hφ⟩ : ∃ φ : ℕ → Ref N, ∀ k ≤ N, (φ k).poly = Jacobi.poly 0 0 k :=
      ⟨fun k => if h : k ≤ N then Ref.mk (Jacobi.poly 0 0 k) (by rw [(Jacobi.poly_degree (by norm_num) (by norm_num) (by norm_num) k).1]; exact h) else 0, fun k hk => by simp only [dif_pos hk, Ref.poly_mk]⟩
    have e : Ref.D P = ∑ k ∈ Finset.range (N + 1), c k • Ref.D (φ k) := by
      refine Ref.poly_inj ?_
      rw [Ref.D_poly, h1, map_sum Ref.poly, derivative_sum]
      refine Finset.sum_congr rfl fun k hk => ?_
      have := Finset.mem_range.1 hk
      rw [map_smul, Ref.D_poly, hφ k (by omega), derivative_C_mul, smul_eq_C_mul]
    rw [e]
    refine le_trans (norm_sum_le _ _) (Finset.sum_le_sum fun k hk => ?_)
    have hk' := Finset.mem_range.1 hk
    rw [norm_smul, Real.norm_eq_abs]
    refine mul_le_mul_of_nonneg_left (le_of_eq ?_) (abs_nonneg _)
    rw [← leg_deriv_norm, eq_comm, Real.sqrt_eq_iff_mul_self_eq (by rw [leg_deriv_norm]; positivity) (norm_nonneg _), ← real_inner_self_eq_norm_mul_norm, Ref.inner_def]
    refine intervalIntegral.integral_congr fun x _ => ?_
    simp only [Ref.D_poly, hφ k (by omega), sq]
  have hcs := Finset.sum_mul_sq_le_sq_mul_sq (Finset.range (N + 1)) (fun k => |c k|) (fun k => √(((k : ℝ) + 1 / 2) * (k * (k + 1))))
  have e2 : ∑ k ∈ Finset.range (N + 1), √(((k : ℝ) + 1 / 2) * (k * (k + 1))) ^ 2 = N * (N + 1) ^ 2 * (N + 2) / 4 := by
    rw [← sum_deriv]
    exact Finset.sum_congr rfl fun k _ => Real.sq_sqrt (by positivity)
  have e1 : ∑ k ∈ Finset.range (N + 1), |c k| ^ 2 = ‖P‖ ^ 2 := by rw [h2]; exact Finset.sum_congr rfl fun k _ => sq_abs _
  rw [e1, e2] at hcs
  refine le_trans hle (le_of_sq_le_sq (le_trans hcs ?_) (by positivity))
  rw [mul_pow, mul_comm]
  refine mul_le_mul_of_nonneg_right ?_ (sq_nonneg _)
  nlinarith [sq_nonneg ((N : ℝ) + 1)]

/-- A polynomial is bounded by its norm everywhere on the element. -/
theorem Ref.sup_le (P : Ref N) {x : ℝ} (h1 : -1 ≤ x) (h2 : x ≤ 1) : |P.poly.eval x| ≤ (N + 1) * (N + 2) / √2 * ‖P‖ := by
  have hi := intervalIntegral.integral_eq_sub_of_hasDerivAt (f := fun x => P.poly.eval x) (f' := fun x => (derivative P.poly).eval x) (a := -1) (b := x)
    (fun x _ => P.poly.hasDerivAt x) (Continuous.intervalIntegrable (by fun_prop) _ _)
  have hb := P.end_abs (x := -1) (Or.inr rfl)
  have hd := Ref.D_norm P
  -- the integral of the derivative, by Cauchy-Schwarz
  have hcs : |∫ y in (-1 : ℝ)..x, (derivative P.poly).eval y| ≤ √2 * ‖Ref.D P‖ := by
    have a1 : |∫ y in (-1 : ℝ)..x, (derivative P.poly).eval y| ≤ ∫ y in (-1 : ℝ)..x, |(derivative P.poly).eval y| := intervalIntegral.abs_integral_le_integral_abs h1
    have a2 : ∫ y in (-1 : ℝ)..x, |(derivative P.poly).eval y| ≤ ∫ y in (-1 : ℝ)..1, |(derivative P.poly).eval y| :=
      intervalIntegral.integral_mono_interval le_rfl h1 h2 (Filter.Eventually.of_forall fun y => abs_nonneg _) (Continuous.intervalIntegrable (by fun_prop) _ _)
    have hn : ∫ y in (-1 : ℝ)..1, (derivative P.poly).eval y ^ 2 = ‖Ref.D P‖ ^ 2 := by
      rw [← real_inner_self_eq_norm_sq, Ref.inner_def]
      refine intervalIntegral.integral_congr fun y _ => ?_
      simp only [Ref.D_poly, sq]
    have a3 : ∀ t : ℝ, 0 < t → ∫ y in (-1 : ℝ)..1, |(derivative P.poly).eval y| ≤ t / 2 * ‖Ref.D P‖ ^ 2 + 1 / t := fun t ht => by
      have : ∫ y in (-1 : ℝ)..1, |(derivative P.poly).eval y| ≤ ∫ y in (-1 : ℝ)..1, (t / 2 * (derivative P.poly).eval y ^ 2 + 1 / (2 * t)) := by
        refine intervalIntegral.integral_mono_on (by norm_num) (Continuous.intervalIntegrable (by fun_prop) _ _) (Continuous.intervalIntegrable (by fun_prop) _ _) fun y _ => ?_
        have h := sq_nonneg (t * |(derivative P.poly).eval y| - 1)
        rw [← sq_abs ((derivative P.poly).eval y)]
        have e : t / 2 * |(derivative P.poly).eval y| ^ 2 + 1 / (2 * t) - |(derivative P.poly).eval y| = (t * |(derivative P.poly).eval y| - 1) ^ 2 / (2 * t) := by field_simp; ring
        have : 0 ≤ (t * |(derivative P.poly).eval y| - 1) ^ 2 / (2 * t) := by positivity
        linarith
      refine le_trans this (le_of_eq ?_)
      rw [intervalIntegral.integral_add (Continuous.intervalIntegrable (by fun_prop) _ _) (by simp), intervalIntegral.integral_const_mul, hn]
      simp
      field_simp
      ring
    refine le_trans a1 (le_trans a2 ?_)
    rcases (norm_nonneg (Ref.D P)).eq_or_lt with h0 | h0
    · rw [← h0, mul_zero]
      refine le_of_forall_pos_le_add fun ε hε => ?_
      have := a3 (1 / ε) (by positivity)
      rw [← h0] at this
      simpa using this
    · have := a3 (√2 / ‖Ref.D P‖) (by positivity)
      refine le_trans this (le_of_eq ?_)
      have hs : √2 * √2 = 2 := Real.mul_self_sqrt (by norm_num)
      field_simp
      linarith
  rw [hi] at hcs
  have hs : √2 * √2 = 2 := Real.mul_self_sqrt (by norm_num)
  have h3 := abs_sub_abs_le_abs_sub (P.poly.eval x) (P.poly.eval (-1))
  have h4 : √2 * ((N + 1) ^ 2 / 2 * ‖P‖) = (N + 1) ^ 2 / √2 * ‖P‖ := by
    field_simp
    rw [sq, hs]
  have h5 := mul_le_mul_of_nonneg_left hd (Real.sqrt_nonneg 2)
  rw [h4] at h5
  have h6 : ((N : ℝ) + 1) * (N + 2) / √2 * ‖P‖ = (N + 1) / √2 * ‖P‖ + (N + 1) ^ 2 / √2 * ‖P‖ := by ring
  rw [h6]
  linarith

/-- **The norm of the advection operator**, with an explicit constant. -/
theorem advOp_norm_le (N K : ℕ) {s : ℝ} (hs : 0 ≤ s) : ‖advOp N K s‖ ≤ 3 / 2 * (N + 1) ^ 2 * s := by
  refine le_trans (advOp_norm_of (a := (N + 1) ^ 2) (b := (N + 1) ^ 2 / 2) (by positivity) (by positivity) (fun P => ?_) (fun P => ?_) K hs) (le_of_eq (by ring))
  · have h1 := Ref.D_norm P
    have h2 := mul_le_mul (P.end_abs (x := -1) (Or.inr rfl)) (Ref.left_norm (N := N)) (norm_nonneg _) (by positivity)
    have hs : √2 * √2 = 2 := Real.mul_self_sqrt (by norm_num)
    have : ((N : ℝ) + 1) / √2 * ‖P‖ * ((N + 1) / √2) = (N + 1) ^ 2 / 2 * ‖P‖ := by
      field_simp
      rw [sq (√2), hs]
      ring
    linarith
  · have h2 := mul_le_mul (P.end_abs (x := 1) (Or.inl rfl)) (Ref.left_norm (N := N)) (norm_nonneg _) (by positivity)
    have hs : √2 * √2 = 2 := Real.mul_self_sqrt (by norm_num)
    have : ((N : ℝ) + 1) / √2 * ‖P‖ * ((N + 1) / √2) = (N + 1) ^ 2 / 2 * ‖P‖ := by
      field_simp
      rw [sq (√2), hs]
      ring
    linarith

end Blitzdg.Drivers
