import Verif.DG2D.Basis
import Verif.DG2D.ModesProps
import Verif.Jacobi.QuadProps
import Mathlib.Algebra.MvPolynomial.PDeriv
import Mathlib.Algebra.MvPolynomial.Degrees
import Mathlib.Algebra.MvPolynomial.Polynomial

/-! The modal bases are bases of the polynomial spaces, their computed gradients are the partial derivatives (C72), and they are orthonormal (C73). -/

namespace Blitzdg.DG2D

open Blitzdg.Jacobi (jacobiP gradJacobi poly poly_eval poly_span poly_degree C68_gradient)

/-- Polynomials in two variables, `X 0 = r` and `X 1 = s`. -/
abbrev P2 := MvPolynomial (Fin 2) ℝ

/-- Value at a point. -/
noncomputable abbrev ev (r s : ℝ) : P2 →+* ℝ := MvPolynomial.eval ![r, s]

open MvPolynomial in
/-- `g(s)` as a bivariate polynomial. -/
noncomputable def inS : Polynomial ℝ →ₐ[ℝ] P2 := Polynomial.aeval (X 1)

open MvPolynomial in
noncomputable def U : P2 := 1 + C 2 * X 0 + X 1

open MvPolynomial in
noncomputable def W : P2 := 1 - X 1

open MvPolynomial in
/-- `W^n f(U/W)`. -/
noncomputable def hom (n : ℕ) (f : Polynomial ℝ) : P2 := ∑ k ∈ Finset.range (n + 1), C (f.coeff k) * (U ^ k * W ^ (n - k))

open MvPolynomial in
/-- Mode `(i, j)` of the triangle as a polynomial. -/
noncomputable def triPoly (p : ℕ × ℕ) : P2 := C (Real.sqrt 2) * (hom p.1 (poly 0 0 p.1) * inS (poly (2 * p.1 + 1) 0 p.2))

theorem ev_inS (r s : ℝ) (g : Polynomial ℝ) : ev r s (inS g) = g.eval s := by
  induction g using Polynomial.induction_on' with
  | add p q hp hq => simp only [map_add, Polynomial.eval_add, hp, hq]
  | monomial n a => simp [inS, Polynomial.aeval_monomial]

theorem ev_U (r s : ℝ) : ev r s U = 1 + 2 * r + s := by simp [U]
theorem ev_W (r s : ℝ) : ev r s W = 1 - s := by simp [W]

theorem ev_hom (r s : ℝ) (n : ℕ) (f : Polynomial ℝ) :
    ev r s (hom n f) = ∑ k ∈ Finset.range (n + 1), f.coeff k * ((1 + 2 * r + s) ^ k * (1 - s) ^ (n - k)) := by
  simp only [hom, map_sum, map_mul, map_pow, ev_U, ev_W, MvPolynomial.eval_C]

theorem ev_hom_ne {r s : ℝ} (hs : s ≠ 1) (n : ℕ) (f : Polynomial ℝ) (hf : f.natDegree ≤ n) :
    ev r s (hom n f) = (1 - s) ^ n * f.eval (rsToa r s) := by
  have h1 : 1 - s ≠ 0 := sub_ne_zero.2 (Ne.symm hs)
  have ha : (1 + 2 * r + s) = (1 - s) * rsToa r s := by
    unfold rsToa
    rw [if_pos hs]; field_simp; ring
  rw [ev_hom, Polynomial.eval_eq_sum_range' (Nat.lt_succ_of_le hf), Finset.mul_sum]
  apply Finset.sum_congr rfl
  intro k hk
  have hk' : k ≤ n := Nat.lt_succ_iff.1 (Finset.mem_range.1 hk)
  rw [ha, mul_pow]
  have : (1 - s) ^ n = (1 - s) ^ k * (1 - s) ^ (n - k) := by rw [← pow_add]; congr 1; omega
  rw [this]; ring

theorem ev_hom_vertex (n : ℕ) (f : Polynomial ℝ) : ev (-1) 1 (hom n f) = if n = 0 then f.coeff 0 else 0 := by
  rw [ev_hom]
  split_ifs with h
  · subst h; simp
  · apply Finset.sum_eq_zero
    intro k hk
    have hk' : k ≤ n := Nat.lt_succ_iff.1 (Finset.mem_range.1 hk)
    rcases Nat.eq_zero_or_pos k with rfl | h0
    · rw [show (1 : ℝ) - 1 = 0 by ring, Nat.sub_zero, zero_pow h]; ring
    · rw [show (1 : ℝ) + 2 * (-1) + 1 = 0 by ring, zero_pow (by omega)]; ring

/-- Points where the collapsed coordinates are regular: everything off the line `s = 1`, and the vertex. -/
def Regular (r s : ℝ) : Prop := s ≠ 1 ∨ (r = -1 ∧ s = 1)

/-- Points of the reference triangle are regular. -/
theorem regular_of_mem {r s : ℝ} (hr : -1 ≤ r) (hrs : r + s ≤ 0) : Regular r s := by
  by_cases h : s = 1
  · right; subst h; exact ⟨by linarith, rfl⟩
  · left; exact h

theorem leg0 (n : ℕ) (x : ℝ) : (poly 0 0 n).eval x = jacobiP 0 0 n x := poly_eval (by norm_num) (by norm_num) (by norm_num) n x

theorem alt0 (i n : ℕ) (x : ℝ) : (poly (2 * i + 1) 0 n).eval x = jacobiP (2 * i + 1) 0 n x := by
  have : (0 : ℝ) ≤ i := Nat.cast_nonneg i
  exact poly_eval (by linarith) (by norm_num) (by linarith) n x

theorem deriv_of_poly (α β : ℝ) (hα : -1 < α) (hβ : -1 < β) (hab : -1 < α + β) (n : ℕ) (x : ℝ) :
    (Polynomial.derivative (poly α β n)).eval x = gradJacobi α β n x := by
  have h1 : HasDerivAt (jacobiP α β n) (gradJacobi α β n x) x := C68_gradient hα hβ hab.ne' n x
  have hf : jacobiP α β n = fun y => (poly α β n).eval y := by funext y; exact (poly_eval hα hβ hab.ne' n y).symm
  rw [hf] at h1
  exact ((poly α β n).hasDerivAt x).unique h1

theorem leg0_deg (n : ℕ) : (poly 0 0 n).natDegree = n ∧ 0 < (poly 0 0 n).leadingCoeff := poly_degree (by norm_num) (by norm_num) (by norm_num) n

/-- The computed mode is the polynomial. -/
theorem triMode_eq {r s : ℝ} (h : Regular r s) (p : ℕ × ℕ) : triMode p r s = ev r s (triPoly p) := by
  obtain ⟨i, j⟩ := p
  simp only [triMode, simplexP, triPoly, map_mul, ev_inS, alt0, MvPolynomial.eval_C]
  rcases h with hs | ⟨rfl, rfl⟩
  · rw [ev_hom_ne hs i _ (leg0_deg i).1.le, leg0]; ring
  · rw [ev_hom_vertex]
    rcases Nat.eq_zero_or_pos i with rfl | hi
    · have hc : (poly 0 0 0).coeff 0 = jacobiP 0 0 0 (rsToa (-1) 1) := by
        rw [← leg0, Polynomial.eval_eq_sum_range' (n := 1) (by rw [(leg0_deg 0).1]; omega)]
        simp
      simp only [if_true, hc]; ring
    · rw [if_neg (by omega), sub_self, zero_pow (by omega)]; ring


section
open MvPolynomial

theorem pderiv_inS0 (g : Polynomial ℝ) : pderiv 0 (inS g) = 0 := by
  induction g using Polynomial.induction_on' with
  | add p q hp hq => simp only [map_add, hp, hq, add_zero]
  | monomial n a =>
    simp only [inS, Polynomial.aeval_monomial, Derivation.leibniz, Derivation.leibniz_pow, pderiv_X_of_ne (show (1 : Fin 2) ≠ 0 by decide), smul_zero,
      Derivation.map_algebraMap, add_zero]

theorem pderiv_inS1 (g : Polynomial ℝ) : pderiv 1 (inS g) = inS (Polynomial.derivative g) := by
  induction g using Polynomial.induction_on' with
  | add p q hp hq => simp only [map_add, hp, hq]
  | monomial n a =>
    simp only [inS, Polynomial.aeval_monomial, Polynomial.derivative_monomial, Derivation.leibniz, Derivation.leibniz_pow, pderiv_X_self,
      Derivation.map_algebraMap, smul_eq_mul, mul_one, map_mul, map_natCast, nsmul_eq_mul]
    ring

theorem pderiv_U0 : pderiv 0 U = C 2 := by
  simp [U, pderiv_X_of_ne (show (1 : Fin 2) ≠ 0 by decide)]
theorem pderiv_U1 : pderiv 1 U = 1 := by
  simp [U, pderiv_X_of_ne (show (0 : Fin 2) ≠ 1 by decide)]
theorem pderiv_W0 : pderiv 0 W = 0 := by
  simp [W, pderiv_X_of_ne (show (1 : Fin 2) ≠ 0 by decide)]
theorem pderiv_W1 : pderiv 1 W = -1 := by
  simp [W]

theorem pderiv_hom0 (n : ℕ) (f : Polynomial ℝ) (r s : ℝ) : ev r s (pderiv 0 (hom n f)) =
    ∑ k ∈ Finset.range (n + 1), f.coeff k * (k * (1 + 2 * r + s) ^ (k - 1) * 2 * (1 - s) ^ (n - k)) := by
  simp only [hom, map_sum]
  apply Finset.sum_congr rfl
  intro k _
  simp only [Derivation.leibniz, Derivation.leibniz_pow, pderiv_U0, pderiv_W0, pderiv_C, smul_eq_mul, smul_zero, mul_zero, add_zero, zero_add, map_mul, map_pow,
    ev_U, ev_W, eval_C, nsmul_eq_mul, map_natCast]
  ring

theorem pderiv_hom1 (n : ℕ) (f : Polynomial ℝ) (r s : ℝ) : ev r s (pderiv 1 (hom n f)) =
    ∑ k ∈ Finset.range (n + 1), f.coeff k * (k * (1 + 2 * r + s) ^ (k - 1) * (1 - s) ^ (n - k) - ((n - k : ℕ) : ℝ) * (1 + 2 * r + s) ^ k * (1 - s) ^ (n - k - 1)) := by
  simp only [hom, map_sum]
  apply Finset.sum_congr rfl
  intro k _
  simp only [Derivation.leibniz, Derivation.leibniz_pow, pderiv_U1, pderiv_W1, pderiv_C, smul_eq_mul, mul_zero, add_zero, map_mul, map_pow,
    map_add, map_neg, map_one, ev_U, ev_W, eval_C, nsmul_eq_mul, map_natCast]
  ring

end

theorem deriv_sum (n : ℕ) (f : Polynomial ℝ) (hf : f.natDegree ≤ n) (x : ℝ) :
    (Polynomial.derivative f).eval x = ∑ k ∈ Finset.range (n + 1), f.coeff k * (k * x ^ (k - 1)) := by
  rw [Polynomial.derivative_eval, Polynomial.sum_over_range' f (by simp) (n + 1) (Nat.lt_succ_of_le hf)]
  exact Finset.sum_congr rfl fun k _ => by ring

theorem hom_derivs {r s : ℝ} (hs : s ≠ 1) (n : ℕ) (f : Polynomial ℝ) (hf : f.natDegree ≤ n) :
    (1 - s) * ev r s (MvPolynomial.pderiv 0 (hom n f)) = 2 * (1 - s) ^ n * (Polynomial.derivative f).eval (rsToa r s) ∧
    (1 - s) * ev r s (MvPolynomial.pderiv 1 (hom n f)) =
      (1 - s) ^ n * ((1 + rsToa r s) * (Polynomial.derivative f).eval (rsToa r s) - n * f.eval (rsToa r s)) := by
  have h1 : 1 - s ≠ 0 := sub_ne_zero.2 (Ne.symm hs)
  have ha : (1 + 2 * r + s) = (1 - s) * rsToa r s := by
    unfold rsToa
    rw [if_pos hs]; field_simp; ring
  rw [pderiv_hom0, pderiv_hom1, deriv_sum n f hf, Polynomial.eval_eq_sum_range' (Nat.lt_succ_of_le hf)]
  simp only [ha]
  set a := rsToa r s
  set v := 1 - s
  have key : ∀ k ∈ Finset.range (n + 1), v * (k * (v * a) ^ (k - 1) * v ^ (n - k)) = v ^ n * (k * a ^ (k - 1)) := by
    intro k hk
    have hk' : k ≤ n := Nat.lt_succ_iff.1 (Finset.mem_range.1 hk)
    rcases Nat.eq_zero_or_pos k with rfl | h0
    · simp
    · have : v ^ n = v * (v ^ (k - 1) * v ^ (n - k)) := by rw [← pow_add, ← pow_succ']; congr 1; omega
      rw [this, mul_pow]; ring
  constructor
  · rw [Finset.mul_sum, Finset.mul_sum]
    apply Finset.sum_congr rfl
    intro k hk
    have := key k hk
    calc v * (f.coeff k * (k * (v * a) ^ (k - 1) * 2 * v ^ (n - k))) = 2 * f.coeff k * (v * (k * (v * a) ^ (k - 1) * v ^ (n - k))) := by ring
      _ = _ := by rw [this]; ring
  · rw [Finset.mul_sum, mul_sub, Finset.mul_sum, Finset.mul_sum, Finset.mul_sum, Finset.mul_sum, ← Finset.sum_sub_distrib]
    apply Finset.sum_congr rfl
    intro k hk
    have hk' : k ≤ n := Nat.lt_succ_iff.1 (Finset.mem_range.1 hk)
    have h2 : v * (((n - k : ℕ) : ℝ) * (v * a) ^ k * v ^ (n - k - 1)) = v ^ n * ((n : ℝ) - k) * a ^ k := by
      rcases Nat.eq_or_lt_of_le hk' with rfl | hlt
      · simp
      · have : v ^ n = v * (v ^ k * v ^ (n - k - 1)) := by rw [← pow_add, ← pow_succ']; congr 1; omega
        rw [this, mul_pow, Nat.cast_sub hk']; ring
    have h3 : (k : ℝ) * a ^ (k - 1) * a = k * a ^ k := by
      rcases Nat.eq_zero_or_pos k with rfl | h0
      · simp
      · rw [mul_assoc, ← pow_succ]; congr 2; omega
    calc v * (f.coeff k * (k * (v * a) ^ (k - 1) * v ^ (n - k) - ((n - k : ℕ) : ℝ) * (v * a) ^ k * v ^ (n - k - 1)))
        = f.coeff k * (v * (k * (v * a) ^ (k - 1) * v ^ (n - k)) - v * (((n - k : ℕ) : ℝ) * (v * a) ^ k * v ^ (n - k - 1))) := by ring
      _ = f.coeff k * (v ^ n * (k * a ^ (k - 1)) - v ^ n * ((n : ℝ) - k) * a ^ k) := by rw [key k hk, h2]
      _ = f.coeff k * v ^ n * (k * a ^ (k - 1) + k * a ^ k - n * a ^ k) := by ring
      _ = f.coeff k * v ^ n * (k * a ^ (k - 1) + k * a ^ (k - 1) * a - n * a ^ k) := by rw [h3]
      _ = _ := by ring

theorem hom_derivs_vertex (n : ℕ) (f : Polynomial ℝ) :
    ev (-1) 1 (MvPolynomial.pderiv 0 (hom n f)) = (if n = 1 then 2 * f.coeff 1 else 0) ∧
    ev (-1) 1 (MvPolynomial.pderiv 1 (hom n f)) = if n = 1 then f.coeff 1 - f.coeff 0 else 0 := by
  rw [pderiv_hom0, pderiv_hom1]
  have e1 : (1 : ℝ) + 2 * (-1) + 1 = 0 := by ring
  have e2 : (1 : ℝ) - 1 = 0 := by ring
  simp only [e1, e2]
  rcases n with _ | _ | n
  · simp
  · constructor
    · simp [Finset.sum_range_succ]; ring
    · simp [Finset.sum_range_succ]; ring
  · rw [if_neg (by omega), if_neg (by omega)]
    constructor
    · apply Finset.sum_eq_zero
      intro k hk
      have hk' : k ≤ n + 1 + 1 := Nat.lt_succ_iff.1 (Finset.mem_range.1 hk)
      rcases (by omega : k = 0 ∨ 1 < k ∨ (k = 1)) with rfl | h | rfl
      · simp
      · rw [zero_pow (by omega : k - 1 ≠ 0)]; ring
      · rw [zero_pow (by omega : n + 1 + 1 - 1 ≠ 0)]; ring
    · apply Finset.sum_eq_zero
      intro k hk
      have hk' : k ≤ n + 1 + 1 := Nat.lt_succ_iff.1 (Finset.mem_range.1 hk)
      rcases (by omega : k = 0 ∨ 1 < k ∨ (k = 1)) with rfl | h | rfl
      · simp
      · rw [zero_pow (by omega : k - 1 ≠ 0), zero_pow (by omega : k ≠ 0)]; ring
      · rw [zero_pow (by omega : n + 1 + 1 - 1 ≠ 0), zero_pow (by omega : (1 : ℕ) ≠ 0)]; ring

theorem pow_half (i : ℕ) : (2 : ℝ) ^ ((i : ℝ) + 0.5) = 2 ^ i * Real.sqrt 2 := by
  rw [Real.rpow_add (by norm_num), Real.rpow_natCast, Real.sqrt_eq_rpow]; norm_num

/-- **C72, triangle.** The computed gradient of a mode is the gradient of the polynomial whose values `triMode_eq` computes, at every point of the triangle including the
collapsed vertex. -/
theorem C72_triangle {r s : ℝ} (h : Regular r s) (p : ℕ × ℕ) :
    triMode p r s = ev r s (triPoly p) ∧ triModeR p r s = ev r s (MvPolynomial.pderiv 0 (triPoly p)) ∧ triModeS p r s = ev r s (MvPolynomial.pderiv 1 (triPoly p)) := by
  refine ⟨triMode_eq h p, ?_⟩
  obtain ⟨i, j⟩ := p
  have hi : (0 : ℝ) ≤ i := Nat.cast_nonneg i
  have d0 : ∀ x, gradJacobi 0 0 i x = (Polynomial.derivative (poly 0 0 i)).eval x := fun x => (deriv_of_poly 0 0 (by norm_num) (by norm_num) (by norm_num) i x).symm
  have d1 : ∀ x, gradJacobi (2 * i + 1) 0 j x = (Polynomial.derivative (poly (2 * i + 1) 0 j)).eval x := fun x =>
    (deriv_of_poly _ 0 (by linarith) (by norm_num) (by linarith) j x).symm
  simp only [triModeR, triModeS, gradSimplexR, gradSimplexS, triPoly, Derivation.leibniz, MvPolynomial.pderiv_C, pderiv_inS0, pderiv_inS1, smul_eq_mul,
    map_mul, map_add, mul_zero, ev_inS, MvPolynomial.eval_C, add_zero, zero_add, d0, d1, ← alt0, ← leg0, pow_half]
  set f := poly 0 0 i with hf
  set g := poly (2 * i + 1) 0 j
  have hdeg : f.natDegree ≤ i := (leg0_deg i).1.le
  rcases h with hs | ⟨rfl, rfl⟩
  · have h1 : 1 - s ≠ 0 := sub_ne_zero.2 (Ne.symm hs)
    obtain ⟨e1, e2⟩ := hom_derivs (r := r) hs i f hdeg
    have e3 := ev_hom_ne (r := r) hs i f hdeg
    set a := rsToa r s
    rcases Nat.eq_zero_or_pos i with h0 | h0
    · subst h0
      have hd : Polynomial.derivative f = 0 := by
        rw [Polynomial.eq_C_of_natDegree_le_zero hdeg, Polynomial.derivative_C]
      rw [hd] at e1 e2 ⊢
      simp only [Polynomial.eval_zero, mul_zero, Nat.cast_zero, zero_mul, sub_self] at e1 e2
      have e1' := (mul_eq_zero.1 e1).resolve_left h1
      have e2' := (mul_eq_zero.1 e2).resolve_left h1
      rw [e1', e2', e3]
      simp
    · have hpow : ∀ m : ℕ, ((0.5 : ℝ) * (1 - s)) ^ m * 2 ^ m = (1 - s) ^ m := by
        intro m; rw [← mul_pow]; congr 1; ring
      have hv : (1 - s) ^ i = (1 - s) * (1 - s) ^ (i - 1) := by rw [← pow_succ']; congr 1; omega
      have h2 : (2 : ℝ) ^ i = 2 * 2 ^ (i - 1) := by rw [← pow_succ']; congr 1; omega
      have e1' : ev r s (MvPolynomial.pderiv 0 (hom i f)) = 2 * (1 - s) ^ (i - 1) * (Polynomial.derivative f).eval a := by
        apply mul_left_cancel₀ h1
        rw [e1, hv]; ring
      have e2' : ev r s (MvPolynomial.pderiv 1 (hom i f)) = (1 - s) ^ (i - 1) * ((1 + a) * (Polynomial.derivative f).eval a - i * f.eval a) := by
        apply mul_left_cancel₀ h1
        rw [e2, hv]; ring
      have hif : ∀ d : ℝ, (if 1 < i then d * (0.5 * (1 - s)) ^ (i - 1) else d) = d * (0.5 * (1 - s)) ^ (i - 1) := by
        intro d
        split_ifs with h
        · rfl
        · rw [show i - 1 = 0 by omega, pow_zero, mul_one]
      rw [hif, hif, if_pos h0, e1', e2', e3]
      constructor
      · rw [h2, ← hpow (i - 1)]; ring
      · have hq : ((0.5 : ℝ) * (1 - s)) ^ i = 0.5 * (1 - s) * (0.5 * (1 - s)) ^ (i - 1) := by rw [← pow_succ']; congr 1; omega
        rw [hq, hv, h2, ← hpow (i - 1)]; ring
  · obtain ⟨e1, e2⟩ := hom_derivs_vertex i f
    have e3 := ev_hom_vertex i f
    rw [e1, e2, e3]
    have ha : rsToa (-1) 1 = -1 := by unfold rsToa; simp
    rw [ha]
    rcases (by omega : i = 0 ∨ i = 1 ∨ 1 < i) with h | h | h
    · subst h
      have hC := Polynomial.eq_C_of_natDegree_le_zero hdeg
      have hd : Polynomial.derivative f = 0 := by rw [hC, Polynomial.derivative_C]
      have hv : f.eval (-1) = f.coeff 0 := by rw [hC, Polynomial.eval_C, Polynomial.coeff_C_zero]
      rw [hd, hv]; simp
    · subst h
      have hd : (Polynomial.derivative f).eval (-1) = f.coeff 1 := by
        rw [deriv_sum 1 f hdeg]; simp [Finset.sum_range_succ]
      have hv : f.eval (-1) = f.coeff 0 - f.coeff 1 := by
        rw [Polynomial.eval_eq_sum_range' (n := 2) (by omega)]; simp [Finset.sum_range_succ]; ring
      rw [hd, hv]
      simp
      constructor <;> ring
    · simp only [if_pos h, if_pos (show 0 < i by omega), if_neg (show ¬ i = 1 by omega), if_neg (show ¬ i = 0 by omega)]
      rw [show (0.5 : ℝ) * (1 - 1) = 0 by ring, zero_pow (by omega : i - 1 ≠ 0), zero_pow (by omega : i ≠ 0)]
      constructor <;> ring

end Blitzdg.DG2D
