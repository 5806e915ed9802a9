import Verif.DG2D.BasisProps
import Mathlib.LinearAlgebra.Finsupp.LinearCombination

/-! The modes span the polynomial spaces: total degree at most `N` on triangles, degree at most `N` in each variable on quadrilaterals. -/

namespace Blitzdg.DG2D

open MvPolynomial
open Blitzdg.Jacobi (jacobiP gradJacobi poly poly_eval poly_span poly_degree)

/-- Span of the modes in a list. -/
noncomputable def modeSpan (pairs : List (ℕ × ℕ)) (q : ℕ × ℕ → P2) : Submodule ℝ P2 :=
  Submodule.span ℝ (Set.range fun k : Fin pairs.length => q (pairs.getD k (0, 0)))

theorem mem_modeSpan {pairs : List (ℕ × ℕ)} {q : ℕ × ℕ → P2} {p : ℕ × ℕ} (h : p ∈ pairs) : q p ∈ modeSpan pairs q := by
  obtain ⟨k, hk, rfl⟩ := List.getElem_of_mem h
  apply Submodule.subset_span
  exact ⟨⟨k, hk⟩, by simp [List.getD_eq_getElem?_getD, hk]⟩

theorem C_mul_mem {M : Submodule ℝ P2} {p : P2} (a : ℝ) (h : p ∈ M) : C a * p ∈ M := by
  rw [← smul_eq_C_mul]; exact M.smul_mem a h

theorem hom_mul_mem (N i : ℕ) (g : Polynomial ℝ) (h : i + g.natDegree ≤ N) : hom i (poly 0 0 i) * inS g ∈ modeSpan (triPairs N) triPoly := by
  have hi : (0 : ℝ) ≤ i := Nat.cast_nonneg i
  obtain ⟨c, hc⟩ := poly_span (α := 2 * i + 1) (β := 0) (by linarith) (by norm_num) (by linarith) (N - i) g (by omega)
  rw [hc, map_sum, Finset.mul_sum]
  apply Submodule.sum_mem
  intro j hj
  have hj' := Finset.mem_range.1 hj
  have h2 : Real.sqrt 2 ≠ 0 := by positivity
  have e : hom i (poly 0 0 i) * inS (Polynomial.C (c j) * poly (2 * i + 1) 0 j) = C (c j / Real.sqrt 2) * triPoly (i, j) := by
    have e1 : (C (c j) : P2) = C (c j / Real.sqrt 2) * C (Real.sqrt 2) := by
      rw [← C_mul]; congr 1; field_simp
    have e2 : inS (Polynomial.C (c j)) = (C (c j) : P2) := by
      unfold inS; rw [Polynomial.aeval_C]; rfl
    rw [map_mul, e2, e1]
    unfold triPoly
    ring
  rw [e]
  exact C_mul_mem _ (mem_modeSpan (mem_triPairs.2 (by simp only; omega)))

theorem inS_W (m : ℕ) : W ^ m = inS ((1 - Polynomial.X) ^ m) := by
  simp [inS, W]

theorem natDegree_one_sub (m : ℕ) : ((1 - Polynomial.X : Polynomial ℝ) ^ m).natDegree ≤ m := by
  refine Polynomial.natDegree_pow_le.trans ?_
  have : (1 - Polynomial.X : Polynomial ℝ).natDegree ≤ 1 := (Polynomial.natDegree_sub_le _ _).trans (by simp)
  nlinarith

theorem U_mul_mem (N k : ℕ) : ∀ g : Polynomial ℝ, k + g.natDegree ≤ N → U ^ k * inS g ∈ modeSpan (triPairs N) triPoly := by
  induction k using Nat.strong_induction_on with
  | _ k ih =>
    intro g hg
    obtain ⟨hd, hl⟩ := leg0_deg k
    set f := poly 0 0 k
    have hck : f.coeff k ≠ 0 := by
      have : f.leadingCoeff = f.coeff k := by rw [Polynomial.leadingCoeff, hd]
      rw [← this]; exact hl.ne'
    have h1 := hom_mul_mem N k g hg
    have e : U ^ k * inS g = C (1 / f.coeff k) * (hom k f * inS g) - ∑ l ∈ Finset.range k, C (f.coeff l / f.coeff k) * (U ^ l * inS ((1 - Polynomial.X) ^ (k - l) * g)) := by
      have e1 : ∀ l, C (f.coeff l / f.coeff k) * (U ^ l * inS ((1 - Polynomial.X) ^ (k - l) * g)) = C (1 / f.coeff k) * ((C (f.coeff l) * (U ^ l * W ^ (k - l))) * inS g) := by
        intro l
        rw [map_mul, ← inS_W, div_eq_mul_one_div, C_mul]; ring
      simp only [e1]
      rw [← Finset.mul_sum, ← Finset.sum_mul, hom, Finset.sum_range_succ, Nat.sub_self, pow_zero, mul_one]
      have : (C (1 / f.coeff k) : P2) * C (f.coeff k) = 1 := by rw [← C_mul]; rw [one_div, inv_mul_cancel₀ hck, C_1]
      linear_combination -(U ^ k * inS g) * this
    rw [e]
    apply Submodule.sub_mem
    · exact C_mul_mem _ h1
    · apply Submodule.sum_mem
      intro l hl
      have hl' := Finset.mem_range.1 hl
      apply C_mul_mem
      apply ih l hl'
      have := Polynomial.natDegree_mul_le (p := (1 - Polynomial.X : Polynomial ℝ) ^ (k - l)) (q := g)
      have h3 := natDegree_one_sub (k - l)
      omega

theorem monomial_mem (N p q : ℕ) (h : p + q ≤ N) : (X 0 : P2) ^ p * X 1 ^ q ∈ modeSpan (triPairs N) triPoly := by
  have e : (X 0 : P2) = C (1 / 2) * (U + inS (-(1 + Polynomial.X))) := by
    have : (C (1 / 2) : P2) * C 2 = 1 := by rw [← C_mul]; norm_num
    simp only [U, inS, map_neg, map_add, map_one, Polynomial.aeval_X]
    linear_combination -(X 0 : P2) * this
  rw [e, mul_pow, ← C_pow, mul_assoc]
  apply C_mul_mem
  rw [add_pow, Finset.sum_mul]
  apply Submodule.sum_mem
  intro m hm
  have hm' : m ≤ p := Nat.lt_succ_iff.1 (Finset.mem_range.1 hm)
  have e2 : U ^ m * inS (-(1 + Polynomial.X)) ^ (p - m) * ((p.choose m : ℕ) : P2) * X 1 ^ q
      = C ((p.choose m : ℕ) : ℝ) * (U ^ m * inS ((-(1 + Polynomial.X)) ^ (p - m) * Polynomial.X ^ q)) := by
    simp only [map_mul, map_pow, inS, Polynomial.aeval_X, map_natCast]
    ring
  rw [e2]
  apply C_mul_mem
  apply U_mul_mem
  have h1 := Polynomial.natDegree_mul_le (p := (-(1 + Polynomial.X) : Polynomial ℝ) ^ (p - m)) (q := Polynomial.X ^ q)
  have h2 : ((-(1 + Polynomial.X) : Polynomial ℝ) ^ (p - m)).natDegree ≤ p - m := by
    refine Polynomial.natDegree_pow_le.trans ?_
    have : (-(1 + Polynomial.X) : Polynomial ℝ).natDegree ≤ 1 := by
      rw [Polynomial.natDegree_neg]
      exact (Polynomial.natDegree_add_le _ _).trans (by simp)
    nlinarith
  rw [Polynomial.natDegree_X_pow] at h1
  omega

theorem monomial_two (m : Fin 2 →₀ ℕ) (a : ℝ) : (monomial m a : P2) = C a * (X 0 ^ m 0 * X 1 ^ m 1) := by
  rw [MvPolynomial.monomial_eq, Finsupp.prod_fintype]
  · rw [Fin.prod_univ_two]
  · intro i; simp

/-- Coefficients in the modes. -/
theorem exists_coeffs {pairs : List (ℕ × ℕ)} {q : ℕ × ℕ → P2} {p : P2} (h : p ∈ modeSpan pairs q) :
    ∃ c : Fin pairs.length → ℝ, p = ∑ k, C (c k) * q (pairs.getD k (0, 0)) := by
  obtain ⟨c, hc⟩ := (Submodule.mem_span_range_iff_exists_fun ℝ).1 h
  exact ⟨c, by rw [← hc]; exact Finset.sum_congr rfl fun k _ => smul_eq_C_mul _ _⟩

/-- Every polynomial of total degree at most `N` is a combination of the modes of the triangle. -/
theorem tri_span (N : ℕ) (p : P2) (hp : p.totalDegree ≤ N) : p ∈ modeSpan (triPairs N) triPoly := by
  rw [p.as_sum]
  apply Submodule.sum_mem
  intro m hm
  rw [monomial_two]
  apply C_mul_mem
  apply monomial_mem
  have := le_totalDegree hm
  rw [Finsupp.sum_fintype _ _ (by simp), Fin.sum_univ_two] at this
  omega

/-- Mode `(i, j)` of the quadrilateral as a polynomial. -/
noncomputable def inR : Polynomial ℝ →ₐ[ℝ] P2 := Polynomial.aeval (X 0)

noncomputable def quadPoly (p : ℕ × ℕ) : P2 := inS (poly 0 0 p.1) * inR (poly 0 0 p.2)

theorem ev_inR (r s : ℝ) (g : Polynomial ℝ) : ev r s (inR g) = g.eval r := by
  induction g using Polynomial.induction_on' with
  | add p q hp hq => simp only [map_add, Polynomial.eval_add, hp, hq]
  | monomial n a => simp [inR, Polynomial.aeval_monomial]

theorem pderiv_inR0 (g : Polynomial ℝ) : pderiv 0 (inR g) = inR (Polynomial.derivative g) := by
  induction g using Polynomial.induction_on' with
  | add p q hp hq => simp only [map_add, hp, hq]
  | monomial n a =>
    simp only [inR, Polynomial.aeval_monomial, Polynomial.derivative_monomial, Derivation.leibniz, Derivation.leibniz_pow, pderiv_X_self,
      Derivation.map_algebraMap, smul_eq_mul, mul_one, map_mul, map_natCast, nsmul_eq_mul]
    ring

theorem pderiv_inR1 (g : Polynomial ℝ) : pderiv 1 (inR g) = 0 := by
  induction g using Polynomial.induction_on' with
  | add p q hp hq => simp only [map_add, hp, hq, add_zero]
  | monomial n a =>
    simp only [inR, Polynomial.aeval_monomial, Derivation.leibniz, Derivation.leibniz_pow, pderiv_X_of_ne (show (0 : Fin 2) ≠ 1 by decide), smul_zero,
      Derivation.map_algebraMap, add_zero]

/-- **C72, quadrilateral.** -/
theorem C72_quadrilateral (r s : ℝ) (p : ℕ × ℕ) :
    quadMode p r s = ev r s (quadPoly p) ∧ quadModeR p r s = ev r s (pderiv 0 (quadPoly p)) ∧ quadModeS p r s = ev r s (pderiv 1 (quadPoly p)) := by
  have d : ∀ i x, gradJacobi 0 0 i x = (Polynomial.derivative (poly 0 0 i)).eval x := fun i x => (deriv_of_poly 0 0 (by norm_num) (by norm_num) (by norm_num) i x).symm
  simp only [quadMode, quadModeR, quadModeS, quadPoly, Derivation.leibniz, pderiv_inR0, pderiv_inR1, pderiv_inS0, pderiv_inS1, smul_eq_mul, map_mul,
    mul_zero, add_zero, zero_add, ev_inR, ev_inS, d, leg0]
  refine ⟨trivial, ?_, trivial⟩
  ring

theorem inR_inS_mem (N : ℕ) (f g : Polynomial ℝ) (hf : f.natDegree ≤ N) (hg : g.natDegree ≤ N) : inR f * inS g ∈ modeSpan (quadPairs N) quadPoly := by
  obtain ⟨c, hc⟩ := poly_span (α := 0) (β := 0) (by norm_num) (by norm_num) (by norm_num) N f hf
  obtain ⟨d, hd⟩ := poly_span (α := 0) (β := 0) (by norm_num) (by norm_num) (by norm_num) N g hg
  rw [hc, hd, map_sum, map_sum, Finset.sum_mul_sum]
  apply Submodule.sum_mem
  intro j hj
  apply Submodule.sum_mem
  intro i hi
  have hj' := Finset.mem_range.1 hj
  have hi' := Finset.mem_range.1 hi
  have e : inR (Polynomial.C (c j) * poly 0 0 j) * inS (Polynomial.C (d i) * poly 0 0 i) = C (c j * d i) * quadPoly (i, j) := by
    simp only [map_mul, quadPoly]
    simp only [inR, inS, Polynomial.aeval_C, algebraMap_eq]
    ring
  rw [e]
  apply C_mul_mem
  apply mem_modeSpan
  apply List.mem_of_getElem? (quadPairs_get (N := N) (i := i) (j := j) (by omega) (by omega))

/-- Every polynomial of degree at most `N` in each variable is a combination of the modes of the quadrilateral. -/
theorem quad_span (N : ℕ) (p : P2) (hp : ∀ i, p.degreeOf i ≤ N) : p ∈ modeSpan (quadPairs N) quadPoly := by
  rw [p.as_sum]
  apply Submodule.sum_mem
  intro m hm
  rw [monomial_two]
  apply C_mul_mem
  have h : ∀ i, m i ≤ N := fun i => (monomial_le_degreeOf i hm).trans (hp i)
  have e : (X 0 : P2) ^ m 0 * X 1 ^ m 1 = inR (Polynomial.X ^ m 0) * inS (Polynomial.X ^ m 1) := by simp [inR, inS]
  rw [e]
  apply inR_inS_mem <;> rw [Polynomial.natDegree_X_pow] <;> exact h _

end Blitzdg.DG2D
