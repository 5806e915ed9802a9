import Verif.DG2D.ElementProps
import Mathlib.MeasureTheory.Integral.IntervalIntegral.FundThmCalculus
import Mathlib.Analysis.Calculus.Deriv.Polynomial
import Mathlib.Topology.Algebra.Polynomial
import Mathlib.RingTheory.Derivation.Lie

/-! The divergence theorem on the reference triangle, for polynomials. -/

namespace Blitzdg.SW

open MvPolynomial
open Blitzdg.DG2D

/-- Every polynomial is the derivative of a polynomial. -/
theorem exists_primitive (p : P2) : ∃ R : P2, pderiv 0 R = p := by
  induction p using MvPolynomial.induction_on' with
  | monomial m c =>
    refine ⟨monomial (m + Finsupp.single 0 1) (c / (m 0 + 1)), ?_⟩
    rw [pderiv_monomial]
    have h1 : m + Finsupp.single 0 1 - Finsupp.single 0 1 = m := by simp
    rw [h1]
    congr 1
    have : ((m 0 : ℝ) + 1) ≠ 0 := by positivity
    simp only [Finsupp.add_apply, Finsupp.single_eq_same]
    push_cast
    field_simp
  | add p q hp hq =>
    obtain ⟨R, hR⟩ := hp
    obtain ⟨S, hS⟩ := hq
    exact ⟨R + S, by rw [map_add, hR, hS]⟩

theorem pderiv_comm (p : P2) : pderiv 0 (pderiv 1 p) = pderiv 1 (pderiv 0 p) := by
  have h : ⁅(pderiv 0 : Derivation ℝ P2 P2), (pderiv 1 : Derivation ℝ P2 P2)⁆ = 0 := by
    apply MvPolynomial.derivation_ext
    intro i
    fin_cases i <;> simp [Derivation.commutator_apply, pderiv_X]
  have := congrArg (fun D : Derivation ℝ P2 P2 => D p) h
  simp only [Derivation.commutator_apply, Derivation.coe_zero, Pi.zero_apply] at this
  exact sub_eq_zero.1 this

/-- Chain rule along a line. -/
theorem hasDerivAt_line (p : P2) (a b : Polynomial ℝ) (t : ℝ) :
    HasDerivAt (fun t => ev (a.eval t) (b.eval t) p) (ev (a.eval t) (b.eval t) (pderiv 0 p) * a.derivative.eval t + ev (a.eval t) (b.eval t) (pderiv 1 p) * b.derivative.eval t) t := by
  induction p using MvPolynomial.induction_on with
  | C c => simpa using hasDerivAt_const t c
  | add p q hp hq =>
    simp only [map_add]
    refine (hp.add hq).congr_deriv ?_
    ring
  | mul_X p i hp =>
    simp only [map_mul, Derivation.leibniz, map_add, smul_eq_mul]
    fin_cases i
    · refine ((hp.mul (a.hasDerivAt t)).congr_of_eventuallyEq ?_).congr_deriv ?_
      · exact Filter.Eventually.of_forall fun t => by simp
      · simp; ring
    · refine ((hp.mul (b.hasDerivAt t)).congr_of_eventuallyEq ?_).congr_deriv ?_
      · exact Filter.Eventually.of_forall fun t => by simp
      · simp; ring

theorem continuous_line (p : P2) (a b : Polynomial ℝ) : Continuous fun t => ev (a.eval t) (b.eval t) p := by
  refine continuous_iff_continuousAt.2 fun t => (hasDerivAt_line p a b t).continuousAt

/-- Inner integral. -/
theorem inner_int (R : P2) (s : ℝ) : ∫ r in (-1 : ℝ)..(-s), ev r s (pderiv 0 R) = ev (-s) s R - ev (-1) s R := by
  have h : ∀ r, HasDerivAt (fun r => ev r s R) (ev r s (pderiv 0 R)) r := by
    intro r
    have := hasDerivAt_line R Polynomial.X (Polynomial.C s) r
    simpa using this
  have hc : Continuous fun r => ev r s (pderiv 0 R) := by
    have := continuous_line (pderiv 0 R) Polynomial.X (Polynomial.C s)
    simpa using this
  rw [intervalIntegral.integral_eq_sub_of_hasDerivAt (f := fun r => ev r s R) (fun r _ => h r) (hc.intervalIntegrable _ _)]

theorem face1_cont (p : P2) : Continuous fun s : ℝ => ev (-s) s p := by
  have := continuous_line p (-Polynomial.X) Polynomial.X
  simpa using this

theorem face2_cont (p : P2) : Continuous fun s : ℝ => ev (-1) s p := by
  have := continuous_line p (Polynomial.C (-1)) Polynomial.X
  simpa using this

/-- The divergence theorem, first variable: the integral of a derivative is the difference of the integrals over the hypotenuse and the left side. -/
theorem green_r (p : P2) : integ triInt (pderiv 0 p) = (∫ s in (-1 : ℝ)..1, ev (-s) s p) - ∫ s in (-1 : ℝ)..1, ev (-1) s p := by
  unfold integ triInt
  simp only [inner_int]
  rw [intervalIntegral.integral_sub ((face1_cont p).intervalIntegrable _ _) ((face2_cont p).intervalIntegrable _ _)]

/-- Second variable: hypotenuse and bottom. -/
theorem green_s (p : P2) : integ triInt (pderiv 1 p) = (∫ s in (-1 : ℝ)..1, ev (-s) s p) - ∫ r in (-1 : ℝ)..1, ev r (-1) p := by
  obtain ⟨R, hR⟩ := exists_primitive p
  have hcomm : pderiv 0 (pderiv 1 R) = pderiv 1 p := by
    rw [← hR]
    exact pderiv_comm R
  unfold integ triInt
  have e1 : ∀ s : ℝ, ∫ r in (-1 : ℝ)..(-s), ev r s (pderiv 1 p) = ev (-s) s (pderiv 1 R) - ev (-1) s (pderiv 1 R) := by
    intro s; rw [← hcomm, inner_int]
  simp only [e1]
  have hd : ∀ s : ℝ, HasDerivAt (fun s => ev (-s) s R - ev (-1) s R) (-ev (-s) s p + ev (-s) s (pderiv 1 R) - ev (-1) s (pderiv 1 R)) s := by
    intro s
    have h1 := hasDerivAt_line R (-Polynomial.X) Polynomial.X s
    have h2 := hasDerivAt_line R (Polynomial.C (-1)) Polynomial.X s
    have h3 := h1.sub h2
    rw [hR] at h3
    refine (h3.congr_of_eventuallyEq (Filter.Eventually.of_forall fun t => by simp)).congr_deriv ?_
    simp
  have hc : Continuous fun s : ℝ => -ev (-s) s p + ev (-s) s (pderiv 1 R) - ev (-1) s (pderiv 1 R) :=
    (((face1_cont p).neg).add (face1_cont (pderiv 1 R))).sub (face2_cont (pderiv 1 R))
  have hi := intervalIntegral.integral_eq_sub_of_hasDerivAt (a := (-1 : ℝ)) (b := 1) (f := fun s => ev (-s) s R - ev (-1) s R) (fun s _ => hd s)
    (hc.intervalIntegrable _ _)
  have hb : ∫ r in (-1 : ℝ)..1, ev r (-1) p = ev 1 (-1) R - ev (-1) (-1) R := by
    have := inner_int R (-1)
    rw [neg_neg, hR] at this
    exact this
  have hs : ∀ s : ℝ, ev (-s) s (pderiv 1 R) - ev (-1) s (pderiv 1 R) = (-ev (-s) s p + ev (-s) s (pderiv 1 R) - ev (-1) s (pderiv 1 R)) + ev (-s) s p := by intro s; ring
  rw [intervalIntegral.integral_congr (g := fun s => (-ev (-s) s p + ev (-s) s (pderiv 1 R) - ev (-1) s (pderiv 1 R)) + ev (-s) s p) (fun s _ => hs s),
    intervalIntegral.integral_add (hc.intervalIntegrable _ _) ((face1_cont p).intervalIntegrable _ _),
    hi, hb]
  norm_num
  ring

end Blitzdg.SW
