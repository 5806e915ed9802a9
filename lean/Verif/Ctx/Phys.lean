import Verif.DG2D.RefProps
import Verif.DG2D.GeomProps
import Mathlib.Algebra.MvPolynomial.PDeriv

/-! Polynomials in the coordinates of the plane, pulled back to the reference triangle. -/

namespace Blitzdg.Ctx

open MvPolynomial
open Blitzdg.DG2D

/-- One coordinate of the map from the reference triangle, as a polynomial. -/
noncomputable def coordPoly (a b c : ℝ) : P2 := C (1 / 2) * (C (b + c)) + C ((b - a) / 2) * X 0 + C ((c - a) / 2) * X 1

theorem ev_coordPoly (a b c r s : ℝ) : ev r s (coordPoly a b c) = triCoord a b c r s := by
  simp [coordPoly, triCoord]; ring

/-- The polynomial `(r, s) ↦ u(x(r, s), y(r, s))`. -/
noncomputable def pull (T : Tri) (u : P2) : P2 := aeval ![coordPoly T.xa T.xb T.xc, coordPoly T.ya T.yb T.yc] u

/-- Its value at a point is the value of `u` at the image of the point. -/
theorem ev_pull (T : Tri) (u : P2) (r s : ℝ) : ev r s (pull T u) = ev (triCoord T.xa T.xb T.xc r s) (triCoord T.ya T.yb T.yc r s) u := by
  unfold pull
  induction u using MvPolynomial.induction_on with
  | C a => simp
  | add p q hp hq => rw [map_add, map_add, map_add, hp, hq]
  | mul_X p i hp =>
    rw [map_mul, map_mul, map_mul, hp, aeval_X, eval_X]
    congr 1
    fin_cases i
    · exact ev_coordPoly _ _ _ _ _
    · exact ev_coordPoly _ _ _ _ _

theorem coordPoly_degree (a b c : ℝ) : (coordPoly a b c).totalDegree ≤ 1 := by
  unfold coordPoly
  refine (totalDegree_add _ _).trans (max_le ((totalDegree_add _ _).trans (max_le ?_ ?_)) ?_)
  · rw [← C_mul, totalDegree_C]; omega
  · exact (totalDegree_mul _ _).trans (by rw [totalDegree_C, totalDegree_X])
  · exact (totalDegree_mul _ _).trans (by rw [totalDegree_C, totalDegree_X])

theorem pull_mul (T : Tri) (u v : P2) : pull T (u * v) = pull T u * pull T v := map_mul _ _ _

/-- Pulling back does not raise the degree. -/
theorem pull_degree (T : Tri) (u : P2) : (pull T u).totalDegree ≤ u.totalDegree := by
  have e : pull T u = ∑ m ∈ u.support, C (u.coeff m) * (coordPoly T.xa T.xb T.xc ^ m 0 * coordPoly T.ya T.yb T.yc ^ m 1) := by
    conv_lhs => rw [u.as_sum]
    unfold pull
    rw [map_sum]
    refine Finset.sum_congr rfl fun m _ => ?_
    rw [aeval_monomial, Finsupp.prod_fintype _ _ (by simp), Fin.prod_univ_two]
    rfl
  rw [e]
  refine (totalDegree_finsetSum _ _).trans (Finset.sup_le fun m hm => ?_)
  have hd : m 0 + m 1 ≤ u.totalDegree := by
    have := le_totalDegree hm
    rwa [Finsupp.sum_fintype _ _ (by simp), Fin.sum_univ_two] at this
  refine le_trans ?_ hd
  refine (totalDegree_mul _ _).trans ?_
  rw [totalDegree_C, zero_add]
  refine (totalDegree_mul _ _).trans (add_le_add ?_ ?_)
  · refine (totalDegree_pow _ _).trans ?_
    have := coordPoly_degree T.xa T.xb T.xc
    nlinarith
  · refine (totalDegree_pow _ _).trans ?_
    have := coordPoly_degree T.ya T.yb T.yc
    nlinarith

theorem pderiv_coordPoly (a b c : ℝ) : pderiv 0 (coordPoly a b c) = C ((b - a) / 2) ∧ pderiv 1 (coordPoly a b c) = C ((c - a) / 2) := by
  unfold coordPoly
  simp [Derivation.leibniz, pderiv_X]

/-- The chain rule. -/
theorem pderiv_pull (T : Tri) (u : P2) :
    pderiv 0 (pull T u) = C (triDerivOf T).xr * pull T (pderiv 0 u) + C (triDerivOf T).yr * pull T (pderiv 1 u) ∧
    pderiv 1 (pull T u) = C (triDerivOf T).xs * pull T (pderiv 0 u) + C (triDerivOf T).ys * pull T (pderiv 1 u) := by
  unfold pull
  obtain ⟨x0, x1⟩ := pderiv_coordPoly T.xa T.xb T.xc
  obtain ⟨y0, y1⟩ := pderiv_coordPoly T.ya T.yb T.yc
  induction u using MvPolynomial.induction_on with
  | C a => simp
  | add p q hp hq =>
    simp only [map_add, hp.1, hp.2, hq.1, hq.2]
    constructor <;> ring
  | mul_X p i hp =>
    simp only [map_mul, Derivation.leibniz, hp.1, hp.2, smul_eq_mul, aeval_X, map_add]
    fin_cases i
    · simp [pderiv_X, x0, x1, triDerivOf]
      constructor <;> ring
    · simp [pderiv_X, y0, y1, triDerivOf]
      constructor <;> ring

/-- The gradient in the plane from the derivatives on the reference triangle. -/
theorem grad_pull (T : Tri) (hT : cross T ≠ 0) (u : P2) (r s : ℝ) :
    metric (triDerivOf T) 0 0 * ev r s (pderiv 0 (pull T u)) + metric (triDerivOf T) 1 0 * ev r s (pderiv 1 (pull T u))
      = ev (triCoord T.xa T.xb T.xc r s) (triCoord T.ya T.yb T.yc r s) (pderiv 0 u) ∧
    metric (triDerivOf T) 0 1 * ev r s (pderiv 0 (pull T u)) + metric (triDerivOf T) 1 1 * ev r s (pderiv 1 (pull T u))
      = ev (triCoord T.xa T.xb T.xc r s) (triCoord T.ya T.yb T.yc r s) (pderiv 1 u) := by
  have hj : jac (triDerivOf T) ≠ 0 := by
    have : jac (triDerivOf T) = cross T / 4 := by simp only [jac, triDerivOf, cross]; ring
    rw [this]; exact div_ne_zero hT (by norm_num)
  rw [(pderiv_pull T u).1, (pderiv_pull T u).2]
  simp only [map_add, map_mul, eval_C, ← ev_pull]
  generalize ev r s (pull T (pderiv 0 u)) = a
  generalize ev r s (pull T (pderiv 1 u)) = b
  generalize triDerivOf T = d at hj
  simp only [metric, Matrix.of_apply, Matrix.cons_val', Matrix.cons_val_zero, Matrix.cons_val_one, Matrix.cons_val_fin_one]
  constructor
  · field_simp
    unfold jac
    ring
  · field_simp
    unfold jac
    ring

end Blitzdg.Ctx
