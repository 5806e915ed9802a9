import Verif.Poisson.Model
import Verif.SW.Conserve
import Mathlib.Tactic.LinearCombination

/-! Piecewise polynomials in physical coordinates, and what the reference matrices do to their nodal values. -/

namespace Blitzdg.Poisson

open MvPolynomial
open Blitzdg.Sparse (DMat rowMajor)
open Blitzdg.Nodes1D (Lapack vandermonde trans)
open Blitzdg.Dense (toMat)
open Blitzdg.DG2D
open Blitzdg.SW (Grid Mesh GridSpec gridX gridY faceEnds lerp ori nrm across faceLen)

/-! ### Integrals, specification -/

/-- The point of element `T` at reference coordinates `(r, s)`: barycentric combination of the corners. -/
noncomputable def place (T : Tri) (r s : ℝ) : ℝ × ℝ :=
  (-(r + s) / 2 * T.xa + (1 + r) / 2 * T.xb + (1 + s) / 2 * T.xc, -(r + s) / 2 * T.ya + (1 + r) / 2 * T.yb + (1 + s) / 2 * T.yc)

/-- Integral over the triangle `T` of a function of position: the reference triangle, of area 2, is mapped onto `T`, of area `cross T / 2`. -/
noncomputable def triIntegral (T : Tri) (h : ℝ × ℝ → ℝ) : ℝ := cross T / 4 * triInt fun r s => h (place T r s)

/-- Length of a segment. -/
noncomputable def segLen (e : (ℝ × ℝ) × (ℝ × ℝ)) : ℝ := SW.hypot (e.1.1 - e.2.1) (e.1.2 - e.2.2)

/-- Unit normal of a segment, to the right of its direction: out of an element whose boundary is run through counterclockwise. -/
noncomputable def segNormal (e : (ℝ × ℝ) × (ℝ × ℝ)) : ℝ × ℝ := ((e.2.2 - e.1.2) / segLen e, -(e.2.1 - e.1.1) / segLen e)

/-- Integral over a segment of a function of position. -/
noncomputable def segIntegral (e : (ℝ × ℝ) × (ℝ × ℝ)) (h : ℝ × ℝ → ℝ) : ℝ := segLen e / 2 * ∫ t in (-1 : ℝ)..1, h (lerp e t)

/-- Value of a polynomial at a point of the plane. -/
noncomputable def val (U : P2) (z : ℝ × ℝ) : ℝ := ev z.1 z.2 U

/-- Derivative in the direction `n`. -/
noncomputable def dn (n : ℝ × ℝ) (U : P2) : P2 := C n.1 * pderiv 0 U + C n.2 * pderiv 1 U

/-- `U k` is the polynomial of degree at most `N` in `x`, `y` which takes the nodal values `u · k` on element `k`. -/
def IsField (g : Grid) (u : ℕ → ℕ → ℝ) (U : ℕ → P2) : Prop :=
  ∀ k < g.K, (U k).totalDegree ≤ g.N ∧ ∀ i < g.np, val (U k) (gridX (g.tri k) g.n i, gridY (g.tri k) g.n i) = u i k

/-! ### Pull back to the reference triangle -/

/-- Affine polynomial. -/
noncomputable def aff (a b c : ℝ) : P2 := C a + C b * X 0 + C c * X 1

theorem aff_deg (a b c : ℝ) : (aff a b c).totalDegree ≤ 1 := by
  unfold aff
  refine (totalDegree_add _ _).trans (max_le ((totalDegree_add _ _).trans (max_le ?_ ?_)) ?_)
  · rw [totalDegree_C]; omega
  · refine (totalDegree_mul _ _).trans ?_
    rw [totalDegree_C, totalDegree_X]
  · refine (totalDegree_mul _ _).trans ?_
    rw [totalDegree_C, totalDegree_X]

/-- Substitution of affine polynomials. -/
noncomputable def subst (A B : P2) : P2 →ₐ[ℝ] P2 := aeval ![A, B]

theorem ev_subst (A B U : P2) (r s : ℝ) : ev r s (subst A B U) = ev (ev r s A) (ev r s B) U := by
  unfold subst
  induction U using MvPolynomial.induction_on with
  | C c => simp
  | add p q hp hq => simp only [map_add, hp, hq]
  | mul_X p i hp =>
    simp only [map_mul, hp, aeval_X, eval_X]
    fin_cases i <;> simp

theorem subst_deg (A B U : P2) (hA : A.totalDegree ≤ 1) (hB : B.totalDegree ≤ 1) : (subst A B U).totalDegree ≤ U.totalDegree := by
  unfold subst
  rw [aeval_def, eval₂_eq]
  refine totalDegree_finsetSum_le fun m hm => ?_
  refine (totalDegree_mul _ _).trans ?_
  rw [algebraMap_eq, totalDegree_C, zero_add]
  refine (totalDegree_finsetProd _ _).trans ?_
  have h1 : ∑ i ∈ m.support, (![A, B] i ^ m i).totalDegree ≤ ∑ i ∈ m.support, m i := by
    refine Finset.sum_le_sum fun i _ => ?_
    refine (totalDegree_pow _ _).trans ?_
    have : (![A, B] i).totalDegree ≤ 1 := by fin_cases i <;> simpa
    nlinarith
  exact h1.trans (le_totalDegree hm)

theorem pderiv_subst (A B U : P2) (i : Fin 2) :
    pderiv i (subst A B U) = subst A B (pderiv 0 U) * pderiv i A + subst A B (pderiv 1 U) * pderiv i B := by
  unfold subst
  induction U using MvPolynomial.induction_on with
  | C c => simp
  | add p q hp hq => simp only [map_add, hp, hq]; ring
  | mul_X p j hp =>
    simp only [map_mul, Derivation.leibniz, aeval_X, smul_eq_mul, hp, map_add]
    fin_cases j <;> simp <;> ring

/-- `U` as a function of the reference coordinates of `T`. -/
noncomputable def pull (T : Tri) : P2 →ₐ[ℝ] P2 :=
  subst (aff ((T.xb + T.xc) / 2) ((T.xb - T.xa) / 2) ((T.xc - T.xa) / 2)) (aff ((T.yb + T.yc) / 2) ((T.yb - T.ya) / 2) ((T.yc - T.ya) / 2))

theorem ev_pull (T : Tri) (U : P2) (r s : ℝ) : ev r s (pull T U) = val U (place T r s) := by
  unfold pull val
  rw [ev_subst]
  have h : ∀ a b c : ℝ, ev r s (aff a b c) = a + b * r + c * s := fun a b c => by simp [aff]
  rw [h, h]
  unfold place
  congr 2
  · simp only; ring
  · simp only; ring

theorem pull_deg (T : Tri) (U : P2) : (pull T U).totalDegree ≤ U.totalDegree := subst_deg _ _ _ (aff_deg _ _ _) (aff_deg _ _ _)

theorem pderiv_aff (a b c : ℝ) : pderiv 0 (aff a b c) = C b ∧ pderiv 1 (aff a b c) = C c := by
  unfold aff
  constructor <;> simp [pderiv_X]

theorem pderiv_pull (T : Tri) (U : P2) :
    pderiv 0 (pull T U) = C (triDerivOf T).xr * pull T (pderiv 0 U) + C (triDerivOf T).yr * pull T (pderiv 1 U) ∧
    pderiv 1 (pull T U) = C (triDerivOf T).xs * pull T (pderiv 0 U) + C (triDerivOf T).ys * pull T (pderiv 1 U) := by
  unfold pull
  constructor
  · rw [pderiv_subst, (pderiv_aff _ _ _).1, (pderiv_aff _ _ _).1]
    unfold triDerivOf; ring
  · rw [pderiv_subst, (pderiv_aff _ _ _).2, (pderiv_aff _ _ _).2]
    unfold triDerivOf; ring

theorem place_node (T : Tri) (n : RefNodes) (i : ℕ) : place T (n.r.getD i 0) (n.s.getD i 0) = (gridX T n i, gridY T n i) := by
  unfold place gridX gridY triCoord
  ext <;> simp only <;> ring

theorem nodal_pull (T : Tri) (n : RefNodes) (U : P2) (i : ℕ) : nodal n.r n.s (pull T U) i = val U (gridX T n i, gridY T n i) := by
  unfold nodal
  rw [ev_pull, place_node]

/-- The inverse affine map. -/
noncomputable def push (T : Tri) : P2 →ₐ[ℝ] P2 :=
  subst (aff ((2 * (-(T.xb + T.xc) / 2 * (T.yc - T.ya) + (T.yb + T.yc) / 2 * (T.xc - T.xa))) / cross T) (2 * (T.yc - T.ya) / cross T) (-(2 * (T.xc - T.xa)) / cross T))
    (aff ((2 * ((T.xb + T.xc) / 2 * (T.yb - T.ya) - (T.yb + T.yc) / 2 * (T.xb - T.xa))) / cross T) (-(2 * (T.yb - T.ya)) / cross T) (2 * (T.xb - T.xa) / cross T))

theorem push_deg (T : Tri) (U : P2) : (push T U).totalDegree ≤ U.totalDegree := subst_deg _ _ _ (aff_deg _ _ _) (aff_deg _ _ _)

theorem val_push (T : Tri) (hT : cross T ≠ 0) (U : P2) (r s : ℝ) : val (push T U) (place T r s) = ev r s U := by
  unfold push val
  rw [ev_subst]
  have h : ∀ a b c x y : ℝ, ev x y (aff a b c) = a + b * x + c * y := fun a b c x y => by simp [aff]
  rw [h, h]
  have hc : cross T = (T.xb - T.xa) * (T.yc - T.ya) - (T.xc - T.xa) * (T.yb - T.ya) := by unfold cross; ring
  congr 2
  · unfold place
    field_simp
    rw [hc]; ring
  · unfold place
    field_simp
    rw [hc]; ring

end Blitzdg.Poisson
