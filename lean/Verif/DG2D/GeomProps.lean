import Verif.DG2D.Geom
import Mathlib.Tactic.Ring
import Mathlib.Tactic.Linarith
import Mathlib.Tactic.FieldSimp
import Mathlib.Tactic.FinCases
import Mathlib.Tactic.LinearCombination

/-! Properties C42 (mapping and metric terms) and C43 (normals). -/

namespace Blitzdg.DG2D

/-! ### Specification -/

/-- Twice the signed area of the triangle with the given vertices (positive for counter-clockwise order). -/
def cross (T : Tri) : ℝ := (T.xb - T.xa) * (T.yc - T.ya) - (T.xc - T.xa) * (T.yb - T.ya)

/-- The differentiation matrices are exact on polynomials of degree one. -/
structure ExactLinear {np : Nat} (Dr Ds : Matrix (Fin np) (Fin np) ℝ) (r s : Fin np → ℝ) : Prop where
  r1 : Dr.mulVec (fun _ => 1) = fun _ => 0
  rr : Dr.mulVec r = fun _ => 1
  rs : Dr.mulVec s = fun _ => 0
  s1 : Ds.mulVec (fun _ => 1) = fun _ => 0
  sr : Ds.mulVec r = fun _ => 0
  ss : Ds.mulVec s = fun _ => 1

/-- ... and on the bilinear monomial as well. -/
structure ExactBilinear {np : Nat} (Dr Ds : Matrix (Fin np) (Fin np) ℝ) (r s : Fin np → ℝ) : Prop extends ExactLinear Dr Ds r s where
  rrs : Dr.mulVec (fun i => r i * s i) = s
  srs : Ds.mulVec (fun i => r i * s i) = r

/-- Nodes of a triangle. -/
noncomputable def triNodes {np : Nat} (T : Tri) (r s : Fin np → ℝ) : (Fin np → ℝ) × (Fin np → ℝ) :=
  (fun i => triCoord T.xa T.xb T.xc (r i) (s i), fun i => triCoord T.ya T.yb T.yc (r i) (s i))

/-- Nodes of a quadrilateral. -/
noncomputable def quadNodes {np : Nat} (Q : Quad) (r s : Fin np → ℝ) : (Fin np → ℝ) × (Fin np → ℝ) :=
  (fun i => quadCoord Q.xa Q.xb Q.xc Q.xd (r i) (s i), fun i => quadCoord Q.ya Q.yb Q.yc Q.yd (r i) (s i))

/-- Jacobian matrix `[xr xs; yr ys]` of the mapping. -/
def jacMat (d : Deriv) : Matrix (Fin 2) (Fin 2) ℝ := !![d.xr, d.xs; d.yr, d.ys]

/-! ### Derivatives at the nodes -/

theorem mulVec_lin {np : Nat} (D : Matrix (Fin np) (Fin np) ℝ) (u v w : Fin np → ℝ) (a b c : ℝ) (i : Fin np) :
    D.mulVec (fun j => a * u j + b * v j + c * w j) i = a * D.mulVec u i + b * D.mulVec v i + c * D.mulVec w i := by
  simp only [Matrix.mulVec, dotProduct, Finset.mul_sum, ← Finset.sum_add_distrib]
  exact Finset.sum_congr rfl fun j _ => by ring

theorem triDeriv {np : Nat} {Dr Ds : Matrix (Fin np) (Fin np) ℝ} {r s : Fin np → ℝ} (h : ExactLinear Dr Ds r s) (T : Tri) (i : Fin np) :
    derivAt Dr Ds (triNodes T r s).1 (triNodes T r s).2 i
      = { xr := (T.xb - T.xa) / 2, xs := (T.xc - T.xa) / 2, yr := (T.yb - T.ya) / 2, ys := (T.yc - T.ya) / 2 } := by
  have key : ∀ (D : Matrix (Fin np) (Fin np) ℝ) (a b c : ℝ), D.mulVec (fun i => triCoord a b c (r i) (s i)) i
      = (b + c) / 2 * D.mulVec (fun _ => 1) i + (b - a) / 2 * D.mulVec r i + (c - a) / 2 * D.mulVec s i := by
    intro D a b c
    rw [← mulVec_lin]
    congr 1
    funext j; simp only [triCoord]; ring
  simp only [derivAt, triNodes, key, h.r1, h.rr, h.rs, h.s1, h.sr, h.ss]
  congr 1 <;> ring

theorem mulVec_lin4 {np : Nat} (D : Matrix (Fin np) (Fin np) ℝ) (u v w z : Fin np → ℝ) (a b c e : ℝ) (i : Fin np) :
    D.mulVec (fun j => a * u j + b * v j + c * w j + e * z j) i
      = a * D.mulVec u i + b * D.mulVec v i + c * D.mulVec w i + e * D.mulVec z i := by
  simp only [Matrix.mulVec, dotProduct, Finset.mul_sum, ← Finset.sum_add_distrib]
  exact Finset.sum_congr rfl fun j _ => by ring

/-- Exact partial derivatives of the bilinear map. -/
noncomputable def quadDeriv (Q : Quad) (r s : ℝ) : Deriv where
  xr := ((1 - s) * (Q.xb - Q.xa) + (1 + s) * (Q.xc - Q.xd)) / 4
  xs := ((1 - r) * (Q.xd - Q.xa) + (1 + r) * (Q.xc - Q.xb)) / 4
  yr := ((1 - s) * (Q.yb - Q.ya) + (1 + s) * (Q.yc - Q.yd)) / 4
  ys := ((1 - r) * (Q.yd - Q.ya) + (1 + r) * (Q.yc - Q.yb)) / 4

theorem quadDeriv_eq {np : Nat} {Dr Ds : Matrix (Fin np) (Fin np) ℝ} {r s : Fin np → ℝ} (h : ExactBilinear Dr Ds r s) (Q : Quad)
    (i : Fin np) : derivAt Dr Ds (quadNodes Q r s).1 (quadNodes Q r s).2 i = quadDeriv Q (r i) (s i) := by
  have key : ∀ (D : Matrix (Fin np) (Fin np) ℝ) (a b c d : ℝ), D.mulVec (fun i => quadCoord a b c d (r i) (s i)) i
      = (a + b + c + d) / 4 * D.mulVec (fun _ => 1) i + (b + c - a - d) / 4 * D.mulVec r i + (c + d - a - b) / 4 * D.mulVec s i
        + (a + c - b - d) / 4 * D.mulVec (fun j => r j * s j) i := by
    intro D a b c d
    rw [← mulVec_lin4]
    congr 1
    funext j; simp only [quadCoord]; ring
  simp only [derivAt, quadNodes, key, h.r1, h.rr, h.rs, h.s1, h.sr, h.ss, h.rrs, h.srs, quadDeriv]
  congr 1 <;> ring

/-! ### C42 -/

/-- The metric terms are the inverse of the Jacobian matrix wherever `J ≠ 0`. -/
theorem C42_inverse (d : Deriv) (h : jac d ≠ 0) : metric d * jacMat d = 1 ∧ jacMat d * metric d = 1 := by
  have h1 : metric d * jacMat d = 1 := by
    ext i j
    fin_cases i <;> fin_cases j <;> simp [metric, jacMat, Matrix.mul_apply, Fin.sum_univ_two] <;> field_simp <;> unfold jac <;> ring
  exact ⟨h1, mul_eq_one_comm.1 h1⟩

/-- C42 for triangles: for all vertex coordinates and every node set on which the differentiation matrices are exact for linear
functions, the map sends the reference vertices (-1,-1), (1,-1), (-1,1) to the three vertices in order, `J` at every node is
half the signed area, hence positive exactly for counter-clockwise vertices, and where it is nonzero the metric terms invert
the Jacobian matrix of the mapping. -/
theorem C42_tri {np : Nat} (Dr Ds : Matrix (Fin np) (Fin np) ℝ) (r s : Fin np → ℝ) (h : ExactLinear Dr Ds r s) (T : Tri) :
    (triCoord T.xa T.xb T.xc (-1) (-1) = T.xa ∧ triCoord T.xa T.xb T.xc 1 (-1) = T.xb ∧ triCoord T.xa T.xb T.xc (-1) 1 = T.xc) ∧
    (triCoord T.ya T.yb T.yc (-1) (-1) = T.ya ∧ triCoord T.ya T.yb T.yc 1 (-1) = T.yb ∧ triCoord T.ya T.yb T.yc (-1) 1 = T.yc) ∧
    ∀ i, let d := derivAt Dr Ds (triNodes T r s).1 (triNodes T r s).2 i
      jacMat d = !![(T.xb - T.xa) / 2, (T.xc - T.xa) / 2; (T.yb - T.ya) / 2, (T.yc - T.ya) / 2] ∧
      jac d = (cross T / 2) / 2 ∧ (0 < jac d ↔ 0 < cross T) ∧ (cross T ≠ 0 → metric d * jacMat d = 1 ∧ jacMat d * metric d = 1) := by
  refine ⟨⟨?_, ?_, ?_⟩, ⟨?_, ?_, ?_⟩, fun i => ?_⟩
  · simp only [triCoord]; ring
  · simp only [triCoord]; ring
  · simp only [triCoord]; ring
  · simp only [triCoord]; ring
  · simp only [triCoord]; ring
  · simp only [triCoord]; ring
  · simp only [triDeriv h]
    have hj : jac { xr := (T.xb - T.xa) / 2, xs := (T.xc - T.xa) / 2, yr := (T.yb - T.ya) / 2, ys := (T.yc - T.ya) / 2 }
        = (cross T / 2) / 2 := by unfold jac cross; ring
    refine ⟨rfl, hj, ?_, fun hne => C42_inverse _ ?_⟩
    · rw [hj]; constructor <;> intro h <;> linarith
    · rw [hj]; exact div_ne_zero (div_ne_zero hne two_ne_zero) two_ne_zero

/-- Corner Jacobian of a quadrilateral at vertex `p` with successor `q` and predecessor `o`, times 4. -/
def corner (xo yo xp yp xq yq : ℝ) : ℝ := (xq - xp) * (yo - yp) - (xo - xp) * (yq - yp)

/-- Strictly convex with counter-clockwise vertices. -/
def ConvexCcw (Q : Quad) : Prop :=
  0 < corner Q.xd Q.yd Q.xa Q.ya Q.xb Q.yb ∧ 0 < corner Q.xa Q.ya Q.xb Q.yb Q.xc Q.yc ∧
  0 < corner Q.xb Q.yb Q.xc Q.yc Q.xd Q.yd ∧ 0 < corner Q.xc Q.yc Q.xd Q.yd Q.xa Q.ya

theorem quad_jac_pos (Q : Quad) (hQ : ConvexCcw Q) (r s : ℝ) (hr : |r| ≤ 1) (hs : |s| ≤ 1) : 0 < jac (quadDeriv Q r s) := by
  obtain ⟨h1, h2, h3, h4⟩ := hQ
  obtain ⟨r1, r2⟩ := abs_le.1 hr
  obtain ⟨s1, s2⟩ := abs_le.1 hs
  have e : jac (quadDeriv Q r s) = ((1 - r) * (1 - s) * corner Q.xd Q.yd Q.xa Q.ya Q.xb Q.yb
      + (1 + r) * (1 - s) * corner Q.xa Q.ya Q.xb Q.yb Q.xc Q.yc + (1 + r) * (1 + s) * corner Q.xb Q.yb Q.xc Q.yc Q.xd Q.yd
      + (1 - r) * (1 + s) * corner Q.xc Q.yc Q.xd Q.yd Q.xa Q.ya) / 16 := by
    simp only [jac, quadDeriv, corner]; ring
  set c1 := corner Q.xd Q.yd Q.xa Q.ya Q.xb Q.yb
  set c2 := corner Q.xa Q.ya Q.xb Q.yb Q.xc Q.yc
  set c3 := corner Q.xb Q.yb Q.xc Q.yc Q.xd Q.yd
  set c4 := corner Q.xc Q.yc Q.xd Q.yd Q.xa Q.ya
  rw [e]
  have a1 : 0 ≤ (1 - r) * (1 - s) := mul_nonneg (by linarith) (by linarith)
  have a2 : 0 ≤ (1 + r) * (1 - s) := mul_nonneg (by linarith) (by linarith)
  have a3 : 0 ≤ (1 + r) * (1 + s) := mul_nonneg (by linarith) (by linarith)
  have a4 : 0 ≤ (1 - r) * (1 + s) := mul_nonneg (by linarith) (by linarith)
  have hm : ∃ m, 0 < m ∧ m ≤ c1 ∧ m ≤ c2 ∧ m ≤ c3 ∧ m ≤ c4 :=
    ⟨min (min c1 c2) (min c3 c4), lt_min (lt_min h1 h2) (lt_min h3 h4), (min_le_left _ _).trans (min_le_left _ _),
      (min_le_left _ _).trans (min_le_right _ _), (min_le_right _ _).trans (min_le_left _ _), (min_le_right _ _).trans (min_le_right _ _)⟩
  obtain ⟨m, hm, m1, m2, m3, m4⟩ := hm
  have b1 := mul_le_mul_of_nonneg_left m1 a1
  have b2 := mul_le_mul_of_nonneg_left m2 a2
  have b3 := mul_le_mul_of_nonneg_left m3 a3
  have b4 := mul_le_mul_of_nonneg_left m4 a4
  have hsum : (1 - r) * (1 - s) * m + (1 + r) * (1 - s) * m + (1 + r) * (1 + s) * m + (1 - r) * (1 + s) * m = 4 * m := by ring
  linarith

/-- C42 for quadrilaterals: the map sends the four reference corners to the four vertices in order; at every node the computed
Jacobian matrix is the exact one; for a strictly convex counter-clockwise quadrilateral `J` is positive at every node of the
reference square, and the metric terms invert the Jacobian matrix. -/
theorem C42_quad {np : Nat} (Dr Ds : Matrix (Fin np) (Fin np) ℝ) (r s : Fin np → ℝ) (h : ExactBilinear Dr Ds r s) (Q : Quad) :
    (∀ a b c d : ℝ, quadCoord a b c d (-1) (-1) = a ∧ quadCoord a b c d 1 (-1) = b ∧ quadCoord a b c d 1 1 = c ∧
      quadCoord a b c d (-1) 1 = d) ∧
    ∀ i, let d := derivAt Dr Ds (quadNodes Q r s).1 (quadNodes Q r s).2 i
      d = quadDeriv Q (r i) (s i) ∧ (jac d ≠ 0 → metric d * jacMat d = 1 ∧ jacMat d * metric d = 1) ∧
      (ConvexCcw Q → |r i| ≤ 1 → |s i| ≤ 1 → 0 < jac d) := by
  refine ⟨fun a b c d => ⟨?_, ?_, ?_, ?_⟩, fun i => ⟨quadDeriv_eq h Q i, fun hj => C42_inverse _ hj, fun hQ hr hs => ?_⟩⟩
  · simp only [quadCoord]; ring
  · simp only [quadCoord]; ring
  · simp only [quadCoord]; ring
  · simp only [quadCoord]; ring
  · rw [quadDeriv_eq h]; exact quad_jac_pos Q hQ _ _ hr hs

/-- The derivative of the bilinear map really is `quadDeriv`. -/
theorem quadDeriv_hasDeriv (a b c d r s h : ℝ) :
    quadCoord a b c d (r + h) s = quadCoord a b c d r s + h * (((1 - s) * (b - a) + (1 + s) * (c - d)) / 4) ∧
    quadCoord a b c d r (s + h) = quadCoord a b c d r s + h * (((1 - r) * (d - a) + (1 + r) * (c - b)) / 4) := by
  constructor <;> (simp only [quadCoord]; ring)

/-! ### C43 -/

/-- Ends of the faces of a triangle: face 1 is `ab`, face 2 is `bc`, face 3 is `ca`. -/
def triEnds (T : Tri) (f : Fin 3) : (ℝ × ℝ) × (ℝ × ℝ) :=
  match f with
  | 0 => ((T.xa, T.ya), (T.xb, T.yb))
  | 1 => ((T.xb, T.yb), (T.xc, T.yc))
  | 2 => ((T.xc, T.yc), (T.xa, T.ya))

/-- The vertex not on the face. -/
def triOpp (T : Tri) (f : Fin 3) : ℝ × ℝ :=
  match f with
  | 0 => (T.xc, T.yc)
  | 1 => (T.xa, T.ya)
  | 2 => (T.xb, T.yb)

def dot (u v : ℝ × ℝ) : ℝ := u.1 * v.1 + u.2 * v.2

/-- `p` moved towards nothing: the difference of two points. -/
def sub2 (u v : ℝ × ℝ) : ℝ × ℝ := (u.1 - v.1, u.2 - v.2)

/-- Point with barycentric coordinates. -/
def bary (p q o : ℝ × ℝ) (α β γ : ℝ) : ℝ × ℝ := (α * p.1 + β * q.1 + γ * o.1, α * p.2 + β * q.2 + γ * o.2)

theorem len_eq {v : ℝ × ℝ} : len v * len v = v.1 * v.1 + v.2 * v.2 :=
  Real.mul_self_sqrt (by nlinarith [mul_self_nonneg v.1, mul_self_nonneg v.2])

theorem len_pos {v : ℝ × ℝ} (h : v.1 ≠ 0 ∨ v.2 ≠ 0) : 0 < len v := by
  apply Real.sqrt_pos.2
  rcases h with h | h
  · have := mul_self_pos.2 h; nlinarith [mul_self_nonneg v.2]
  · have := mul_self_pos.2 h; nlinarith [mul_self_nonneg v.1]

theorem unit_len {v : ℝ × ℝ} (h : 0 < len v) : dot (unit v) (unit v) = 1 := by
  simp only [dot, unit]
  field_simp
  have := len_eq (v := v)
  nlinarith

theorem len_unit_smul {v : ℝ × ℝ} (h : 0 < len v) : (len v * (unit v).1, len v * (unit v).2) = v := by
  simp only [unit]
  refine Prod.ext ?_ ?_ <;> simp only <;> field_simp

theorem dot_unit {v w : ℝ × ℝ} : dot (unit v) w = dot v w / len v := by
  simp only [dot, unit]; ring

theorem len_half (x y : ℝ) : len (x / 2, y / 2) = len (x, y) / 2 := by
  unfold len
  have : x / 2 * (x / 2) + y / 2 * (y / 2) = (x * x + y * y) / 2 ^ 2 := by ring
  rw [this, Real.sqrt_div (by nlinarith [mul_self_nonneg x, mul_self_nonneg y]), Real.sqrt_sq (by norm_num)]

theorem len_neg (x y : ℝ) : len (x, -y) = len (y, x) := by
  unfold len; congr 1; ring

/-- The unnormalised normals of a triangle in terms of its vertices. -/
noncomputable def triDerivOf (T : Tri) : Deriv :=
  { xr := (T.xb - T.xa) / 2, xs := (T.xc - T.xa) / 2, yr := (T.yb - T.ya) / 2, ys := (T.yc - T.ya) / 2 }

theorem triNormal_eq (T : Tri) (f : Fin 3) :
    triNormal f (triDerivOf T) = (((triEnds T f).2.2 - (triEnds T f).1.2) / 2, -(((triEnds T f).2.1 - (triEnds T f).1.1) / 2)) := by
  fin_cases f <;> simp [triNormal, triEnds, triDerivOf] <;> (try constructor) <;> ring

theorem cross_face (T : Tri) (f : Fin 3) :
    ((triEnds T f).2.1 - (triEnds T f).1.1) * ((triOpp T f).2 - (triEnds T f).1.2)
      - ((triOpp T f).1 - (triEnds T f).1.1) * ((triEnds T f).2.2 - (triEnds T f).1.2) = cross T := by
  fin_cases f <;> simp [triEnds, triOpp, cross] <;> ring

theorem triNormal_len (T : Tri) (f : Fin 3) :
    len (triNormal f (triDerivOf T)) = len (sub2 (triEnds T f).2 (triEnds T f).1) / 2 := by
  rw [triNormal_eq, len_neg, len_half]; rfl

theorem triNormal_pos (T : Tri) (hT : cross T ≠ 0) (f : Fin 3) : 0 < len (triNormal f (triDerivOf T)) := by
  rw [triNormal_len]
  apply half_pos
  apply len_pos
  by_contra hcon
  push Not at hcon
  obtain ⟨h1, h2⟩ := hcon
  simp only [sub2] at h1 h2
  apply hT
  rw [← cross_face T f, h1, h2]; ring

/-- C43.  For every counter-clockwise triangle and every node set with exact linear differentiation: the normals at every node of
every face have unit length and the surface Jacobian (`norm`) is half the length of the face; they point outward: every point
of the triangle lies behind the line through the face, and the opposite vertex strictly so; `Fscale` is the surface Jacobian over
`J`; and the normals weighted by the surface Jacobians sum to zero over the faces. -/
theorem C43_tri {np : Nat} (Dr Ds : Matrix (Fin np) (Fin np) ℝ) (r s : Fin np → ℝ) (h : ExactLinear Dr Ds r s) (T : Tri)
    (hT : 0 < cross T) :
    (∀ (f : Fin 3) (i : Fin np), let d := derivAt Dr Ds (triNodes T r s).1 (triNodes T r s).2 i
      let v := triNormal f d
      dot (unit v) (unit v) = 1 ∧ len v = len (sub2 (triEnds T f).2 (triEnds T f).1) / 2 ∧
      dot (unit v) (sub2 (triEnds T f).2 (triEnds T f).1) = 0 ∧
      (∀ α β γ t : ℝ, 0 ≤ γ → α + β + γ = 1 →
        dot (unit v) (sub2 (bary (triEnds T f).1 (triEnds T f).2 (triOpp T f) α β γ)
          (bary (triEnds T f).1 (triEnds T f).2 (triOpp T f) (1 - t) t 0)) ≤ 0) ∧
      dot (unit v) (sub2 (triOpp T f) (triEnds T f).1) < 0 ∧ 0 < fscale v d ∧ fscale v d * jac d = len v) ∧
    (∀ i : Fin 3 → Fin np, let d := fun f => derivAt Dr Ds (triNodes T r s).1 (triNodes T r s).2 (i f)
      ∑ f, len (triNormal f (d f)) * (unit (triNormal f (d f))).1 = 0 ∧
      ∑ f, len (triNormal f (d f)) * (unit (triNormal f (d f))).2 = 0) := by
  have hd : ∀ i, derivAt Dr Ds (triNodes T r s).1 (triNodes T r s).2 i = triDerivOf T := fun i => triDeriv h T i
  have hj : jac (triDerivOf T) = cross T / 4 := by simp only [jac, triDerivOf, cross]; ring
  refine ⟨fun f i => ?_, fun i => ?_⟩
  · simp only [hd]
    have hp := triNormal_pos T hT.ne' f
    have hc := cross_face T f
    refine ⟨unit_len hp, triNormal_len T f, ?_, ?_, ?_, ?_, ?_⟩
    · rw [dot_unit, triNormal_eq]
      simp only [dot, sub2]
      rw [div_eq_zero_iff]; left; ring
    · intro α β γ t hγ hsum
      rw [dot_unit]
      apply div_nonpos_of_nonpos_of_nonneg _ hp.le
      have e : dot (triNormal f (triDerivOf T)) (sub2 (bary (triEnds T f).1 (triEnds T f).2 (triOpp T f) α β γ)
          (bary (triEnds T f).1 (triEnds T f).2 (triOpp T f) (1 - t) t 0)) = -(γ * cross T) / 2 := by
        have hα : α = 1 - β - γ := by linarith
        rw [← hc, triNormal_eq, hα]
        simp only [dot, sub2, bary]; ring
      rw [e]
      have := mul_nonneg hγ hT.le
      linarith
    · rw [dot_unit]
      apply div_neg_of_neg_of_pos _ hp
      have e : dot (triNormal f (triDerivOf T)) (sub2 (triOpp T f) (triEnds T f).1) = -(cross T) / 2 := by
        rw [← hc, triNormal_eq]
        simp only [dot, sub2]; ring
      rw [e]; linarith
    · unfold fscale; rw [hj]; exact div_pos hp (by linarith)
    · unfold fscale; rw [hj]; field_simp
  · simp only [hd]
    have hs : ∀ f, len (triNormal f (triDerivOf T)) * (unit (triNormal f (triDerivOf T))).1 = (triNormal f (triDerivOf T)).1 ∧
        len (triNormal f (triDerivOf T)) * (unit (triNormal f (triDerivOf T))).2 = (triNormal f (triDerivOf T)).2 := by
      intro f
      have := len_unit_smul (triNormal_pos T hT.ne' f)
      exact ⟨congrArg Prod.fst this, congrArg Prod.snd this⟩
    simp only [fun f => (hs f).1, fun f => (hs f).2, Fin.sum_univ_three]
    simp only [triNormal, triDerivOf]
    constructor <;> ring

/-- The Gauss face points get the same normals and surface Jacobians as the nodal faces, whenever `J > 0`. -/
theorem C43_gauss (f : Fin 3) (d : Deriv) (hJ : 0 < jac d) :
    unit (gaussNormal f d) = unit (triNormal f d) ∧ gaussSJ f d = len (triNormal f d) := by
  have hv : gaussNormal f d = ((triNormal f d).1 / jac d, (triNormal f d).2 / jac d) := by
    fin_cases f <;> simp [gaussNormal, triNormal, metric] <;> (try constructor) <;> ring
  have hl : len (gaussNormal f d) = len (triNormal f d) / jac d := by
    rw [hv]
    unfold len
    have e : (triNormal f d).1 / jac d * ((triNormal f d).1 / jac d) + (triNormal f d).2 / jac d * ((triNormal f d).2 / jac d)
        = ((triNormal f d).1 * (triNormal f d).1 + (triNormal f d).2 * (triNormal f d).2) / jac d ^ 2 := by
      field_simp
    simp only [e]
    rw [Real.sqrt_div (by nlinarith [mul_self_nonneg (triNormal f d).1, mul_self_nonneg (triNormal f d).2]), Real.sqrt_sq hJ.le]
  constructor
  · unfold unit
    rw [hl, hv]
    simp only [Prod.mk.injEq]
    constructor <;> exact div_div_div_cancel_right₀ hJ.ne' _ _
  · unfold gaussSJ; rw [hl]; field_simp

/-- Ends of the faces of a quadrilateral, counter-clockwise. -/
def quadEnds (Q : Quad) (f : Fin 4) : (ℝ × ℝ) × (ℝ × ℝ) :=
  match f with
  | 0 => ((Q.xa, Q.ya), (Q.xb, Q.yb))
  | 1 => ((Q.xb, Q.yb), (Q.xc, Q.yc))
  | 2 => ((Q.xc, Q.yc), (Q.xd, Q.yd))
  | 3 => ((Q.xd, Q.yd), (Q.xa, Q.ya))

/-- Reference coordinates of the faces: `s=-1`, `r=1`, `s=1`, `r=-1`. -/
def OnQuadFace (f : Fin 4) (r s : ℝ) : Prop :=
  match f with
  | 0 => s = -1
  | 1 => r = 1
  | 2 => s = 1
  | 3 => r = -1

theorem quadNormal_eq (Q : Quad) (f : Fin 4) (r s : ℝ) (hf : OnQuadFace f r s) : quadNormal f (quadDeriv Q r s)
    = (((quadEnds Q f).2.2 - (quadEnds Q f).1.2) / 2, -(((quadEnds Q f).2.1 - (quadEnds Q f).1.1) / 2)) := by
  fin_cases f <;> simp only [OnQuadFace] at hf <;> subst hf <;> simp [quadNormal, quadEnds, quadDeriv] <;> (try constructor) <;> ring

/-- C43 for quadrilaterals: on the nodes of a face of a strictly convex counter-clockwise quadrilateral the normal is the unit outward
normal of the straight face (both other vertices lie strictly behind it), the surface Jacobian is half the length of the face, and
the weighted normals of the four faces sum to zero. -/
theorem C43_quad {np : Nat} (Dr Ds : Matrix (Fin np) (Fin np) ℝ) (r s : Fin np → ℝ) (h : ExactBilinear Dr Ds r s) (Q : Quad)
    (hQ : ConvexCcw Q) :
    (∀ (f : Fin 4) (i : Fin np), OnQuadFace f (r i) (s i) →
      let v := quadNormal f (derivAt Dr Ds (quadNodes Q r s).1 (quadNodes Q r s).2 i)
      dot (unit v) (unit v) = 1 ∧ len v = len (sub2 (quadEnds Q f).2 (quadEnds Q f).1) / 2 ∧
      dot (unit v) (sub2 (quadEnds Q f).2 (quadEnds Q f).1) = 0 ∧
      dot (unit v) (sub2 (quadEnds Q (f + 1)).2 (quadEnds Q f).1) < 0 ∧ dot (unit v) (sub2 (quadEnds Q (f + 2)).2 (quadEnds Q f).1) < 0) ∧
    (∀ i : Fin 4 → Fin np, (∀ f, OnQuadFace f (r (i f)) (s (i f))) →
      let v := fun f => quadNormal f (derivAt Dr Ds (quadNodes Q r s).1 (quadNodes Q r s).2 (i f))
      ∑ f, len (v f) * (unit (v f)).1 = 0 ∧ ∑ f, len (v f) * (unit (v f)).2 = 0) := by
  have hpos : ∀ f r s, OnQuadFace f r s → 0 < len (quadNormal f (quadDeriv Q r s)) := by
    intro f r s hf
    rw [quadNormal_eq Q f r s hf, len_neg, len_half]
    apply half_pos
    apply len_pos
    by_contra hcon
    push Not at hcon
    obtain ⟨h1, h2⟩ := hcon
    obtain ⟨q1, q2, q3, q4⟩ := hQ
    fin_cases f <;> simp only [quadEnds] at h1 h2
    · simp only [corner, h1, h2] at q1; linarith
    · simp only [corner, h1, h2] at q2; linarith
    · simp only [corner, h1, h2] at q3; linarith
    · simp only [corner, h1, h2] at q4; linarith
  refine ⟨fun f i hf => ?_, fun i hi => ?_⟩
  · rw [quadDeriv_eq h]
    have hp := hpos f _ _ hf
    have he := quadNormal_eq Q f _ _ hf
    refine ⟨unit_len hp, by rw [he, len_neg, len_half]; rfl, ?_, ?_, ?_⟩
    · rw [dot_unit, he]
      simp only [dot, sub2]
      rw [div_eq_zero_iff]; left; ring
    · rw [dot_unit]
      apply div_neg_of_neg_of_pos _ hp
      rw [he]
      obtain ⟨q1, q2, q3, q4⟩ := hQ
      fin_cases f <;> simp [quadEnds, dot, sub2, corner] at * <;> linarith
    · rw [dot_unit]
      apply div_neg_of_neg_of_pos _ hp
      rw [he]
      obtain ⟨q1, q2, q3, q4⟩ := hQ
      fin_cases f <;> simp [quadEnds, dot, sub2, corner] at * <;> linarith
  · simp only [quadDeriv_eq h]
    have hs : ∀ f, len (quadNormal f (quadDeriv Q (r (i f)) (s (i f)))) * (unit (quadNormal f (quadDeriv Q (r (i f)) (s (i f))))).1
          = ((quadEnds Q f).2.2 - (quadEnds Q f).1.2) / 2 ∧
        len (quadNormal f (quadDeriv Q (r (i f)) (s (i f)))) * (unit (quadNormal f (quadDeriv Q (r (i f)) (s (i f))))).2
          = -(((quadEnds Q f).2.1 - (quadEnds Q f).1.1) / 2) := by
      intro f
      have h1 := len_unit_smul (hpos f _ _ (hi f))
      have h2 := quadNormal_eq Q f _ _ (hi f)
      constructor
      · exact (congrArg Prod.fst h1).trans (congrArg Prod.fst h2)
      · exact (congrArg Prod.snd h1).trans (congrArg Prod.snd h2)
    simp only [fun f => (hs f).1, fun f => (hs f).2, Fin.sum_univ_four]
    simp only [quadEnds]
    constructor <;> ring

/-! ### The hypotheses can be met -/

/-- Three-node triangle: nodes (-1,-1), (1,-1), (-1,1). -/
noncomputable def demoDr : Matrix (Fin 3) (Fin 3) ℝ := !![-1/2, 1/2, 0; -1/2, 1/2, 0; -1/2, 1/2, 0]
noncomputable def demoDs : Matrix (Fin 3) (Fin 3) ℝ := !![-1/2, 0, 1/2; -1/2, 0, 1/2; -1/2, 0, 1/2]

theorem demo_exact : ExactLinear demoDr demoDs ![-1, 1, -1] ![-1, -1, 1] := by
  constructor <;> funext i <;> fin_cases i <;>
    simp [demoDr, demoDs, Matrix.mulVec, dotProduct, Fin.sum_univ_three] <;> norm_num

/-- A counter-clockwise triangle. -/
example : 0 < cross ⟨0, 0, 2, 0, 0, 1⟩ := by norm_num [cross]

/-- A strictly convex counter-clockwise quadrilateral. -/
example : ConvexCcw ⟨0, 0, 2, 0, 3, 2, 0, 1⟩ := by norm_num [ConvexCcw, corner]

/-- Four-node square: nodes (-1,-1), (1,-1), (1,1), (-1,1). -/
noncomputable def demoDr4 : Matrix (Fin 4) (Fin 4) ℝ := !![-1/2, 1/2, 0, 0; -1/2, 1/2, 0, 0; 0, 0, 1/2, -1/2; 0, 0, 1/2, -1/2]
noncomputable def demoDs4 : Matrix (Fin 4) (Fin 4) ℝ := !![-1/2, 0, 0, 1/2; 0, -1/2, 1/2, 0; 0, -1/2, 1/2, 0; -1/2, 0, 0, 1/2]

theorem demo_exact4 : ExactBilinear demoDr4 demoDs4 ![-1, 1, 1, -1] ![-1, -1, 1, 1] := by
  refine ⟨⟨?_, ?_, ?_, ?_, ?_, ?_⟩, ?_, ?_⟩ <;> funext i <;> fin_cases i <;>
    simp [demoDr4, demoDs4, Matrix.mulVec, dotProduct, Fin.sum_univ_four] <;> norm_num

end Blitzdg.DG2D
