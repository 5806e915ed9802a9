import Verif.Ctx.Gauss
import Verif.Ctx.CubatureProps
import Verif.Jacobi.GaussSymm

/-! C94: the Gauss face context of a triangle grid. -/

namespace Blitzdg.Ctx

open MvPolynomial
open Blitzdg.Sparse (DMat)
open Blitzdg.Nodes1D (Lapack uncaught)
open Blitzdg.Dense (toMat)
open Blitzdg.DG2D
open Blitzdg.SW
open Blitzdg.Jacobi (GaussRule)

/-! ### Specification -/

/-- Length of a segment. -/
noncomputable def segLen (e : (ℝ × ℝ) × (ℝ × ℝ)) : ℝ := hypot (e.1.1 - e.2.1) (e.1.2 - e.2.2)

/-- Integral of `u` along a segment. -/
noncomputable def along (e : (ℝ × ℝ) × (ℝ × ℝ)) (u : P2) : ℝ := segLen e / 2 * ∫ t in (-1 : ℝ)..1, ev (lerp e t).1 (lerp e t).2 u

/-- Position of the point with number `c + 3*NGauss*k`. -/
def pointAt (c : GaussFace) (p : ℕ) : ℝ × ℝ := (c.x.at' (p % (3 * c.n)) (p / (3 * c.n)), c.y.at' (p % (3 * c.n)) (p / (3 * c.n)))

/-- Value of `u` at point `i` (row) of element `k`. -/
noncomputable def atGauss (c : GaussFace) (u : P2) (k i : ℕ) : ℝ := ev (c.x.at' i k) (c.y.at' i k) u

/-- What a Gauss face context has to provide on a grid of counter-clockwise triangles with faces paired by `P` and tags `bt`; `u`, `a`, `b` are polynomials in the coordinates of the plane.  Faces are
run through from first to second end, counter-clockwise. -/
structure GaussSpec (g : Grid) (P : ℕ → ℕ) (bt : List Int) (NG : ℕ) (c : GaussFace) : Prop where
  count : c.n = NG
  /-- On every face of every element the points are strictly inside the face, in counter-clockwise order, at the same relative positions, symmetric to the midpoint. -/
  place : ∃ z : ℕ → ℝ, (∀ i < NG, -1 < z i ∧ z i < 1) ∧ (∀ i j, i < j → j < NG → z i < z j) ∧ (∀ i < NG, z (NG - 1 - i) = -z i) ∧
    ∀ k < g.K, ∀ f < 3, ∀ i < NG, (c.x.at' (f * NG + i) k, c.y.at' (f * NG + i) k) = lerp (faceEnds (g.tri k) f) (z i)
  /-- `Interp` takes nodal values to values at the points ... -/
  interp : ∀ u : P2, u.totalDegree ≤ g.N → ∀ i < 3 * NG, ∀ k < g.K, ∑ j ∈ Finset.range g.np, c.interp.at' i j * atNode g u k j = atGauss c u k i
  /-- ... and followed by the metric terms takes nodal r- and s-derivatives to derivatives at the points. -/
  gradx : ∀ u : P2, u.totalDegree ≤ g.N → ∀ i < 3 * NG, ∀ k < g.K,
    ∑ j ∈ Finset.range g.np, (c.rx.at' i k * (mul c.interp g.o.d.Dr).at' i j + c.sx.at' i k * (mul c.interp g.o.d.Ds).at' i j) * atNode g u k j = atGauss c (pderiv 0 u) k i
  grady : ∀ u : P2, u.totalDegree ≤ g.N → ∀ i < 3 * NG, ∀ k < g.K,
    ∑ j ∈ Finset.range g.np, (c.ry.at' i k * (mul c.interp g.o.d.Dr).at' i j + c.sy.at' i k * (mul c.interp g.o.d.Ds).at' i j) * atNode g u k j = atGauss c (pderiv 1 u) k i
  jac : ∀ i < 3 * NG, ∀ k < g.K, c.J.at' i k = cross (g.tri k) / 4
  /-- The normals are the directions of the faces turned clockwise by a right angle, which is outward, and of unit length. -/
  normal : ∀ k < g.K, ∀ f < 3, ∀ i < NG, c.nx.at' (f * NG + i) k * segLen (faceEnds (g.tri k) f) = (faceEnds (g.tri k) f).2.2 - (faceEnds (g.tri k) f).1.2 ∧
    c.ny.at' (f * NG + i) k * segLen (faceEnds (g.tri k) f) = -((faceEnds (g.tri k) f).2.1 - (faceEnds (g.tri k) f).1.1) ∧ 0 < segLen (faceEnds (g.tri k) f)
  surf : ∀ k < g.K, ∀ f < 3, ∀ i < NG, c.sJ.at' (f * NG + i) k = segLen (faceEnds (g.tri k) f) / 2
  /-- The weights are symmetric to the midpoint and differ between faces only by the length of the face, ... -/
  weights : ∃ w : ℕ → ℝ, (∀ i < NG, w (NG - 1 - i) = w i) ∧ ∀ k < g.K, ∀ f < 3, ∀ i < NG, c.W.at' (f * NG + i) k = w i * (segLen (faceEnds (g.tri k) f) / 2)
  /-- ... positive and integrate polynomials up to degree `2*NGauss - 1` along every face. -/
  pos : ∀ i < 3 * NG, ∀ k < g.K, 0 < c.W.at' i k
  quad : ∀ u : P2, u.totalDegree ≤ 2 * NG - 1 → ∀ k < g.K, ∀ f < 3, ∑ i ∈ Finset.range NG, c.W.at' (f * NG + i) k * atGauss c u k (f * NG + i) = along (faceEnds (g.tri k) f) u
  /-- The divergence theorem holds exactly for such polynomials. -/
  green : ∀ a b : P2, a.totalDegree ≤ 2 * NG - 1 → b.totalDegree ≤ 2 * NG - 1 → ∀ k < g.K,
    ∑ i ∈ Finset.range (3 * NG), c.W.at' i k * (c.nx.at' i k * atGauss c a k i + c.ny.at' i k * atGauss c b k i) = over (g.tri k) (pderiv 0 a + pderiv 1 b)
  /-- Point `i` of face `e = 3 k + f` has number `NGauss*e + i`. -/
  mapM : c.mapM = List.range (NG * 3 * g.K)
  lenP : c.mapP.length = NG * 3 * g.K
  /-- Across an interior face `mapP` finds the point of the neighbour at the same place, where weights agree and normals are opposite ... -/
  mapP : ∀ e < 3 * g.K, ∀ i < NG, P e ≠ e → ∃ i' < NG, c.mapP[NG * e + i]? = some (NG * P e + i') ∧ c.mapP[NG * P e + i']? = some (NG * e + i) ∧
    pointAt c (NG * P e + i') = pointAt c (NG * e + i) ∧
    c.W.at' (P e % 3 * NG + i') (P e / 3) = c.W.at' (e % 3 * NG + i) (e / 3) ∧
    c.nx.at' (P e % 3 * NG + i') (P e / 3) = -c.nx.at' (e % 3 * NG + i) (e / 3) ∧ c.ny.at' (P e % 3 * NG + i') (P e / 3) = -c.ny.at' (e % 3 * NG + i) (e / 3)
  /-- ... and on a boundary face the point itself. -/
  mapB : ∀ e < 3 * g.K, ∀ i < NG, P e = e → c.mapP[NG * e + i]? = some (NG * e + i)
  /-- Every boundary point is listed, once, under the tag of its face, and nothing else is listed. -/
  tags : ∀ t, ((c.bc t).getD []).Nodup ∧ ∀ p, p ∈ (c.bc t).getD [] ↔ ∃ e i, e < 3 * g.K ∧ i < NG ∧ P e = e ∧ bt[e]? = some t ∧ p = NG * e + i

/-! ### Pieces -/

/-- Gauss points of the reference triangle. -/
def refPt (f : ℕ) (t : ℝ) : ℝ × ℝ := if f = 0 then (t, -1) else if f = 1 then (-t, t) else (-1, -t)

theorem refPt_coord (T : Tri) (f : ℕ) (hf : f < 3) (t : ℝ) :
    (triCoord T.xa T.xb T.xc (refPt f t).1 (refPt f t).2, triCoord T.ya T.yb T.yc (refPt f t).1 (refPt f t).2) = lerp (faceEnds T f) t := by
  rcases (by omega : f = 0 ∨ f = 1 ∨ f = 2) with rfl | rfl | rfl <;> simp [refPt, triCoord, lerp, faceEnds] <;> constructor <;> ring

theorem face_list (f : ℕ) (hf : f < 3) (z : List ℝ) (i : ℕ) (hi : i < z.length) : ((faceR f z).getD i 0, (faceS f z).getD i 0) = refPt f (z.getD i 0) := by
  have hg : z.getD i 0 = z[i] := List.getD_eq_getElem _ _ hi
  have hm : ∀ φ : ℝ → ℝ, (z.map φ).getD i 0 = φ z[i] := fun φ => getD_map z φ i hi
  rcases (by omega : f = 0 ∨ f = 1 ∨ f = 2) with rfl | rfl | rfl
  · simp only [refPt, faceR, faceS, if_pos, hm, hg]
    norm_num
  · simp only [refPt, faceR, faceS, if_neg (show (1 : ℕ) ≠ 0 by omega), if_pos, hm, hg]
  · simp only [refPt, faceR, faceS, if_neg (show (2 : ℕ) ≠ 0 by omega), if_neg (show (2 : ℕ) ≠ 1 by omega), hm, hg]
    norm_num

theorem face_len (f : ℕ) (z : List ℝ) : (faceR f z).length = z.length ∧ (faceS f z).length = z.length := by
  unfold faceR faceS
  split_ifs <;> simp

theorem face_reg (f : ℕ) (hf : f < 3) (z : List ℝ) (h : ∀ i < z.length, -1 < z.getD i 0 ∧ z.getD i 0 < 1) : AllReg Regular (faceR f z) (faceS f z) := by
  intro i hi
  rw [(face_len f z).1] at hi
  have e := face_list f hf z i hi
  have e1 : (faceR f z).getD i 0 = (refPt f (z.getD i 0)).1 := congrArg Prod.fst e
  have e2 : (faceS f z).getD i 0 = (refPt f (z.getD i 0)).2 := congrArg Prod.snd e
  rw [e1, e2]
  obtain ⟨h1, h2⟩ := h i hi
  generalize z.getD i 0 = t at *
  apply regular_of_mem
  · rcases (by omega : f = 0 ∨ f = 1 ∨ f = 2) with rfl | rfl | rfl <;> simp [refPt] <;> linarith
  · rcases (by omega : f = 0 ∨ f = 1 ∨ f = 2) with rfl | rfl | rfl <;> simp [refPt] <;> linarith

theorem row_div {NG f i : ℕ} (hi : i < NG) : (f * NG + i) / NG = f ∧ (f * NG + i) % NG = i := by
  constructor
  · rw [Nat.add_comm, Nat.add_mul_div_right _ _ (by omega), Nat.div_eq_of_lt hi, Nat.zero_add]
  · rw [Nat.add_comm, Nat.add_mul_mod_self_right, Nat.mod_eq_of_lt hi]

variable {P : ℕ → ℕ} {x : List ℝ} {bt : List Int} {g : Grid}

theorem gauss_interp_exact (hg : GridSpec P x bt g) (z : List ℝ) (NG : ℕ) (hz : z.length = NG) (hin : ∀ i < NG, -1 < z.getD i 0 ∧ z.getD i 0 < 1) (p : P2) (hp : TriSpace g.N p) (f : ℕ) (hf : f < 3)
    (i : ℕ) (hi : i < NG) :
    ∑ j ∈ Finset.range g.np, (gaussInterp g NG z).at' (f * NG + i) j * nodal g.n.r g.n.s p j = ev (refPt f (z.getD i 0)).1 (refPt f (z.getD i 0)).2 p := by
  have h1 := interp_exact (triModal g.N) g.n.r g.n.s (faceR f z) (faceS f z) ((triPairs_length _).trans hg.nodes.symm) hg.reg (face_reg f hf z (by rw [hz]; exact hin)) g.o.Vinv
    (by rw [hg.nodes]; exact hg.unisolvent) p hp i (by rw [(face_len f z).1, hz]; exact hi)
  rw [hg.nodes] at h1
  have e := face_list f hf z i (by omega)
  have e1 : (faceR f z).getD i 0 = (refPt f (z.getD i 0)).1 := congrArg Prod.fst e
  have e2 : (faceS f z).getD i 0 = (refPt f (z.getD i 0)).2 := congrArg Prod.snd e
  rw [← e1, ← e2]
  refine Eq.trans ?_ h1
  unfold gaussInterp
  simp only [(row_div hi).1, (row_div hi).2]
  rfl

theorem gauss_deriv_exact (hg : GridSpec P x bt g) (z : List ℝ) (NG : ℕ) (hz : z.length = NG) (hin : ∀ i < NG, -1 < z.getD i 0 ∧ z.getD i 0 < 1) (p : P2) (hp : TriSpace g.N p) (f : ℕ) (hf : f < 3)
    (i : ℕ) (hi : i < NG) :
    ∑ j ∈ Finset.range g.np, (gaussDiff g (gaussInterp g NG z)).Dr.at' (f * NG + i) j * nodal g.n.r g.n.s p j = ev (refPt f (z.getD i 0)).1 (refPt f (z.getD i 0)).2 (pderiv 0 p) ∧
    ∑ j ∈ Finset.range g.np, (gaussDiff g (gaussInterp g NG z)).Ds.at' (f * NG + i) j * nodal g.n.r g.n.s p j = ev (refPt f (z.getD i 0)).1 (refPt f (z.getD i 0)).2 (pderiv 1 p) := by
  have sp : ∀ a, TriSpace g.N (pderiv a p) := fun a => tri_closed _ _ _ hp
  have key : ∀ (D : DMat ℝ) (q : P2), TriSpace g.N q → (∀ l < g.np, ∑ j ∈ Finset.range g.np, D.at' l j * nodal g.n.r g.n.s p j = nodal g.n.r g.n.s q l) →
      ∑ j ∈ Finset.range g.np, (mul (gaussInterp g NG z) D).at' (f * NG + i) j * nodal g.n.r g.n.s p j = ev (refPt f (z.getD i 0)).1 (refPt f (z.getD i 0)).2 q := by
    intro D q hq h
    rw [← gauss_interp_exact hg z NG hz hin q hq f hf i hi]
    unfold mul
    simp only [Finset.sum_mul]
    rw [Finset.sum_comm]
    refine Finset.sum_congr rfl fun l hl => ?_
    rw [← h l (Finset.mem_range.1 hl), Finset.mul_sum]
    refine Finset.sum_congr rfl fun j _ => ?_
    ring
  have hn := hg.nodes
  refine ⟨key _ _ (sp 0) fun l hl => ?_, key _ _ (sp 1) fun l hl => ?_⟩
  · have := hg.elem.diff.dr p hp l (by omega)
    rwa [hn] at this
  · have := hg.elem.diff.ds p hp l (by omega)
    rwa [hn] at this

theorem gauss_cubDeriv (hg : GridSpec P x bt g) (z : List ℝ) (NG : ℕ) (hz : z.length = NG) (hin : ∀ i < NG, -1 < z.getD i 0 ∧ z.getD i 0 < 1) (f : ℕ) (hf : f < 3) (i : ℕ) (hi : i < NG) (k : ℕ) :
    cubDeriv g (gaussDiff g (gaussInterp g NG z)) (f * NG + i) k = triDerivOf (g.tri k) := by
  have e1 := fun a b c => (gauss_deriv_exact hg z NG hz hin _ (coord_space hg a b c) f hf i hi).1
  have e2 := fun a b c => (gauss_deriv_exact hg z NG hz hin _ (coord_space hg a b c) f hf i hi).2
  unfold cubDeriv gridX gridY
  simp only [coord_nodal, e1, e2, (pderiv_coordPoly _ _ _).1, (pderiv_coordPoly _ _ _).2]
  simp [triDerivOf]

theorem faceNormal_eq (T : Tri) (hT : 0 < cross T) (f : ℕ) : unit (faceNormal f (triDerivOf T)) = unit (nrm T f) ∧ len (faceNormal f (triDerivOf T)) * jac (triDerivOf T) = len (nrm T f) := by
  have hj : 0 < jac (triDerivOf T) := by rw [jac_triDerivOf]; linarith
  unfold faceNormal nrm rawNormal
  split_ifs
  · exact C43_gauss 0 _ hj
  · exact C43_gauss 1 _ hj
  · exact C43_gauss 2 _ hj

/-- A polynomial along a line is a polynomial of the parameter. -/
theorem line_poly (e : (ℝ × ℝ) × (ℝ × ℝ)) (u : P2) (d : ℕ) (hd : u.totalDegree ≤ d) : ∃ p : Polynomial ℝ, p.natDegree ≤ d ∧ ∀ t, p.eval t = ev (lerp e t).1 (lerp e t).2 u := by
  let L : ℝ → ℝ → Polynomial ℝ := fun a b => Polynomial.C ((a + b) / 2) + Polynomial.C ((b - a) / 2) * Polynomial.X
  have hL : ∀ a b, (L a b).natDegree ≤ 1 := by
    intro a b
    refine Polynomial.natDegree_add_le_of_degree_le ?_ ?_
    · rw [Polynomial.natDegree_C]; omega
    · exact (Polynomial.natDegree_C_mul_le _ _).trans Polynomial.natDegree_X_le
  refine ⟨aeval ![L e.1.1 e.2.1, L e.1.2 e.2.2] u, ?_, fun t => ?_⟩
  · have := aeval_natDegree_le (n := 1) u hd ![L e.1.1 e.2.1, L e.1.2 e.2.2] (by intro i; fin_cases i <;> exact hL _ _)
    omega
  · rw [eval_aeval]
    congr 2
    · simp only [L, lerp, Polynomial.eval_add, Polynomial.eval_mul, Polynomial.eval_C, Polynomial.eval_X]; ring_nf
    · simp only [L, lerp, Polynomial.eval_add, Polynomial.eval_mul, Polynomial.eval_C, Polynomial.eval_X]; ring_nf

/-- The divergence theorem on a triangle of the plane. -/
theorem green_tri (T : Tri) (a b : P2) :
    ∑ f ∈ Finset.range 3, ((nrm T f).1 * ∫ t in (-1 : ℝ)..1, ev (lerp (faceEnds T f) t).1 (lerp (faceEnds T f) t).2 a) +
      ∑ f ∈ Finset.range 3, ((nrm T f).2 * ∫ t in (-1 : ℝ)..1, ev (lerp (faceEnds T f) t).1 (lerp (faceEnds T f) t).2 b) = over T (pderiv 0 a + pderiv 1 b) := by
  have hline : ∀ u : P2, ∀ f < 3, ∫ t in (-1 : ℝ)..1, ev (lerp (faceEnds T f) t).1 (lerp (faceEnds T f) t).2 u = ∫ t in (-1 : ℝ)..1, ev (refPt f t).1 (refPt f t).2 (pull T u) := by
    intro u f hf
    congr 1
    funext t
    rw [ev_pull, ← refPt_coord T f hf t]
  have h0 : ∀ u : P2, ∫ t in (-1 : ℝ)..1, ev (refPt 0 t).1 (refPt 0 t).2 u = ∫ r in (-1 : ℝ)..1, ev r (-1) u := fun u => by simp [refPt]
  have h1 : ∀ u : P2, ∫ t in (-1 : ℝ)..1, ev (refPt 1 t).1 (refPt 1 t).2 u = ∫ s in (-1 : ℝ)..1, ev (-s) s u := fun u => by simp [refPt]
  have h2 : ∀ u : P2, ∫ t in (-1 : ℝ)..1, ev (refPt 2 t).1 (refPt 2 t).2 u = ∫ s in (-1 : ℝ)..1, ev (-1) s u := fun u => by
    simp only [refPt, if_neg (show (2 : ℕ) ≠ 0 by omega), if_neg (show (2 : ℕ) ≠ 1 by omega)]
    exact int_neg fun s => ev (-1) s u
  rw [Finset.sum_range_succ, Finset.sum_range_succ, Finset.sum_range_one, Finset.sum_range_succ, Finset.sum_range_succ, Finset.sum_range_one]
  simp only [hline a 0 (by omega), hline a 1 (by omega), hline a 2 (by omega), hline b 0 (by omega), hline b 1 (by omega), hline b 2 (by omega), h0, h1, h2]
  have hadd : over T (pderiv 0 a + pderiv 1 b) = cross T / 4 * (integ triInt (pull T (pderiv 0 a)) + integ triInt (pull T (pderiv 1 b))) := by
    unfold over
    rw [show pull T (pderiv 0 a + pderiv 1 b) = pull T (pderiv 0 a) + pull T (pderiv 1 b) from map_add _ _ _]
    congr 1
    exact triInt_add _ _
  rw [hadd]
  have hsmul : ∀ c p, integ triInt (C c * p) = c * integ triInt p := triInt_smul
  have hadd' : ∀ p q, integ triInt (p + q) = integ triInt p + integ triInt q := triInt_add
  have ra := green_r (pull T a)
  have sa := green_s (pull T a)
  have rb := green_r (pull T b)
  have sb := green_s (pull T b)
  rw [(pderiv_pull T _).1, hadd', hsmul, hsmul] at ra rb
  rw [(pderiv_pull T _).2, hadd', hsmul, hsmul] at sa sb
  have hj : cross T / 4 = (triDerivOf T).xr * (triDerivOf T).ys - (triDerivOf T).xs * (triDerivOf T).yr := by rw [← jac_triDerivOf]; rfl
  rw [hj]
  have n0 : nrm T 0 = ((triDerivOf T).yr, -(triDerivOf T).xr) := rfl
  have n1 : nrm T 1 = ((triDerivOf T).ys - (triDerivOf T).yr, -(triDerivOf T).xs + (triDerivOf T).xr) := rfl
  have n2 : nrm T 2 = (-(triDerivOf T).ys, (triDerivOf T).xs) := rfl
  rw [n0, n1, n2]
  generalize triDerivOf T = d at *
  linear_combination -d.ys * ra + d.yr * sa + d.xs * rb - d.xr * sb

/-! ### The theorem -/

/-- The outcome of the construction for given Gauss points. -/
theorem gauss_spec {m : Mesh} (hm : m.Ok P) (hg : GridSpec P x m.bcType g) (hK : g.K = m.K) (NG : ℕ) (hNG : 1 ≤ NG) (z w : List ℝ) (hz : GaussRule 0 0 NG z w) (la : Lapack) (eps : ℝ)
    (hq : Jacobi.quadWeights la.query la.dsyevd 0 0 eps (NG - 1) (zeros NG) (zeros NG) = .ok (.ret (z, w))) : ∃ c, buildGauss la eps g m NG = .ok c ∧ GaussSpec g P m.bcType NG c := by
  obtain ⟨r, hr, hlen, hint, hbd, hinv, htag, -⟩ := C41_gauss NG 3 m.K (by omega) m.E m.F m.bcType P hm.conn hm.lenBc
  rw [← hK] at hr hlen hint hbd hinv htag
  have hin := hz.inside
  have hder := fun f hf i hi k => gauss_cubDeriv hg z NG hz.lx hin f hf i hi k
  refine ⟨_, by unfold buildGauss; rw [hq, Out.bind_ok]; change ((gaussMaps NG 3 g.K m.E m.F m.bcType) >>= _) = _; rw [hr, Out.bind_ok]; rfl, ?_⟩
  set V := gaussInterp g NG z with hV
  -- rows by face and point
  have hrow : ∀ c < 3 * NG, ∃ f < 3, ∃ i < NG, c = f * NG + i := by
    intro c hc
    exact ⟨c / NG, Nat.div_lt_of_lt_mul (by rwa [Nat.mul_comm] at hc), c % NG, Nat.mod_lt _ (by omega), by rw [Nat.mul_comm]; exact (Nat.div_add_mod _ _).symm⟩
  have hpos : ∀ f < 3, ∀ i < NG, ∀ k, (∑ j ∈ Finset.range g.np, V.at' (f * NG + i) j * gridX (g.tri k) g.n j, ∑ j ∈ Finset.range g.np, V.at' (f * NG + i) j * gridY (g.tri k) g.n j) =
      lerp (faceEnds (g.tri k) f) (z.getD i 0) := by
    intro f hf i hi k
    rw [← refPt_coord (g.tri k) f hf]
    unfold gridX gridY
    simp only [coord_nodal, gauss_interp_exact hg z NG hz.lx hin _ (coord_space hg _ _ _) f hf i hi, ev_coordPoly, hV]
  have hat : ∀ (u : P2) f, f < 3 → ∀ i < NG, ∀ k,
      ev (∑ j ∈ Finset.range g.np, V.at' (f * NG + i) j * gridX (g.tri k) g.n j) (∑ j ∈ Finset.range g.np, V.at' (f * NG + i) j * gridY (g.tri k) g.n j) u =
      ev (refPt f (z.getD i 0)).1 (refPt f (z.getD i 0)).2 (pull (g.tri k) u) := by
    intro u f hf i hi k
    have e := hpos f hf i hi k
    rw [← refPt_coord (g.tri k) f hf] at e
    have e1 := congrArg Prod.fst e
    have e2 := congrArg Prod.snd e
    simp only at e1 e2
    rw [e1, e2, ev_pull]
  have hsp : ∀ u : P2, u.totalDegree ≤ g.N → ∀ k, TriSpace g.N (pull (g.tri k) u) := fun u hu k => (pull_degree _ u).trans hu
  have hgrad : ∀ u : P2, u.totalDegree ≤ g.N → ∀ f < 3, ∀ i < NG, ∀ k < g.K, ∀ α β : ℝ,
      ∑ j ∈ Finset.range g.np, (α * (mul V g.o.d.Dr).at' (f * NG + i) j + β * (mul V g.o.d.Ds).at' (f * NG + i) j) * atNode g u k j =
      α * ev (refPt f (z.getD i 0)).1 (refPt f (z.getD i 0)).2 (pderiv 0 (pull (g.tri k) u)) + β * ev (refPt f (z.getD i 0)).1 (refPt f (z.getD i 0)).2 (pderiv 1 (pull (g.tri k) u)) := by
    intro u hu f hf i hi k _ α β
    obtain ⟨e1, e2⟩ := gauss_deriv_exact hg z NG hz.lx hin _ (hsp u hu k) f hf i hi
    rw [← e1, ← e2, Finset.mul_sum, Finset.mul_sum, ← Finset.sum_add_distrib]
    refine Finset.sum_congr rfl fun j _ => ?_
    rw [atNode_eq]
    simp only [gaussDiff, hV]
    ring
  have hlen' : ∀ k < g.K, ∀ f < 3, 0 < segLen (faceEnds (g.tri k) f) := fun k hk f hf => ends_pos _ (hg.ccw k hk) f hf
  have hnl : ∀ k < g.K, ∀ f < 3, len (nrm (g.tri k) f) = segLen (faceEnds (g.tri k) f) / 2 := fun k hk f hf => nrm_len _ f hf
  -- entries by face and point
  have hN : ∀ k < g.K, ∀ f < 3, ∀ i < NG, unit (faceNormal ((f * NG + i) / NG) (cubDeriv g (gaussDiff g V) (f * NG + i) k)) = unit (nrm (g.tri k) f) := by
    intro k hk f hf i hi
    rw [(row_div hi).1, hder f hf i hi k]
    exact (faceNormal_eq _ (hg.ccw k hk) f).1
  have hS : ∀ k < g.K, ∀ f < 3, ∀ i < NG, len (faceNormal ((f * NG + i) / NG) (cubDeriv g (gaussDiff g V) (f * NG + i) k)) * Blitzdg.DG2D.jac (cubDeriv g (gaussDiff g V) (f * NG + i) k)
      = segLen (faceEnds (g.tri k) f) / 2 := by
    intro k hk f hf i hi
    rw [(row_div hi).1, hder f hf i hi k, (faceNormal_eq _ (hg.ccw k hk) f).2, hnl k hk f hf]
  have hunit : ∀ k < g.K, ∀ f < 3, segLen (faceEnds (g.tri k) f) / 2 * (unit (nrm (g.tri k) f)).1 = (nrm (g.tri k) f).1 ∧
      segLen (faceEnds (g.tri k) f) / 2 * (unit (nrm (g.tri k) f)).2 = (nrm (g.tri k) f).2 := by
    intro k hk f hf
    have := len_unit_smul (nrm_pos (hg.ccw k hk) f)
    rw [← hnl k hk f hf]
    exact ⟨congrArg Prod.fst this, congrArg Prod.snd this⟩
  have hW : ∀ k < g.K, ∀ f < 3, ∀ i < NG, w.getD ((f * NG + i) % NG) 0 * (len (faceNormal ((f * NG + i) / NG) (cubDeriv g (gaussDiff g V) (f * NG + i) k)) *
      Blitzdg.DG2D.jac (cubDeriv g (gaussDiff g V) (f * NG + i) k)) = w.getD i 0 * (segLen (faceEnds (g.tri k) f) / 2) := by
    intro k hk f hf i hi
    rw [hS k hk f hf i hi, (row_div hi).2]
  have hquad : ∀ u : P2, u.totalDegree ≤ 2 * NG - 1 → ∀ k < g.K, ∀ f < 3,
      ∑ i ∈ Finset.range NG, w.getD i 0 * ev (∑ j ∈ Finset.range g.np, V.at' (f * NG + i) j * gridX (g.tri k) g.n j) (∑ j ∈ Finset.range g.np, V.at' (f * NG + i) j * gridY (g.tri k) g.n j) u =
      ∫ t in (-1 : ℝ)..1, ev (lerp (faceEnds (g.tri k) f) t).1 (lerp (faceEnds (g.tri k) f) t).2 u := by
    intro u hu k hk f hf
    obtain ⟨p, hp, hpe⟩ := line_poly (faceEnds (g.tri k) f) u _ hu
    have e := Jacobi.legendre_exact hz p hp
    simp only [hpe] at e
    rw [← e]
    refine Finset.sum_congr rfl fun i hi => ?_
    have e := hpos f hf i (Finset.mem_range.1 hi) k
    have e1 := congrArg Prod.fst e
    have e2 := congrArg Prod.snd e
    simp only at e1 e2
    rw [e1, e2]
  -- positions by number
  have hnum : ∀ e < 3 * g.K, ∀ i < NG, (NG * e + i) % (3 * NG) = e % 3 * NG + i ∧ (NG * e + i) / (3 * NG) = e / 3 := by
    intro e he i hi
    have h3 : e = 3 * (e / 3) + e % 3 := (Nat.div_add_mod e 3).symm
    have hlt : e % 3 * NG + i < 3 * NG := by
      have : e % 3 < 3 := Nat.mod_lt _ (by omega)
      have : (e % 3 + 1) * NG ≤ 3 * NG := Nat.mul_le_mul_right _ (by omega)
      rw [Nat.add_mul] at this
      omega
    have e1 : NG * e + i = e % 3 * NG + i + 3 * NG * (e / 3) := by
      conv_lhs => rw [h3]
      ring
    rw [e1]
    constructor
    · rw [Nat.add_mul_mod_self_left, Nat.mod_eq_of_lt hlt]
    · rw [Nat.add_mul_div_left _ _ (by omega), Nat.div_eq_of_lt hlt, Nat.zero_add]
  refine
    { count := rfl, place := ⟨fun i => z.getD i 0, hin, hz.increasing, fun i hi => Jacobi.gauss_symm hNG hz i hi, fun k _ f hf i hi => hpos f hf i hi k⟩, interp := ?_, gradx := ?_, grady := ?_, jac := ?_, normal := ?_, surf := ?_, weights := ⟨fun i => w.getD i 0, fun i hi => Jacobi.gauss_weight_symm hNG hz i hi, fun k hk f hf i hi => hW k hk f hf i hi⟩, pos := ?_, quad := ?_, green := ?_,
      mapM := rfl, lenP := hlen, mapP := ?_, mapB := fun e he i hi => hbd e i he hi, tags := ?_ }
  · intro u hu c hc k hk
    obtain ⟨f, hf, i, hi, rfl⟩ := hrow c hc
    refine Eq.trans ?_ ((gauss_interp_exact hg z NG hz.lx hin _ (hsp u hu k) f hf i hi).trans (hat u f hf i hi k).symm)
    refine Finset.sum_congr rfl fun j _ => ?_
    rw [atNode_eq]
  · intro u hu c hc k hk
    obtain ⟨f, hf, i, hi, rfl⟩ := hrow c hc
    refine (hgrad u hu f hf i hi k hk _ _).trans ?_
    simp only [hder f hf i hi k]
    refine Eq.trans ?_ ((hat (pderiv 0 u) f hf i hi k).symm)
    rw [(grad_pull (g.tri k) (hg.ccw k hk).ne' u _ _).1, ev_pull]
  · intro u hu c hc k hk
    obtain ⟨f, hf, i, hi, rfl⟩ := hrow c hc
    refine (hgrad u hu f hf i hi k hk _ _).trans ?_
    simp only [hder f hf i hi k]
    refine Eq.trans ?_ ((hat (pderiv 1 u) f hf i hi k).symm)
    rw [(grad_pull (g.tri k) (hg.ccw k hk).ne' u _ _).2, ev_pull]
  · intro c hc k hk
    obtain ⟨f, hf, i, hi, rfl⟩ := hrow c hc
    change Blitzdg.DG2D.jac (cubDeriv g (gaussDiff g V) (f * NG + i) k) = _
    rw [hder f hf i hi k, jac_triDerivOf]
  · intro k hk f hf i hi
    change (unit (faceNormal ((f * NG + i) / NG) (cubDeriv g (gaussDiff g V) (f * NG + i) k))).1 * _ = _ ∧ (unit (faceNormal ((f * NG + i) / NG) (cubDeriv g (gaussDiff g V) (f * NG + i) k))).2 * _ = _ ∧ _
    rw [hN k hk f hf i hi]
    obtain ⟨h1, h2⟩ := hunit k hk f hf
    have he := nrm_ends (g.tri k) f hf
    have he1 := congrArg Prod.fst he
    have he2 := congrArg Prod.snd he
    simp only at he1 he2
    refine ⟨?_, ?_, hlen' k hk f hf⟩
    · linear_combination 2 * h1 + 2 * he1
    · linear_combination 2 * h2 + 2 * he2
  · intro k hk f hf i hi
    exact hS k hk f hf i hi
  · intro c hc k hk
    obtain ⟨f, hf, i, hi, rfl⟩ := hrow c hc
    refine lt_of_lt_of_eq ?_ (hW k hk f hf i hi).symm
    exact mul_pos (hz.positive i hi) (half_pos (hlen' k hk f hf))
  · intro u hu k hk f hf
    unfold along
    rw [← hquad u hu k hk f hf, Finset.mul_sum]
    refine Finset.sum_congr rfl fun i hi => ?_
    refine (congrArg (· * _) (hW k hk f hf i (Finset.mem_range.1 hi))).trans ?_
    unfold atGauss
    ring
  · intro a b ha hb k hk
    rw [sum_three, ← green_tri (g.tri k) a b, ← Finset.sum_add_distrib]
    refine Finset.sum_congr rfl fun f hf => ?_
    have hf := Finset.mem_range.1 hf
    rw [← hquad a ha k hk f hf, ← hquad b hb k hk f hf, Finset.mul_sum, Finset.mul_sum, ← Finset.sum_add_distrib]
    refine Finset.sum_congr rfl fun i hi => ?_
    have hi := Finset.mem_range.1 hi
    obtain ⟨h1, h2⟩ := hunit k hk f hf
    refine (congrArg (· * _) (hW k hk f hf i hi)).trans ?_
    change _ * ((unit (faceNormal ((f * NG + i) / NG) (cubDeriv g (gaussDiff g V) (f * NG + i) k))).1 * _ + (unit (faceNormal ((f * NG + i) / NG) (cubDeriv g (gaussDiff g V) (f * NG + i) k))).2 * _) = _
    rw [hN k hk f hf i hi, ← h1, ← h2]
    unfold atGauss
    ring
  · intro e he i hi hne
    have hPe := hg.lt e he
    have hne' : P (P e) ≠ P e := by rw [hg.inv e he]; exact Ne.symm hne
    have hmeet := hg.meet e he hne
    have m1 : e % 3 < 3 := Nat.mod_lt _ (by omega)
    have m2 : P e % 3 < 3 := Nat.mod_lt _ (by omega)
    have k1 : e / 3 < g.K := by omega
    have k2 : P e / 3 < g.K := by omega
    have hi' : NG - 1 - i < NG := by omega
    have hnw : nrm (g.tri (P e / 3)) (P e % 3) = (-(nrm (g.tri (e / 3)) (e % 3)).1, -(nrm (g.tri (e / 3)) (e % 3)).2) := nrm_swap m1 m2 hmeet
    have hseg : segLen (faceEnds (g.tri (P e / 3)) (P e % 3)) = segLen (faceEnds (g.tri (e / 3)) (e % 3)) := by
      have := congrArg len hnw
      rw [len_neg2, hnl _ k1 _ m1, hnl _ k2 _ m2] at this
      linarith
    refine ⟨NG - 1 - i, hi', hint e i he hi hne, ?_, ?_, ?_, ?_, ?_⟩
    · have := hint (P e) (NG - 1 - i) hPe hi' hne'
      rwa [hg.inv e he, show NG - 1 - (NG - 1 - i) = i by omega] at this
    · unfold pointAt
      change (∑ j ∈ Finset.range g.np, V.at' ((NG * P e + (NG - 1 - i)) % (3 * NG)) j * gridX (g.tri ((NG * P e + (NG - 1 - i)) / (3 * NG))) g.n j,
        ∑ j ∈ Finset.range g.np, V.at' ((NG * P e + (NG - 1 - i)) % (3 * NG)) j * gridY (g.tri ((NG * P e + (NG - 1 - i)) / (3 * NG))) g.n j) =
        (∑ j ∈ Finset.range g.np, V.at' ((NG * e + i) % (3 * NG)) j * gridX (g.tri ((NG * e + i) / (3 * NG))) g.n j,
        ∑ j ∈ Finset.range g.np, V.at' ((NG * e + i) % (3 * NG)) j * gridY (g.tri ((NG * e + i) / (3 * NG))) g.n j)
      rw [(hnum _ hPe _ hi').1, (hnum _ hPe _ hi').2, (hnum _ he _ hi).1, (hnum _ he _ hi).2, hpos _ m2 _ hi', hpos _ m1 _ hi, hmeet, lerp_swap, Jacobi.gauss_symm hNG hz i hi, neg_neg]
    · refine (hW _ k2 _ m2 _ hi').trans (Eq.trans ?_ (hW _ k1 _ m1 _ hi).symm)
      rw [hseg, Jacobi.gauss_weight_symm hNG hz i hi]
    · change (unit (faceNormal _ (cubDeriv g (gaussDiff g V) _ _))).1 = -(unit (faceNormal _ (cubDeriv g (gaussDiff g V) _ _))).1
      rw [hN _ k2 _ m2 _ hi', hN _ k1 _ m1 _ hi, hnw]
      unfold unit
      rw [len_neg2]
      simp only
      ring
    · change (unit (faceNormal _ (cubDeriv g (gaussDiff g V) _ _))).2 = -(unit (faceNormal _ (cubDeriv g (gaussDiff g V) _ _))).2
      rw [hN _ k2 _ m2 _ hi', hN _ k1 _ m1 _ hi, hnw]
      unfold unit
      rw [len_neg2]
      simp only
      ring
  · intro t
    exact htag t

variable {la : Lapack} {eps ztol tol : ℝ} {N : ℕ} {m : Mesh}

/-- **C94.** On a built grid and for every number `NGauss ≥ 1` of points, `buildGaussFaceNodes` returns a context satisfying the specification, unless the eigenvalue solver for the Gauss points
reports failure, which makes the call throw. -/
theorem C94_gauss (h : Provisioned la eps ztol tol N m P g) (NG : ℕ) (hNG : 1 ≤ NG) :
    buildGauss la eps g m NG = .throws ∨ ∃ c, buildGauss la eps g m NG = .ok c ∧ GaussSpec g P m.bcType NG c := by
  obtain ⟨x, hg, -, hK, -⟩ := h.spec
  have hq := Jacobi.C69_gauss_partial la.query la.dsyevd h.lapack.syevd 0 0 eps h.eps_pos h.eps_le (NG - 1) (Or.inr ⟨rfl, rfl⟩) (zeros NG) (zeros NG) (by simp [zeros]; omega) (by simp [zeros]; omega)
  rw [Nat.cast_zero, show NG - 1 + 1 = NG by omega] at hq
  rcases hq with hq | ⟨z, w, hq, hr⟩
  · left
    unfold buildGauss
    rw [hq]
    rfl
  · exact Or.inr (gauss_spec h.mesh hg hK NG hNG z w hr la eps hq)

/-- **C94, returns.** With one point no eigenvalue solver is called and the context is always built. -/
theorem C94_one (h : Provisioned la eps ztol tol N m P g) : ∃ c, buildGauss la eps g m 1 = .ok c ∧ GaussSpec g P m.bcType 1 c := by
  obtain ⟨x, hg, -, hK, -⟩ := h.spec
  have hq := Jacobi.C69_gauss_partial la.query la.dsyevd h.lapack.syevd 0 0 eps h.eps_pos h.eps_le 0 (Or.inr ⟨rfl, rfl⟩) (zeros 1) (zeros 1) (by simp [zeros]) (by simp [zeros])
  rw [Nat.cast_zero] at hq
  rcases hq with hq | ⟨z, w, hq, hr⟩
  · exfalso
    unfold Jacobi.quadWeights at hq
    simp [wr, zeros] at hq
  · exact gauss_spec h.mesh hg hK 1 (le_refl _) z w hr la eps hq

/-- **C94, returns.** With an eigenvalue solver that always succeeds the context is always built. -/
theorem C94_returns (h : Provisioned Nodes1D.exactLapack eps ztol tol N m P g) (NG : ℕ) (hNG : 1 ≤ NG) : ∃ c, buildGauss Nodes1D.exactLapack eps g m NG = .ok c ∧ GaussSpec g P m.bcType NG c := by
  by_cases h1 : NG = 1
  · subst h1; exact C94_one h
  obtain ⟨x, hg, -, hK, -⟩ := h.spec
  obtain ⟨z, w, hq, hr⟩ := Jacobi.quadWeights_returns 0 0 eps h.eps_pos h.eps_le (NG - 1) (by omega) (zeros NG) (zeros NG) (by simp [zeros]; omega) (by simp [zeros]; omega)
  rw [Nat.cast_zero] at hq
  rw [show NG - 1 + 1 = NG by omega] at hr
  exact gauss_spec h.mesh hg hK NG hNG z w hr _ eps hq

/-- The square of two triangles with one face between them, any number of points. -/
example (NG : ℕ) (hNG : 1 ≤ NG) : ∃ g : Grid, g.K = 2 ∧ ∃ c, buildGauss Nodes1D.exactLapack (1 / 2 ^ 52) g square NG = .ok c ∧ GaussSpec g twoTri square.bcType NG c ∧
    twoTri 1 = 5 ∧ twoTri 0 = 0 := by
  obtain ⟨g, hg, -⟩ := square_grid
  obtain ⟨x, -, -, hK, -⟩ := hg.spec
  obtain ⟨c, h1, h2⟩ := C94_returns hg NG hNG
  exact ⟨g, hK, c, h1, h2, rfl, rfl⟩

end Blitzdg.Ctx
