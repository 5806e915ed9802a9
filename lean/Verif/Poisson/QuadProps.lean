import Verif.Poisson.Model
import Verif.DG2D.ElementProps
import Verif.Blitz.ReshapeProps

/-! C108: which elements and boundary data the DG Poisson assembly accepts. -/

namespace Blitzdg.Poisson

open Blitzdg.Sparse (DMat)
open Blitzdg.Nodes1D (Lapack vandermonde trans)
open Blitzdg.DG2D
open Blitzdg.Dense (toMat)
open Blitzdg.Blitz (reshapeMatTo1D C10_flatten_ub C10_flatten)
open Blitzdg.SW (zeros)

/-- The context shares nodes and face masks with a quadrilateral provisioner. -/
structure OnQuads (c : Ctx) (n : RefNodes) : Prop where
  nf : c.nf = 4
  nfp : c.nfp = c.N + 1
  r : c.r = n.r
  s : c.s = n.s
  fm : c.fm = n.mask

/-- Two equal points make a Vandermonde matrix singular. -/
theorem vandermonde_singular (t : List ℝ) (i j : ℕ) (hi : i < t.length) (hj : j < t.length) (hij : i ≠ j) (e : t.getD i 0 = t.getD j 0) :
    ¬ IsUnit (toMat (vandermonde t t.length) t.length t.length) := by
  rw [Matrix.isUnit_iff_isUnit_det, Matrix.det_zero_of_row_eq (i := ⟨i, hi⟩) (j := ⟨j, hj⟩) (by simpa using hij)]
  · simp
  · funext k
    show (vandermonde t t.length).at' i k = (vandermonde t t.length).at' j k
    unfold vandermonde
    simp only [e]

theorem edge_throws (c : Ctx) (la : Lapack) (hla : la.Ok) (f i j : ℕ) (hi : i < c.nfp) (hj : j < c.nfp) (hij : i ≠ j)
    (e : (faceCoords c.nfp c.fm triOnS c.r c.s f).getD i 0 = (faceCoords c.nfp c.fm triOnS c.r c.s f).getD j 0) : c.edgeMass la f = .throws := by
  unfold Ctx.edgeMass
  simp only
  have hl : (faceCoords c.nfp c.fm triOnS c.r c.s f).length = c.nfp := by simp [faceCoords]
  rw [invertInto_throws la hla _ (faceCoords c.nfp c.fm triOnS c.r c.s f).length ⟨rfl, rfl⟩ (vandermonde_singular _ i j (by rw [hl]; exact hi) (by rw [hl]; exact hj) hij e)]
  rfl

theorem edge_not_ub (c : Ctx) (la : Lapack) (hla : la.Ok) (f : ℕ) (h0 : 0 < c.nfp) : c.edgeMass la f ≠ .ub := by
  unfold Ctx.edgeMass
  simp only
  have hl : (faceCoords c.nfp c.fm triOnS c.r c.s f).length = c.nfp := by simp [faceCoords]
  by_cases hu : IsUnit (toMat (vandermonde (faceCoords c.nfp c.fm triOnS c.r c.s f) (faceCoords c.nfp c.fm triOnS c.r c.s f).length)
      (faceCoords c.nfp c.fm triOnS c.r c.s f).length (faceCoords c.nfp c.fm triOnS c.r c.s f).length)
  · obtain ⟨X, hX, -⟩ := invertInto_ok la hla _ (faceCoords c.nfp c.fm triOnS c.r c.s f).length (by rw [hl]; exact h0) ⟨rfl, rfl⟩ hu
    rw [hX]
    simp
  · rw [invertInto_throws la hla _ (faceCoords c.nfp c.fm triOnS c.r c.s f).length ⟨rfl, rfl⟩ hu]
    simp

theorem massEdge_throws (c : Ctx) (la : Lapack) (hla : la.Ok) (h0 : 0 < c.nfp) (h : c.edgeMass la 1 = .throws) : c.massEdge la = .throws := by
  unfold Ctx.massEdge
  rw [h]
  cases h1 : c.edgeMass la 0 with
  | ok M => rfl
  | throws => rfl
  | ub => exact absurd h1 (edge_not_ub c la hla 0 h0)

/-- **C108, refuted for quadrilaterals.** The code accepts contexts of elements with four faces, but along the second face it takes the coordinate that is constant there: for every order `N ≥ 1` both the
operator and the boundary vector of a quadrilateral grid throw. -/
theorem C108_quadrilaterals (la : Lapack) (hla : la.Ok) (eps : ℝ) (he0 : 0 < eps) (he1 : eps ≤ 0.1) (tol : ℝ) (ht : 0 < tol) (c : Ctx) (hN : 1 ≤ c.N) (n : RefNodes)
    (hn : quadRefNodes la eps tol c.N = .ok n) (hc : OnQuads c n) (bordered : Bool) (ubc qbc : DMat ℝ) :
    c.build la bordered = .throws ∧ c.buildBcRhs la ubc qbc = .throws := by
  have hM : ∃ x, MaskSpec c.N 4 quadEdge quadFaceDist tol x n := by
    rcases C74_quadrilateral la hla eps he0 he1 tol ht c.N hN with h | ⟨x, -, -, h1, h2⟩
    · rw [hn] at h; cases h
    · rcases lt_or_ge (x.getD 1 0 + 1) tol with hx | hx
      · rw [h1 hx] at hn; cases hn
      · obtain ⟨n', e, -, -, -, hm⟩ := h2 hx
        rw [hn] at e
        injection e with e
        exact ⟨x, e ▸ hm⟩
  obtain ⟨x, hm⟩ := hM
  have co : ∀ i ≤ c.N, (faceCoords c.nfp c.fm triOnS c.r c.s 1).getD i 0 = 1 := by
    intro i hi
    rw [hc.nfp, faceCoords_getD c.N _ _ _ _ _ _ hi, hc.r, hc.fm]
    exact (Prod.mk.inj (hm.pt 1 (by norm_num) i hi)).1
  have h1 : c.edgeMass la 1 = .throws :=
    edge_throws c la hla 1 0 1 (by rw [hc.nfp]; omega) (by rw [hc.nfp]; omega) (by norm_num) (by rw [co 0 (by omega), co 1 hN])
  have hME := massEdge_throws c la hla (by rw [hc.nfp]; omega) h1
  constructor
  · unfold Ctx.build Ctx.assemble
    rw [if_pos (Or.inr hc.nf), hME]
    rfl
  · unfold Ctx.buildBcRhs
    rw [hME]
    rfl

theorem face_short (c : Ctx) (ME : ℕ → DMat ℝ) (k f : ℕ) (h : c.nfp ≤ 1) : ∀ F, c.face ME k f ≠ .ok F := by
  intro F hF
  unfold Ctx.face at hF
  simp only [Out.bind_eq_ok] at hF
  obtain ⟨k2, -, f2, -, vM, hM, vP, -, i1, hi, -⟩ := hF
  rw [rd_eq_ok, List.getElem?_map] at hi
  unfold slice at hM
  split_ifs at hM with hs
  injection hM with hM
  rw [← hM, List.getElem?_take, if_neg (by omega)] at hi
  cases hi

/-- **C108, refuted for order zero.** With one node per face (order zero) the code reads the second node of a face: no operator is ever produced, on a mesh with at least one element. -/
theorem C108_order_zero (la : Lapack) (c : Ctx) (hK : 0 < c.K) (hn : c.nfp ≤ 1) (bordered : Bool) : ∀ r, c.build la bordered ≠ .ok r := by
  intro r hr
  unfold Ctx.build Ctx.assemble at hr
  by_cases h4 : c.nf = 3 ∨ c.nf = 4
  · rw [if_pos h4] at hr
    simp only [Out.bind_eq_ok] at hr
    obtain ⟨t, ⟨ME, -, mm, -, op, -, t1, ht, -⟩, -⟩ := hr
    obtain ⟨K, hK'⟩ : ∃ K, c.K = K + 1 := ⟨c.K - 1, by omega⟩
    obtain ⟨m, hm⟩ : ∃ m, c.nf = m + 1 := ⟨c.nf - 1, by omega⟩
    rw [hK', List.range_succ_eq_map, loopM_cons, Out.bind_eq_ok] at ht
    obtain ⟨t2, h2, -⟩ := ht
    unfold Ctx.elemStep at h2
    rw [hm, List.range_succ_eq_map, loopM_cons, Out.bind_eq_ok] at h2
    obtain ⟨t3, h3, -⟩ := h2
    rw [Out.bind_eq_ok] at h3
    obtain ⟨t4, h4', -⟩ := h3
    unfold Ctx.faceStep at h4'
    rw [Out.bind_eq_ok] at h4'
    obtain ⟨F, hF, -⟩ := h4'
    exact face_short c ME 0 0 hn F hF
  · rw [if_neg h4] at hr
    cases hr

/-- **C108, boundary data.** Boundary values with more entries than there are face nodes overrun the buffer they are copied into: sizes are not checked. -/
theorem C108_oversized (la : Lapack) (c : Ctx) (ME : ℕ → DMat ℝ) (hME : c.massEdge la = .ok ME) (ubc qbc : DMat ℝ) (h : c.nfp * c.nf * c.K < ubc.rows * ubc.cols) :
    c.buildBcRhs la ubc qbc = .ub := by
  unfold Ctx.buildBcRhs
  rw [hME]
  simp only [Out.bind_ok]
  rw [C10_flatten_ub _ _ _ (by simpa [zeros] using h)]
  rfl

/-- The hypotheses of `C108_quadrilaterals` hold for the bilinear element. -/
example : ∃ (n : RefNodes) (c : Ctx), quadRefNodes Nodes1D.exactLapack (1 / 2 ^ 52) 1e-5 1 = .ok n ∧ OnQuads c n ∧ c.N = 1 ∧ c.K = 1 ∧ c.build Nodes1D.exactLapack true = .throws := by
  obtain ⟨n, o, h, -⟩ := demo_quad
  unfold quadElement at h
  rw [Out.bind_eq_ok] at h
  obtain ⟨n', hn, -⟩ := h
  let z : ℕ → ℕ → ℝ := fun _ _ => 0
  let c : Ctx := ⟨1, 4, 1, 4, 2, n'.r, n'.s, n'.mask, z, z, z, z, z, z, z, z, z, z, z, [], [], [], [], []⟩
  have hc : OnQuads c n' := ⟨rfl, rfl, rfl, rfl, rfl⟩
  exact ⟨n', c, hn, hc, rfl, rfl, (C108_quadrilaterals Nodes1D.exactLapack Nodes1D.exactLapack_ok (1 / 2 ^ 52) (by norm_num) (by norm_num) 1e-5 (by norm_num) c (le_refl 1) n' hn hc true
    (fresh 0 0) (fresh 0 0)).1⟩

end Blitzdg.Poisson
