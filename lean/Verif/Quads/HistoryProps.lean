import Verif.Quads.History
import Verif.Quads.RoundedProps
import Verif.Output.VtkProps
import Mathlib.LinearAlgebra.Matrix.Kronecker

/-!
C164: what the filter of a quadrilateral provisioner is after any sequence of calls that build filters and write VTK files.
-/

namespace Blitzdg.Quads

open Blitzdg.Sparse (DMat)
open Blitzdg.Nodes1D (Lapack exactLapack exactLapack_ok uncaught)
open Blitzdg.Dense (toMat computeInverse C37_inverse)
open Blitzdg.DG2D
open Blitzdg.SW (Mesh)
open Blitzdg.Output (VtkFile vtkQuad sampled PicturesQuads C135_quad quad_lattice_pts)
open Blitzdg.Jacobi (jacobiP)
open scoped Kronecker

/-! ### Two inverses -/

/-- With the points on a grid, values that depend on the row alone have only coefficients of modes constant along rows. -/
theorem kron_row {n : ℕ} (E : Matrix (Fin (n + 1)) (Fin (n + 1)) ℝ) (b : ℝ) (hb : b ≠ 0) (hE : ∀ i, E i 0 = b) (W V : Matrix (Fin ((n + 1) * (n + 1))) (Fin ((n + 1) * (n + 1))) ℝ)
    (hV : ∀ i m p q, V (finProdFinEquiv (i, m)) (finProdFinEquiv (p, q)) = E i p * E m q) (hW : W * V = 1) (u : Fin ((n + 1) * (n + 1)) → ℝ) (φ : Fin (n + 1) → ℝ)
    (hu : ∀ i m, u (finProdFinEquiv (i, m)) = φ i) (p q : Fin (n + 1)) (hq : q ≠ 0) : W.mulVec u (finProdFinEquiv (p, q)) = 0 := by
  set f := finProdFinEquiv (m := n + 1) (n := n + 1) with hf
  have hV' : V.submatrix f f = E ⊗ₖ E := by
    ext ⟨i, m⟩ ⟨p, q⟩
    exact hV i m p q
  have h1 : W.submatrix f f * V.submatrix f f = 1 := by
    rw [Matrix.submatrix_mul_equiv, hW, Matrix.submatrix_one_equiv]
  rw [hV'] at h1
  have hd : IsUnit E.det := by
    have h2 := congrArg Matrix.det h1
    rw [Matrix.det_mul, Matrix.det_kronecker, Matrix.det_one] at h2
    refine isUnit_iff_ne_zero.2 fun h0 => ?_
    rw [h0] at h2
    simp at h2
  have h3 : (E ⊗ₖ E) * (E⁻¹ ⊗ₖ E⁻¹) = 1 := by
    rw [← Matrix.mul_kronecker_mul, Matrix.mul_nonsing_inv _ hd, Matrix.one_kronecker_one]
  have h4 : W.submatrix f f = E⁻¹ ⊗ₖ E⁻¹ := by
    calc W.submatrix f f = W.submatrix f f * ((E ⊗ₖ E) * (E⁻¹ ⊗ₖ E⁻¹)) := by rw [h3, mul_one]
      _ = _ := by rw [← mul_assoc, h1, one_mul]
  have h5 : ∑ m, E⁻¹ q m = 0 := by
    have e := congrFun (congrFun (Matrix.nonsing_inv_mul E hd) q) 0
    rw [Matrix.one_apply_ne hq, Matrix.mul_apply] at e
    simp only [hE] at e
    rw [← Finset.sum_mul] at e
    exact (mul_eq_zero.1 e).resolve_right hb
  show ∑ k, W (f (p, q)) k * u k = 0
  rw [← Equiv.sum_comp f, Fintype.sum_prod_type]
  have h6 : ∀ i m, W (f (p, q)) (f (i, m)) * u (f (i, m)) = E⁻¹ p i * φ i * E⁻¹ q m := by
    intro i m
    have e := congrFun (congrFun h4 (p, q)) (i, m)
    simp only [Matrix.submatrix_apply, Matrix.kroneckerMap_apply] at e
    rw [e, hu]
    ring
  simp only [h6, ← Finset.mul_sum, h5, mul_zero, Finset.sum_const_zero]

theorem leg_zero (x y : ℝ) : jacobiP 0 0 0 x = jacobiP 0 0 0 y := rfl

theorem leg_zero_ne (x : ℝ) : jacobiP 0 0 0 x ≠ 0 := by
  have h := Jacobi.gamma0_pos (α := 0) (β := 0) (by norm_num) (by norm_num) (by norm_num)
  exact (one_div_pos.2 (Real.sqrt_pos.2 h)).ne'

theorem leg_one (x y : ℝ) (h : jacobiP 0 0 1 x = jacobiP 0 0 1 y) : x = y := by
  have hg := Jacobi.gamma0_pos (α := 0) (β := 0) (by norm_num) (by norm_num) (by norm_num)
  have h1 : 0 < Real.sqrt (Jacobi.gamma1 0 0) := Real.sqrt_pos.2 (mul_pos (by norm_num) hg)
  have h2 : ((0 + 0 + 2 : ℝ) * x / 2 + (0 - 0) / 2) / Real.sqrt (Jacobi.gamma1 0 0) = ((0 + 0 + 2 : ℝ) * y / 2 + (0 - 0) / 2) / Real.sqrt (Jacobi.gamma1 0 0) := h
  have h3 := (div_left_inj' h1.ne').1 h2
  linarith

variable {la : Lapack} {eps tol : ℝ} {N : ℕ} {m : Mesh} {P : ℕ → ℕ} {g : QGrid}

theorem pairs_at {N : ℕ} (p q : Fin (N + 1)) : (quadPairs N).getD (finProdFinEquiv (p, q) : Fin ((N + 1) * (N + 1))) (0, 0) = (p.1, q.1) := by
  have e : ((finProdFinEquiv (p, q) : Fin ((N + 1) * (N + 1))) : ℕ) = p * (N + 1) + q := by
    rw [finProdFinEquiv_apply_val]; ring
  rw [e, List.getD_eq_getElem?_getD, quadPairs_get (by omega) (by omega), Option.getD_some]

/-- Entries of the Vandermonde matrix of the output points. -/
theorem split_vand (N : ℕ) (i k p q : Fin (N + 1)) : toMat (modeMatrix (quadPairs N) quadMode (splitPts N).1 (splitPts N).2) ((N + 1) * (N + 1)) ((N + 1) * (N + 1)) (finProdFinEquiv (i, k)) (finProdFinEquiv (p, q)) =
    jacobiP 0 0 p (-1 + 2 * ((i : ℕ) : ℝ) / N) * jacobiP 0 0 q (-1 + 2 * ((k : ℕ) : ℝ) / N) := by
  have hl : ((finProdFinEquiv (i, k) : Fin ((N + 1) * (N + 1))) : ℕ) < (quadPairs N).length := by rw [quadPairs_length]; exact Fin.is_lt _
  simp only [toMat, modeMatrix, quadMode, pairs_at p q, splitPts]
  rw [getD_map' _ _ (0, 0) _ _ hl, getD_map' _ _ (0, 0) _ _ hl, pairs_at i k]

/-- The nodes of the provisioner, by row and column. -/
def OnGrid (g : QGrid) (x : ℕ → ℝ) : Prop := ∀ i ≤ g.N, ∀ j ≤ g.N, g.n.r.getD (i * (g.N + 1) + j) 0 = x i ∧ g.n.s.getD (i * (g.N + 1) + j) 0 = x j

/-- Matrix times field. -/
noncomputable def applied (F : Matrix (Fin g.np) (Fin g.np) ℝ) (u : Fin g.np → ℝ) (i : Fin g.np) : ℝ := ∑ j, F i j * u j

/-- The filter built from the inverse at the output points turns a function of the first coordinate into one of the second. -/
theorem swapped {x : ℕ → ℝ} (hx : OnGrid g x) (hv : g.o.V = modeMatrix (quadPairs g.N) quadMode g.n.r g.n.s) (c : Fin g.np → ℝ) (W : Matrix (Fin g.np) (Fin g.np) ℝ)
    (hW : W * toMat (modeMatrix (quadPairs g.N) quadMode (splitPts g.N).1 (splitPts g.N).2) g.np g.np = 1) (φ : ℝ → ℝ) (i i' : Fin g.np) (hs : g.n.s.getD i 0 = g.n.s.getD i' 0) :
    applied (toMat g.o.V g.np g.np * (Matrix.diagonal c * W)) (fun k => φ (g.n.r.getD k 0)) i = applied (toMat g.o.V g.np g.np * (Matrix.diagonal c * W)) (fun k => φ (g.n.r.getD k 0)) i' := by
  set u : Fin g.np → ℝ := fun k => φ (g.n.r.getD k 0) with hu
  have ha : ∀ i, applied (toMat g.o.V g.np g.np * (Matrix.diagonal c * W)) u i = ∑ k, toMat g.o.V g.np g.np i k * (c k * W.mulVec u k) := by
    intro i
    show ((toMat g.o.V g.np g.np * (Matrix.diagonal c * W)).mulVec u) i = _
    rw [← Matrix.mulVec_mulVec, ← Matrix.mulVec_mulVec]
    show ∑ k, toMat g.o.V g.np g.np i k * (Matrix.diagonal c).mulVec (W.mulVec u) k = _
    refine Finset.sum_congr rfl fun k _ => ?_
    rw [Matrix.mulVec_diagonal]
  rw [ha, ha]
  refine Finset.sum_congr rfl fun k _ => ?_
  obtain ⟨⟨p, q⟩, hk⟩ := (finProdFinEquiv (m := g.N + 1) (n := g.N + 1)).surjective k
  by_cases hq : q = 0
  · congr 1
    rw [hv]
    have e := pairs_at p q
    rw [hk, hq] at e
    show quadMode ((quadPairs g.N).getD k (0, 0)) _ _ = quadMode ((quadPairs g.N).getD k (0, 0)) _ _
    rw [e, hs]
    rfl
  · have h0 : W.mulVec u k = 0 := by
      rw [← hk]
      refine kron_row (n := g.N) (fun i p => jacobiP 0 0 p (-1 + 2 * ((i : ℕ) : ℝ) / g.N)) (jacobiP 0 0 0 0) (leg_zero_ne 0) (fun i => leg_zero _ _) W _ (split_vand g.N) hW u (fun i => φ (x i)) (fun i j => ?_) p q hq
      have e : ((finProdFinEquiv (i, j) : Fin ((g.N + 1) * (g.N + 1))) : ℕ) = i * (g.N + 1) + j := by
        rw [finProdFinEquiv_apply_val]; ring
      show φ (g.n.r.getD ((finProdFinEquiv (i, j) : Fin ((g.N + 1) * (g.N + 1))) : ℕ) 0) = _
      rw [e, (hx i (by omega) j (by omega)).1]
    rw [h0, mul_zero, mul_zero, mul_zero]

/-! ### The coefficients of the filter -/

theorem filter_any (g : QGrid) (Nc : ℝ) (hNc : Nc ≠ g.N) (s : ℤ) (hs : 1 ≤ s) : ∃ c : Fin g.np → ℝ,
    (∀ V W : Matrix (Fin g.np) (Fin g.np) ℝ, DG2D.buildFilter g.N Nc s V W = .ok fun i j => some ((V * (Matrix.diagonal c * W)) i j)) ∧ ∀ k : Fin g.np, (k : ℕ) < triNp g.N → 0 < c k := by
  have hle : triNp g.N ≤ g.np := by
    unfold triNp QGrid.np
    have : (g.N + 1) * (g.N + 2) ≤ 2 * ((g.N + 1) * (g.N + 1)) := by nlinarith
    omega
  set d := (triPairs g.N).map (fun p => filterCoef g.N Nc s (p.1 + p.2)) ++ List.replicate (g.np - triNp g.N) (some 0) with hd
  have hc : ∀ k : Fin g.np, ∃ c : ℝ, d.getD k (some 0) = some c ∧ ((k : ℕ) < triNp g.N → 0 < c) := by
    intro k
    by_cases hk : (k : ℕ) < triNp g.N
    · have hk' : (k : ℕ) < (triPairs g.N).length := by rw [triPairs_length]; exact hk
      obtain ⟨c, h1, h2, -⟩ := filterCoef_spec g.N Nc s hs hNc _ (mem_triPairs.1 (List.getElem_mem hk'))
      refine ⟨c, ?_, fun _ => h2⟩
      rw [hd, List.getD_eq_getElem?_getD, List.getElem?_append_left (by simpa using hk'), List.getElem?_map, List.getElem?_eq_getElem hk', ← h1]
      rfl
    · refine ⟨0, ?_, fun h => absurd h hk⟩
      have hk' : (triPairs g.N).length ≤ k := by rw [triPairs_length]; omega
      rw [hd, List.getD_eq_getElem?_getD, List.getElem?_append_right (by simpa using hk'), List.getElem?_replicate]
      split_ifs <;> rfl
  choose c hc using hc
  refine ⟨c, fun V W => ?_, fun k => (hc k).2⟩
  rw [buildFilter, filterDiag_ok _ _ _ _ hle]
  simp only [Out.bind_ok, Out.pure_eq]
  congr 1
  funext i j
  exact filterMat_some _ c (fun k => (hc k).1) _ _ i j

theorem filter_def (g : QGrid) (Nc : ℝ) (s : ℤ) (V W : Matrix (Fin g.np) (Fin g.np) ℝ) : ∃ F, DG2D.buildFilter g.N Nc s V W = .ok F := by
  have hle : triNp g.N ≤ g.np := by
    unfold triNp QGrid.np
    have : (g.N + 1) * (g.N + 2) ≤ 2 * ((g.N + 1) * (g.N + 1)) := by nlinarith
    omega
  exact ⟨_, by rw [buildFilter, filterDiag_ok _ _ _ _ hle]; rfl⟩

/-! ### The stored inverse -/

/-- What the provisioner is built with. -/
theorem QProvisioned.start (h : QProvisioned la eps tol N m P g) : g.N = N ∧ g.n.r.length = g.np ∧ g.o.Vinv.rows = g.n.r.length ∧ g.o.Vinv.cols = g.n.r.length ∧ ∃ x : ℕ → ℝ, (∀ i j : ℕ, i < j → j ≤ g.N → x i < x j) ∧ OnGrid g x := by
  obtain ⟨hn, -, x0, -, hs, hN, -⟩ := h.parts
  rcases C74_quadrilateral la h.lapack eps h.eps_pos h.eps_le tol h.tol_pos N h.order with h' | ⟨x, hx, hinc, h1, h2⟩
  · rw [h'] at hn; cases hn
  by_cases ht : x.getD 1 0 + 1 < tol
  · rw [h1 ht] at hn; cases hn
  obtain ⟨n, hn', -, -, hnode, -⟩ := h2 (not_lt.1 ht)
  rw [hn, Out.ok.injEq] at hn'
  subst hn'
  have hl := hs.nodes
  have hb := h.built
  unfold buildQGrid at hb
  obtain ⟨⟨n, o⟩, hel, hb⟩ := Out.bind_eq_ok.1 hb
  obtain ⟨cs, -, hb⟩ := Out.bind_eq_ok.1 hb
  obtain ⟨mp, -, hb⟩ := Out.bind_eq_ok.1 hb
  obtain ⟨bc, -, hb⟩ := Out.bind_eq_ok.1 hb
  simp only [Out.pure_eq, Out.ok.injEq] at hb
  unfold quadElement at hel
  obtain ⟨n', -, hel⟩ := Out.bind_eq_ok.1 hel
  obtain ⟨o', ho, hel⟩ := Out.bind_eq_ok.1 hel
  simp only [Out.pure_eq, Out.ok.injEq, Prod.mk.injEq] at hel
  obtain ⟨rfl, rfl⟩ := hel
  unfold buildRefOps at ho
  obtain ⟨E, -, ho⟩ := Out.bind_eq_ok.1 ho
  obtain ⟨W, hW, ho⟩ := Out.bind_eq_ok.1 ho
  obtain ⟨d, -, ho⟩ := Out.bind_eq_ok.1 ho
  simp only [Out.pure_eq, Out.ok.injEq] at ho
  have e1 : g.n = n' := by rw [← hb]
  have e2 : g.o.Vinv = W := by rw [← hb, ← ho]
  have hc : (modeMatrix (quadPairs N) quadMode n'.r n'.s).cols = n'.r.length := by
    rw [← e1, hl, ← hN]; exact quadPairs_length g.N
  have hdim : W.rows = n'.r.length ∧ W.cols = n'.r.length := by
    unfold invertInto at hW
    rcases C37_inverse la.dgetrf la.dgetri h.lapack.getri (modeMatrix (quadPairs N) quadMode n'.r n'.s) (fresh n'.r.length n'.r.length) n'.r.length ⟨rfl, hc⟩ ⟨rfl, rfl⟩ with ⟨X, hX, d1, d2, -⟩ | ⟨hX, -⟩
    · rw [hX] at hW
      simp only [Out.bind_ok, uncaught, Out.ok.injEq] at hW
      rw [← hW]; exact ⟨d1, d2⟩
    · rw [hX] at hW
      simp [uncaught] at hW
  refine ⟨hN, hl, by rw [e2, e1]; exact hdim.1, by rw [e2, e1]; exact hdim.2, fun i => x.getD i 0, ?_, ?_⟩
  · rw [hN]; exact hinc
  · unfold OnGrid; rw [hN]; exact hnode

/-- A write leaves a square matrix; at order two or more it is the inverse at the output points, whatever it was before; the file does not depend on it. -/
theorem write_ok (h : QProvisioned la eps tol N m P g) (x : ℕ → ℝ) (hx : OnGrid g x) (t : QState g) (ht : t.vinv.rows = g.n.r.length ∧ t.vinv.cols = g.n.r.length) (U : ℕ → ℝ × ℝ → ℝ) (u : List ℝ)
    (hu : u.length = g.n.r.length * g.K) : ∃ t', g.act la t (.write (sampled g.n g.K U) u) = .ok t' ∧ (t'.vinv.rows = g.n.r.length ∧ t'.vinv.cols = g.n.r.length) ∧ t'.filter = t.filter ∧
      (g.N ≤ 1 → t'.vinv = t.vinv) ∧
      (2 ≤ g.N → toMat t'.vinv g.np g.np * toMat (modeMatrix (quadPairs g.N) quadMode (splitPts g.N).1 (splitPts g.N).2) g.np g.np = 1) ∧
      ∃ F, t'.files = t.files ++ [F] ∧ PicturesQuads g.N g.K x (fun k p => (quadCoord (g.quad k).xa (g.quad k).xb (g.quad k).xc (g.quad k).xd p.1 p.2, quadCoord (g.quad k).ya (g.quad k).yb (g.quad k).yc (g.quad k).yd p.1 p.2)) U F := by
  obtain ⟨hN, hl, -⟩ := h.start
  have h1 : 1 ≤ g.N := by rw [hN]; exact h.order
  obtain ⟨F, W, hw, hp⟩ := C135_quad la h.lapack g.N h1 g.n x hl hx t.vinv ht g.K
    (fun k p => (quadCoord (g.quad k).xa (g.quad k).xb (g.quad k).xc (g.quad k).xd p.1 p.2, quadCoord (g.quad k).ya (g.quad k).yb (g.quad k).yc (g.quad k).yd p.1 p.2)) U u hu
  have eX : g.gridX = sampled g.n g.K fun k p => quadCoord (g.quad k).xa (g.quad k).xb (g.quad k).xc (g.quad k).xd p.1 p.2 := by
    unfold QGrid.gridX sampled nodeX; rw [hl]
  have eY : g.gridY = sampled g.n g.K fun k p => quadCoord (g.quad k).ya (g.quad k).yb (g.quad k).yc (g.quad k).yd p.1 p.2 := by
    unfold QGrid.gridY sampled nodeY; rw [hl]
  have hact : g.act la t (.write (sampled g.n g.K U) u) = .ok { t with vinv := W, files := t.files ++ [F] } := by
    have hw' := hw
    simp only at hw'
    rw [← eX, ← eY] at hw'
    unfold QGrid.act
    simp only [hw', Out.bind_ok]
    rfl
  have key : (1 < g.N ∧ ∃ M, quadInterp la g.N t.vinv (splitPts g.N).1 (splitPts g.N).2 = .ok (M, W)) ∨ (¬ 1 < g.N ∧ W = t.vinv) := by
    unfold vtkQuad at hw
    by_cases hN1 : 1 < g.N
    · left
      refine ⟨hN1, ?_⟩
      obtain ⟨L, hL, hpts, -⟩ := quad_lattice_pts g.N g.n.r.length hl
      rw [if_pos hN1] at hw
      have hr : (sampled g.n g.K U).rows = g.n.r.length := rfl
      simp only [hr, hL, Out.bind_ok, hpts] at hw
      obtain ⟨⟨M, W'⟩, hq, hw⟩ := Out.bind_eq_ok.1 hw
      obtain ⟨xs, -, hw⟩ := Out.bind_eq_ok.1 hw
      obtain ⟨ys, -, hw⟩ := Out.bind_eq_ok.1 hw
      obtain ⟨fs, -, hw⟩ := Out.bind_eq_ok.1 hw
      obtain ⟨G, -, hw⟩ := Out.bind_eq_ok.1 hw
      injection hw with hw
      have e : W' = W := (Prod.mk.inj hw).2
      exact ⟨M, by rw [hq, e]⟩
    · right
      refine ⟨hN1, ?_⟩
      rw [if_neg hN1] at hw
      obtain ⟨G, -, hw⟩ := Out.bind_eq_ok.1 hw
      injection hw with hw
      exact (Prod.mk.inj hw).2.symm
  refine ⟨_, hact, ?_, rfl, ?_, ?_, F, rfl, hp⟩
  · rcases key with ⟨-, M, hM⟩ | ⟨-, e⟩
    · have hc : (modeMatrix (quadPairs g.N) quadMode (splitPts g.N).1 (splitPts g.N).2).cols = g.n.r.length := by rw [hl]; exact quadPairs_length g.N
      have hr : (modeMatrix (quadPairs g.N) quadMode (splitPts g.N).1 (splitPts g.N).2).rows = g.n.r.length := by
        show (splitPts g.N).1.length = _
        rw [hl, splitPts, List.length_map]; exact quadPairs_length g.N
      unfold quadInterp at hM
      rcases C37_inverse la.dgetrf la.dgetri h.lapack.getri (modeMatrix (quadPairs g.N) quadMode (splitPts g.N).1 (splitPts g.N).2) t.vinv g.n.r.length ⟨hr, hc⟩ ht with ⟨X, hX, d1, d2, -⟩ | ⟨hX, -⟩
      · simp only [hX, Out.bind_ok, uncaught, Out.pure_eq, Out.ok.injEq, Prod.mk.injEq] at hM
        show W.rows = _ ∧ W.cols = _
        rw [← hM.2]; exact ⟨d1, d2⟩
      · simp only [hX, Out.bind_ok, uncaught] at hM
        cases hM
    · show W.rows = _ ∧ W.cols = _
      rw [e]; exact ht
  · intro hle
    rcases key with ⟨hlt, -⟩ | ⟨-, e⟩
    · omega
    · exact e
  · intro hge
    rcases key with ⟨-, M, hM⟩ | ⟨hn, -⟩
    · obtain ⟨M', W', hq, -, hinv⟩ := C46_quad_split la h.lapack g.N h1 t.vinv g.n.r.length hl ht
      rw [hM, Out.ok.injEq, Prod.mk.injEq] at hq
      rw [← hq.2, hl] at hinv
      exact hinv
    · omega

/-! ### All sequences of calls -/

/-- The call writes a file. -/
def QAct.IsWrite : QAct → Prop
  | .write _ _ => True
  | .buildFilter _ _ => False

/-- The field handed to the writer, if any, has one value per node and element (the values at the nodes of arbitrary functions on the elements), and the vectors of `splitElements` have their length. -/
def QAct.Fits (g : QGrid) : QAct → Prop
  | .write f u => (∃ U, f = sampled g.n g.K U) ∧ u.length = g.n.r.length * g.K
  | .buildFilter _ _ => True

/-- Invariant: `w` says that a file has been written with order at least two. -/
structure HInv (g : QGrid) (w : Prop) (t : QState g) : Prop where
  dims : t.vinv.rows = g.n.r.length ∧ t.vinv.cols = g.n.r.length
  clean : ¬ w → t.vinv = g.o.Vinv
  dirty : w → toMat t.vinv g.np g.np * toMat (modeMatrix (quadPairs g.N) quadMode (splitPts g.N).1 (splitPts g.N).2) g.np g.np = 1

theorem hist_inv (h : QProvisioned la eps tol N m P g) (l : List QAct) : ∀ {w : Prop} {t : QState g}, HInv g w t → (∀ a ∈ l, a.Fits g) →
    ∃ t', loopM (g.act la) t l = .ok t' ∧ HInv g (w ∨ 2 ≤ g.N ∧ ∃ a ∈ l, a.IsWrite) t' ∧ ((∀ a ∈ l, a.IsWrite) → t'.filter = t.filter) := by
  obtain ⟨-, -, -, -, x, -, hx⟩ := h.start
  induction l with
  | nil => exact fun {w t} hi _ => ⟨t, rfl, by simpa using hi, fun _ => rfl⟩
  | cons a l ih =>
    intro w t hi hp
    have hs : ∃ t1, g.act la t a = .ok t1 ∧ HInv g (w ∨ 2 ≤ g.N ∧ a.IsWrite) t1 ∧ (a.IsWrite → t1.filter = t.filter) := by
      cases a with
      | write f u =>
        obtain ⟨⟨U, rfl⟩, hu⟩ := hp (.write f u) (by simp)
        obtain ⟨t1, e1, d1, f1, c1, c2, -⟩ := write_ok h x hx t hi.dims U u hu
        refine ⟨t1, e1, ⟨d1, fun hn => ?_, fun hw => ?_⟩, fun _ => f1⟩
        · have h1 : ¬ w := fun h => hn (Or.inl h)
          have h2 : ¬ 2 ≤ g.N := fun h => hn (Or.inr ⟨h, trivial⟩)
          rw [c1 (by omega), hi.clean h1]
        · by_cases h2 : 2 ≤ g.N
          · exact c2 h2
          · rw [c1 (by omega)]
            exact hi.dirty (hw.resolve_right fun h => h2 h.1)
      | buildFilter Nc s =>
        obtain ⟨F, hF⟩ := filter_def g Nc s (toMat g.o.V g.np g.np) (toMat t.vinv g.np g.np)
        refine ⟨{ t with filter := F }, by simp only [QGrid.act, hF, Out.bind_ok]; rfl, ⟨hi.dims, fun hn => hi.clean fun h => hn (Or.inl h), fun hw => hi.dirty (hw.resolve_right fun h => h.2)⟩, fun h => h.elim⟩
    obtain ⟨t1, e1, i1, f1⟩ := hs
    obtain ⟨t2, e2, i2, f2⟩ := ih i1 fun b hb => hp b (by simp [hb])
    have hiff : ((w ∨ 2 ≤ g.N ∧ a.IsWrite) ∨ 2 ≤ g.N ∧ ∃ b ∈ l, b.IsWrite) ↔ (w ∨ 2 ≤ g.N ∧ ∃ b ∈ a :: l, b.IsWrite) := by
      simp only [List.mem_cons, exists_eq_or_imp]
      tauto
    refine ⟨t2, by rw [loopM_cons, e1, Out.bind_ok, e2], ?_, fun hn => (f2 fun b hb => hn b (by simp [hb])).trans (f1 (hn a (by simp)))⟩
    rw [← hiff]
    exact i2

theorem hist_start (h : QProvisioned la eps tol N m P g) (junk : Fin g.np → Fin g.np → Option ℝ) : HInv g False ⟨g.o.Vinv, junk, []⟩ := by
  obtain ⟨-, -, d1, d2, -⟩ := h.start
  exact ⟨⟨d1, d2⟩, fun _ => rfl, fun h => h.elim⟩

/-- The filter after a sequence of calls the last `buildFilter` of which is known. -/
theorem hist_filter (h : QProvisioned la eps tol N m P g) (junk : Fin g.np → Fin g.np → Option ℝ) (before after : List QAct) (Nc : ℝ) (s : ℤ) (hb : ∀ a ∈ before, a.Fits g) (ha : ∀ a ∈ after, a.Fits g)
    (hl : ∀ a ∈ after, a.IsWrite) : ∃ t t0, g.history la junk (before ++ .buildFilter Nc s :: after) = .ok t ∧ HInv g (2 ≤ g.N ∧ ∃ a ∈ before, a.IsWrite) t0 ∧
      DG2D.buildFilter g.N Nc s (toMat g.o.V g.np g.np) (toMat t0.vinv g.np g.np) = .ok t.filter := by
  obtain ⟨t0, e0, i0, -⟩ := hist_inv h before (hist_start h junk) hb
  rw [false_or] at i0
  obtain ⟨F, hF⟩ := filter_def g Nc s (toMat g.o.V g.np g.np) (toMat t0.vinv g.np g.np)
  have e1 : g.act la t0 (.buildFilter Nc s) = .ok { t0 with filter := F } := by simp only [QGrid.act, hF, Out.bind_ok]; rfl
  obtain ⟨t2, e2, -, f2⟩ := hist_inv h after (w := 2 ≤ g.N ∧ ∃ a ∈ before, a.IsWrite) (t := { t0 with filter := F }) ⟨i0.dims, i0.clean, i0.dirty⟩ ha
  refine ⟨t2, t0, by rw [QGrid.history, loopM_append, e0, Out.bind_ok, loopM_cons, e1, Out.bind_ok, e2], i0, ?_⟩
  rw [f2 hl, hF]

/-! ### Theorems -/

/-- **C164, no failure.** Every sequence of calls that build filters and write fields of the right size runs to its end. -/
theorem C164_defined (h : QProvisioned la eps tol N m P g) (junk : Fin g.np → Fin g.np → Option ℝ) (l : List QAct) (hf : ∀ a ∈ l, a.Fits g) : ∃ t, g.history la junk l = .ok t := by
  obtain ⟨t, e, -⟩ := hist_inv h l (hist_start h junk) hf
  exact ⟨t, e⟩

/-- **C164, what holds of it.** The filter is the one the last call of `buildFilter` would give on a new provisioner, provided that the order is one or no file was written before that call.  Files written after it
do not matter. -/
theorem C164_filter_partial (h : QProvisioned la eps tol N m P g) (junk : Fin g.np → Fin g.np → Option ℝ) (before after : List QAct) (Nc : ℝ) (s : ℤ) (hb : ∀ a ∈ before, a.Fits g) (ha : ∀ a ∈ after, a.Fits g)
    (hl : ∀ a ∈ after, a.IsWrite) (hw : N = 1 ∨ ∀ a ∈ before, ¬ a.IsWrite) :
    ∃ t, g.history la junk (before ++ .buildFilter Nc s :: after) = .ok t ∧ g.filter Nc s = .ok t.filter := by
  obtain ⟨t, t0, e, i, hF⟩ := hist_filter h junk before after Nc s hb ha hl
  refine ⟨t, e, ?_⟩
  rw [i.clean fun hd => ?_] at hF
  · exact hF
  · rcases hw with h1 | h1
    · have := h.start.1
      omega
    · obtain ⟨a, ha, hw⟩ := hd.2
      exact h1 a ha hw

/-- **C164, refuted.** At every order from two on, if any file was written before the last call of `buildFilter`, the filter is a wrong one: applied to a function of the first reference coordinate it gives a function
of the second.  It differs from that of a new provisioner. -/
theorem C164_written (h : QProvisioned la eps tol N m P g) (hN : 2 ≤ N) (junk : Fin g.np → Fin g.np → Option ℝ) (before after : List QAct) (Nc : ℝ) (hNc : Nc ≠ N) (s : ℤ) (hs : 1 ≤ s) (hb : ∀ a ∈ before, a.Fits g)
    (ha : ∀ a ∈ after, a.Fits g) (hl : ∀ a ∈ after, a.IsWrite) (hw : ∃ a ∈ before, a.IsWrite) :
    ∃ t, ∃ F : Matrix (Fin g.np) (Fin g.np) ℝ, g.history la junk (before ++ .buildFilter Nc s :: after) = .ok t ∧ (t.filter = fun i j => some (F i j)) ∧
      (∀ φ : ℝ → ℝ, ∀ i i' : Fin g.np, g.n.s.getD i 0 = g.n.s.getD i' 0 → applied F (fun k => φ (g.n.r.getD k 0)) i = applied F (fun k => φ (g.n.r.getD k 0)) i') ∧
      g.filter Nc s ≠ .ok t.filter := by
  obtain ⟨hgN, hlen, -, -, x, hinc, hx⟩ := h.start
  obtain ⟨x0, hg, -⟩ := h.spec
  obtain ⟨t, t0, e, i, hF⟩ := hist_filter h junk before after Nc s hb ha hl
  have hd := i.dirty ⟨by omega, hw⟩
  obtain ⟨c, hc, hpos⟩ := filter_any g Nc (by rw [hgN]; exact hNc) s hs
  rw [hc, Out.ok.injEq] at hF
  have hsw := fun φ => swapped hx hg.vand c _ hd φ
  refine ⟨t, _, e, hF.symm, hsw, fun heq => ?_⟩
  rw [QGrid.filter, hc, Out.ok.injEq, ← hF] at heq
  have hm : toMat g.o.V g.np g.np * (Matrix.diagonal c * toMat g.o.Vinv g.np g.np) = toMat g.o.V g.np g.np * (Matrix.diagonal c * toMat t0.vinv g.np g.np) := by
    ext a b
    exact Option.some.inj (congrFun (congrFun heq a) b)
  rw [← hm] at hsw
  -- the mode linear in the first coordinate
  have hnp : 1 < g.np := by unfold QGrid.np; nlinarith
  have hcol : (fun k : Fin g.np => toMat g.o.V g.np g.np k ⟨1, hnp⟩) = fun k : Fin g.np => jacobiP 0 0 0 0 * jacobiP 0 0 1 (g.n.r.getD k 0) := by
    funext k
    rw [hg.vand]
    have := quadPairs_get (N := g.N) (show 0 ≤ g.N by omega) (show 1 ≤ g.N by omega)
    rw [Nat.zero_mul, Nat.zero_add] at this
    simp only [toMat, modeMatrix, quadMode, List.getD_eq_getElem?_getD, this, Option.getD_some]
    rfl
  have hfix : ∀ a, applied (toMat g.o.V g.np g.np * (Matrix.diagonal c * toMat g.o.Vinv g.np g.np)) (fun k : Fin g.np => toMat g.o.V g.np g.np k ⟨1, hnp⟩) a = c ⟨1, hnp⟩ * toMat g.o.V g.np g.np a ⟨1, hnp⟩ := by
    intro a
    have hinv := hg.unisolvent
    rw [← hg.vand] at hinv
    show ((toMat g.o.V g.np g.np * (Matrix.diagonal c * toMat g.o.Vinv g.np g.np)) * toMat g.o.V g.np g.np) a ⟨1, hnp⟩ = _
    rw [Matrix.mul_assoc, Matrix.mul_assoc, hinv, Matrix.mul_one, Matrix.mul_diagonal, mul_comm]
  have i0 : 0 < g.np := by omega
  have i1 : g.N + 1 < g.np := by unfold QGrid.np; nlinarith
  have p0 := hx 0 (by omega) 0 (by omega)
  have p1 := hx 1 (by omega) 0 (by omega)
  simp only [Nat.zero_mul, Nat.one_mul, Nat.add_zero] at p0 p1
  have hh := hsw (fun r => jacobiP 0 0 0 0 * jacobiP 0 0 1 r) ⟨0, i0⟩ ⟨g.N + 1, i1⟩ (by rw [p0.2, p1.2])
  rw [← hcol, hfix, hfix] at hh
  have hc1 : c ⟨1, hnp⟩ ≠ 0 := (hpos ⟨1, hnp⟩ (by
    show 1 < triNp g.N
    unfold triNp
    have : 6 ≤ (g.N + 1) * (g.N + 2) := by nlinarith
    omega)).ne'
  have h1 := mul_left_cancel₀ hc1 hh
  have h2 := congrFun hcol ⟨0, i0⟩
  have h3 := congrFun hcol ⟨g.N + 1, i1⟩
  rw [h2, h3] at h1
  have h4 := leg_one _ _ (mul_left_cancel₀ (leg_zero_ne 0) h1)
  rw [p0.1, p1.1] at h4
  exact absurd h4 (hinc 0 1 (by omega) (by omega)).ne

/-- **C164, what the wrong filter is.** In every history with a file before the last `buildFilter` and every field: the values are taken for those of a polynomial at the equidistant output points, and the result is what
the filter of a new provisioner makes of the values of that polynomial at the nodes. -/
theorem C164_effect (h : QProvisioned la eps tol N m P g) (hN : 2 ≤ N) (junk : Fin g.np → Fin g.np → Option ℝ) (before after : List QAct) (Nc : ℝ) (hNc : Nc ≠ N) (s : ℤ) (hs : 1 ≤ s) (hb : ∀ a ∈ before, a.Fits g)
    (ha : ∀ a ∈ after, a.Fits g) (hl : ∀ a ∈ after, a.IsWrite) (hw : ∃ a ∈ before, a.IsWrite) :
    ∃ t, ∃ F F0 : Matrix (Fin g.np) (Fin g.np) ℝ, g.history la junk (before ++ .buildFilter Nc s :: after) = .ok t ∧ (t.filter = fun i j => some (F i j)) ∧ (g.filter Nc s = .ok fun i j => some (F0 i j)) ∧
      (∀ p : P2, QuadSpace N p → applied F (fun k => nodal (splitPts N).1 (splitPts N).2 p k) = applied F0 fun k => nodal g.n.r g.n.s p k) ∧
      ∀ u : Fin g.np → ℝ, ∃ p : P2, QuadSpace N p ∧ ∀ k : Fin g.np, nodal (splitPts N).1 (splitPts N).2 p k = u k := by
  obtain ⟨hgN, hlen, -⟩ := h.start
  obtain ⟨x0, hg, -⟩ := h.spec
  obtain ⟨t, t0, e, i, hF⟩ := hist_filter h junk before after Nc s hb ha hl
  have hd := i.dirty ⟨by omega, hw⟩
  obtain ⟨c, hc, -⟩ := filter_any g Nc (by rw [hgN]; exact hNc) s hs
  rw [hc, Out.ok.injEq] at hF
  subst hgN
  have hsl : (splitPts g.N).1.length = g.np := by rw [splitPts, List.length_map]; exact quadPairs_length g.N
  have hinv := hg.unisolvent
  rw [← hg.vand] at hinv
  refine ⟨t, _, _, e, hF.symm, hc _ _, fun p hp => ?_, fun u => ?_⟩
  · obtain ⟨a, rfl⟩ := (quadModal g.N).coeffs (pairs_len g) hp
    have e1 : (fun k : Fin g.np => nodal (splitPts g.N).1 (splitPts g.N).2 (comb (quadPairs g.N) quadPoly a) k) = (toMat (modeMatrix (quadPairs g.N) quadMode (splitPts g.N).1 (splitPts g.N).2) g.np g.np).mulVec a :=
      funext fun k => ((quadModal g.N).nodal_comb (fun _ _ => trivial) hsl a k).1
    have e2 : (fun k : Fin g.np => nodal g.n.r g.n.s (comb (quadPairs g.N) quadPoly a) k) = (toMat g.o.V g.np g.np).mulVec a := by
      rw [hg.vand]
      exact funext fun k => ((quadModal g.N).nodal_comb (fun _ _ => trivial) hg.nodes a k).1
    rw [e1, e2]
    funext k
    show ((toMat g.o.V g.np g.np * (Matrix.diagonal c * toMat t0.vinv g.np g.np)).mulVec _) k = ((toMat g.o.V g.np g.np * (Matrix.diagonal c * toMat g.o.Vinv g.np g.np)).mulVec _) k
    rw [Matrix.mulVec_mulVec, Matrix.mulVec_mulVec, Matrix.mul_assoc, Matrix.mul_assoc, Matrix.mul_assoc, Matrix.mul_assoc, hd, hinv]
  · refine ⟨comb (quadPairs g.N) quadPoly ((toMat t0.vinv g.np g.np).mulVec u), (quadModal g.N).space_comb (pairs_len g) _, fun k => ?_⟩
    rw [((quadModal g.N).nodal_comb (fun _ _ => trivial) hsl _ k).1, Matrix.mulVec_mulVec, mul_eq_one_comm.1 hd, Matrix.one_mulVec]

/-- **C164, files.** What the files show does not depend on what was called before: they picture the fields handed to the writer, one after the other. -/
theorem C164_files (h : QProvisioned la eps tol N m P g) (junk : Fin g.np → Fin g.np → Option ℝ) (l : List QAct) (hf : ∀ a ∈ l, a.Fits g) (U : ℕ → ℝ × ℝ → ℝ) (u : List ℝ) (hu : u.length = g.n.r.length * g.K) :
    ∃ t t' F, g.history la junk l = .ok t ∧ g.history la junk (l ++ [.write (sampled g.n g.K U) u]) = .ok t' ∧ t'.files = t.files ++ [F] ∧ ∃ x : ℕ → ℝ, OnGrid g x ∧ PicturesQuads N m.K x
      (fun k p => (quadCoord (g.quad k).xa (g.quad k).xb (g.quad k).xc (g.quad k).xd p.1 p.2, quadCoord (g.quad k).ya (g.quad k).yb (g.quad k).yc (g.quad k).yd p.1 p.2)) U F := by
  obtain ⟨hN, -, -, -, x, -, hx⟩ := h.start
  obtain ⟨-, -, -, hK, -⟩ := h.spec
  obtain ⟨t, e, i, -⟩ := hist_inv h l (hist_start h junk) hf
  obtain ⟨t', e', -, -, -, -, F, hF, hp⟩ := write_ok h x hx t i.dims U u hu
  refine ⟨t, t', F, e, by rw [QGrid.history, loopM_append, show loopM (g.act la) _ l = _ from e, Out.bind_ok, loopM_cons, e', Out.bind_ok, loopM_nil], hF, x, hx, ?_⟩
  rw [← hN, ← hK]
  exact hp

/-- The hypotheses are met: order four on two parallelograms, a file written before the filter is built. -/
example : ∃ g, QProvisioned exactLapack (1 / 2 ^ 52) 1e-5 4 sheared twoQuad g ∧ ∀ junk : Fin g.np → Fin g.np → Option ℝ, ∃ t t', 
    g.history exactLapack junk [.write (sampled g.n g.K fun _ p => p.1) (List.replicate (g.n.r.length * g.K) 0), .buildFilter 2 4] = .ok t ∧ g.history exactLapack junk [.buildFilter 2 4] = .ok t' ∧ t.filter ≠ t'.filter := by
  obtain ⟨g, hg⟩ := quad_grid_low sheared twoQuad sheared_ok 4 (by omega) (by omega)
  refine ⟨g, hg, fun junk => ?_⟩
  have hfit : ∀ a ∈ [QAct.write (sampled g.n g.K fun _ p => p.1) (List.replicate (g.n.r.length * g.K) 0)], a.Fits g := by
    intro a ha
    obtain rfl := List.mem_singleton.1 ha
    exact ⟨⟨_, rfl⟩, by simp⟩
  obtain ⟨t, F, e, -, -, hne⟩ := C164_written hg (by omega) junk _ [] 2 (by norm_num) 4 (by norm_num) hfit (by simp) (by simp) ⟨_, List.mem_singleton.2 rfl, trivial⟩
  obtain ⟨t', e', hF⟩ := C164_filter_partial hg junk [] [] 2 4 (by simp) (by simp) (by simp) (Or.inr (by simp))
  exact ⟨t, t', e, e', fun h => hne (by rw [hF, h])⟩

end Blitzdg.Quads
