import Verif.Dense.Props
import Mathlib.Analysis.Matrix.LDL

/-! Cholesky factorisation of positive definite matrices: the contract of `dpotrf` including success, and that it can be met. -/

namespace Blitzdg.Dense

open Blitzdg.Sparse (DMat)

/-- `dpotrf` with UPLO = 'U' as documented by LAPACK: in addition to `PotrfOk`, it succeeds on positive definite matrices. -/
structure PotrfFull (dpotrf : ℕ → List ℝ → Int × List ℝ) : Prop extends PotrfOk dpotrf where
  complete : ∀ n a, a.length = n * n → (symUpper (colMat n n a)).PosDef → (dpotrf n a).1 = 0

/-- **C37, DenseCholeskyFactorizer, success.** A symmetric positive definite matrix is factorised. -/
theorem C37_cholesky_posdef (dpotrf : ℕ → List ℝ → Int × List ℝ) (hl : PotrfFull dpotrf) (A r : DMat ℝ) (n : ℕ) (hA : A.rows = n ∧ A.cols = n) (hr : r.rows = n ∧ r.cols = n)
    (hp : (toMat A n n).PosDef) : ∃ r', computeCholesky dpotrf A r = .ok (.ret r') ∧ r'.rows = n ∧ r'.cols = n ∧
      (∀ i j : Fin n, j < i → toMat r' n n i j = 0) ∧ (toMat r' n n).transpose * toMat r' n n = toMat A n n := by
  have hsym : ∀ i j, toMat A n n i j = toMat A n n j i := by
    intro i j
    have := congrFun (congrFun hp.isHermitian.eq i) j
    simpa using this.symm
  have hs : symUpper (toMat A n n) = toMat A n n := by
    funext i j
    unfold symUpper
    split_ifs
    · rfl
    · exact hsym j i
  rcases C37_cholesky dpotrf hl.toPotrfOk A r n hA hr with h | ⟨r', h1, h2, h3, h4, -, h5⟩
  · exfalso
    obtain ⟨a, ha, la, ea⟩ := load A n n hA.1 hA.2
    have hi := hl.complete n a la (by rw [ea, hs]; exact hp)
    simp only [computeCholesky, hA.1, ha, Out.bind_ok] at h
    rw [if_neg (by omega), if_neg (by omega)] at h
    obtain ⟨r', -, h'⟩ := Out.bind_eq_ok.1 h
    obtain ⟨r'', -, h'⟩ := Out.bind_eq_ok.1 h'
    cases h'
  · exact ⟨r', h1, h2, h3, h4, h5 hsym⟩

/-! ### The contract can be met -/

theorem chol_exists {n : ℕ} (S : Matrix (Fin n) (Fin n) ℝ) (hS : S.PosDef) : ∃ U : Matrix (Fin n) (Fin n) ℝ, (∀ i j, j < i → U i j = 0) ∧ U.transpose * U = S := by
  have hd : ∀ i, 0 ≤ LDL.diagEntries hS i := by
    intro i
    have h1 := (hS.posSemidef.mul_mul_conjTranspose_same (LDL.lowerInv hS)).diag_nonneg (i := i)
    rw [← LDL.diag_eq_lowerInv_conj hS] at h1
    simpa [LDL.diag] using h1
  have hL : ∀ i j, i < j → LDL.lower hS i j = 0 := by
    have hb : (LDL.lowerInv hS).BlockTriangular OrderDual.toDual := fun i j hij => LDL.lowerInv_triangular hS hij
    have := Matrix.blockTriangular_inv_of_blockTriangular hb
    exact fun i j hij => this hij
  refine ⟨Matrix.diagonal (fun i => √(LDL.diagEntries hS i)) * (LDL.lower hS).transpose, ?_, ?_⟩
  · intro i j hij
    rw [Matrix.diagonal_mul, Matrix.transpose_apply, hL j i hij, mul_zero]
  · conv_rhs => rw [← LDL.lower_conj_diag hS]
    rw [Matrix.transpose_mul, Matrix.transpose_transpose, Matrix.diagonal_transpose, Matrix.mul_assoc, ← Matrix.mul_assoc (Matrix.diagonal _), Matrix.diagonal_mul_diagonal, Matrix.mul_assoc,
      Matrix.conjTranspose_eq_transpose_of_trivial]
    congr 2
    unfold LDL.diag
    congr 1
    funext i
    exact Real.mul_self_sqrt (hd i)

/-- `U` with the strictly lower part of `A`. -/
def keepLower {n : ℕ} (U A : Matrix (Fin n) (Fin n) ℝ) : Matrix (Fin n) (Fin n) ℝ := fun i j => if i ≤ j then U i j else A i j

open Classical in
/-- An exact `dpotrf`. -/
noncomputable def exactPotrf (n : ℕ) (a : List ℝ) : Int × List ℝ :=
  if h : ∃ U : Matrix (Fin n) (Fin n) ℝ, (∀ i j, j < i → U i j = 0) ∧ U.transpose * U = symUpper (colMat n n a) then
    (0, flat (keepLower h.choose (colMat n n a)))
  else (1, a)

theorem exactPotrf_full : PotrfFull exactPotrf := by
  refine ⟨⟨?_, ?_, ?_⟩, ?_⟩
  · intro n a ha
    unfold exactPotrf
    split_ifs with hU
    · exact flat_length (keepLower hU.choose (colMat n n a))
    · exact ha
  · intro n a _ h
    unfold exactPotrf at h ⊢
    by_cases hU : ∃ U : Matrix (Fin n) (Fin n) ℝ, (∀ i j, j < i → U i j = 0) ∧ U.transpose * U = symUpper (colMat n n a)
    swap
    · rw [dif_neg hU] at h; cases h
    rw [dif_pos hU]
    obtain ⟨h1, h2⟩ := hU.choose_spec
    have e : upper (colMat n n (flat (keepLower hU.choose (colMat n n a)))) = hU.choose := by
      rw [colMat_flat]
      funext i j
      unfold upper keepLower
      split_ifs with hij
      · rfl
      · exact (h1 i j (not_le.1 hij)).symm
    simp only [e]
    exact h2
  · intro n a _ i j hij
    unfold exactPotrf
    split_ifs with hU
    · rw [colMat_flat]
      unfold keepLower
      rw [if_neg (not_le.2 hij)]
    · rfl
  · intro n a _ hp
    unfold exactPotrf
    rw [dif_pos (chol_exists _ hp)]

/-- The matrix `[[2, 1], [1, 2]]`. -/
example : ∃ r', computeCholesky exactPotrf ⟨2, 2, fun i j => if i = j then 2 else 1⟩ ⟨2, 2, fun _ _ => 7⟩ = .ok (.ret r') ∧ r'.at' 1 0 = 0 ∧ r'.at' 0 0 * r'.at' 0 1 = 1 := by
  obtain ⟨r', h, -, -, h1, h2⟩ := C37_cholesky_posdef exactPotrf exactPotrf_full ⟨2, 2, fun i j => if i = j then 2 else 1⟩ ⟨2, 2, fun _ _ => 7⟩ 2 ⟨rfl, rfl⟩ ⟨rfl, rfl⟩ (by
    rw [Matrix.posDef_iff_dotProduct_mulVec]
    refine ⟨?_, fun x hx => ?_⟩
    · ext i j
      fin_cases i <;> fin_cases j <;> simp [toMat]
    · simp only [dotProduct, Matrix.mulVec, Fin.sum_univ_two, toMat, star_trivial]
      norm_num
      by_contra hcon
      apply hx
      have h0 : x 0 = 0 := by nlinarith [sq_nonneg (x 0 + x 1), sq_nonneg (x 0), sq_nonneg (x 1)]
      have h1 : x 1 = 0 := by nlinarith [sq_nonneg (x 0 + x 1), sq_nonneg (x 0), sq_nonneg (x 1)]
      funext i
      fin_cases i
      · exact h0
      · exact h1)
  refine ⟨r', h, h1 1 0 (by decide), ?_⟩
  have := congrFun (congrFun h2 0) 1
  rw [Matrix.mul_apply, Fin.sum_univ_two] at this
  have e : toMat r' 2 2 1 0 = 0 := h1 1 0 (by decide)
  rw [Matrix.transpose_apply, Matrix.transpose_apply, e, zero_mul, add_zero] at this
  exact this

end Blitzdg.Dense
