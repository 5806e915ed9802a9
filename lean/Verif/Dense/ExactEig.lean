import Verif.Dense.Props
import Mathlib.Analysis.Matrix.Spectrum
import Mathlib.Data.Fin.Tuple.Sort

/-! An exact `dsyevd`, succeeding on every matrix: the contract `SyevdOk` is satisfiable without exceptions. -/

namespace Blitzdg.Dense

theorem exists_sorted_eig {n : Nat} (S : Matrix (Fin n) (Fin n) ℝ) (hS : S.transpose = S) :
    ∃ (V : Matrix (Fin n) (Fin n) ℝ) (d : Fin n → ℝ), S * V = V * Matrix.diagonal d ∧ V.transpose * V = 1 ∧ Monotone d := by
  have hH : S.IsHermitian := by
    unfold Matrix.IsHermitian
    rw [Matrix.conjTranspose_eq_transpose_of_trivial]; exact hS
  set U : Matrix (Fin n) (Fin n) ℝ := (hH.eigenvectorUnitary).1 with hU
  have hU1 : U.transpose * U = 1 := by
    have := Unitary.coe_star_mul_self hH.eigenvectorUnitary
    rw [Matrix.star_eq_conjTranspose, Matrix.conjTranspose_eq_transpose_of_trivial] at this
    exact this
  have hSU : S * U = U * Matrix.diagonal hH.eigenvalues := by
    have h := hH.mulVec_eigenvectorBasis
    ext i j
    have hj := congrFun (h j) i
    rw [Matrix.mul_diagonal, Matrix.mul_apply]
    simp only [Matrix.mulVec, dotProduct, Pi.smul_apply, smul_eq_mul] at hj
    rw [mul_comm]
    exact hj
  let σ := Tuple.sort hH.eigenvalues
  refine ⟨U.submatrix id σ, hH.eigenvalues ∘ σ, ?_, ?_, Tuple.monotone_sort _⟩
  · ext i j
    have hj := congrFun (congrFun hSU i) (σ j)
    rw [Matrix.mul_diagonal, Matrix.mul_apply] at hj ⊢
    exact hj
  · ext i j
    have hj := congrFun (congrFun hU1 (σ i)) (σ j)
    rw [Matrix.mul_apply] at hj ⊢
    simp only [Matrix.transpose_apply, Matrix.submatrix_apply, id] at hj ⊢
    rw [hj, Matrix.one_apply, Matrix.one_apply]
    simp

theorem symUpper_transpose {n : Nat} (M : Matrix (Fin n) (Fin n) ℝ) : (symUpper M).transpose = symUpper M := by
  funext i j
  simp only [Matrix.transpose_apply, symUpper]
  by_cases h1 : i ≤ j
  · by_cases h2 : j ≤ i
    · rw [le_antisymm h1 h2]
    · rw [if_neg h2, if_pos h1]
  · rw [if_pos (le_of_not_ge h1), if_neg h1]

/-- A `dsyevd` that always succeeds. -/
noncomputable def exactSyevd (n : Nat) (a : List ℝ) : Int × List ℝ × List ℝ :=
  let h := exists_sorted_eig (symUpper (colMat n n a)) (symUpper_transpose _)
  (0, flat h.choose, List.ofFn h.choose_spec.choose)

theorem exactSyevd_ok : SyevdOk exactSyevd := by
  refine ⟨fun n a _ => ⟨flat_length _, List.length_ofFn⟩, fun n a _ _ => ?_⟩
  obtain ⟨h1, h2, h3⟩ := (exists_sorted_eig (symUpper (colMat n n a)) (symUpper_transpose _)).choose_spec.choose_spec
  have hg : ∀ i : Fin n, (exactSyevd n a).2.2.getD i 0 = (exists_sorted_eig (symUpper (colMat n n a)) (symUpper_transpose _)).choose_spec.choose i := by
    intro i; simp [exactSyevd, List.getD_eq_getElem?_getD]
  simp only [hg]
  rw [show (exactSyevd n a).2.1 = flat (exists_sorted_eig (symUpper (colMat n n a)) (symUpper_transpose _)).choose from rfl, colMat_flat]
  exact ⟨h1, h2, fun i j hij => h3 hij⟩

/-- With `exactSyevd` and a successful workspace query the wrapper returns normally on every square matrix. -/
theorem eigenSolve_returns (A : Sparse.DMat ℝ) (w : List ℝ) (V : Sparse.DMat ℝ) (n : Nat) (hA : A.rows = n ∧ A.cols = n) (hw : w.length = n)
    (hV : V.rows = n ∧ V.cols = n) : ∃ w' V', eigenSolve (fun _ => 0) exactSyevd A w V = .ok (.ret (w', V')) := by
  rcases C37_eigen (fun _ => 0) exactSyevd exactSyevd_ok A w V n hA hw hV with h | ⟨w', V', h, _⟩
  · exfalso
    obtain ⟨a, ha, la, ea⟩ := loadT A n hA.1 hA.2
    simp only [eigenSolve, hA.1, ha, Out.bind_ok] at h
    obtain ⟨hlv, hlw⟩ := exactSyevd_ok.len n a la
    obtain ⟨V', hx, rr, cc, ex⟩ := store (exactSyevd n a).2.1 V n n hV.1 hV.2 hlv
    have hcp := copyLoop (exactSyevd n a).2.2 w n (by omega) (by omega)
    have hi : (exactSyevd n a).1 = 0 := rfl
    rw [hi, hx] at h
    simp [hcp] at h
  · exact ⟨w', V', h⟩

end Blitzdg.Dense
