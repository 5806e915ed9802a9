import Mathlib.LinearAlgebra.Matrix.NonsingularInverse
import Mathlib.Data.List.GetD

/-!
Contracts of the LAPACK routines, as documented by LAPACK (Fortran, column-major storage with leading dimension equal to the number of rows), in exact
arithmetic.  They are hypotheses of the theorems of `Verif.Dense.Props`.
-/

namespace Blitzdg.Dense

variable {R : Type}

/-- The `m` by `n` matrix a column-major buffer stores. -/
def colMat [Zero R] (m n : Nat) (buf : List R) : Matrix (Fin m) (Fin n) R := fun i j => buf.getD (j * m + i) 0

/-- The column-major buffer of a matrix. -/
def flat [Zero R] {m n : Nat} (M : Matrix (Fin m) (Fin n) R) : List R :=
  (List.range (m * n)).map fun k => if h : k % m < m ∧ k / m < n then M ⟨k % m, h.1⟩ ⟨k / m, h.2⟩ else 0

theorem flat_length [Zero R] {m n : Nat} (M : Matrix (Fin m) (Fin n) R) : (flat M).length = m * n := by simp [flat]

theorem colMat_flat [Zero R] {m n : Nat} (M : Matrix (Fin m) (Fin n) R) : colMat m n (flat M) = M := by
  funext i j
  have hi := i.2
  have hj := j.2
  have hpos : 0 < m := by omega
  have hk : (j : Nat) * m + i < m * n := by
    calc (j : Nat) * m + i < j * m + m := by omega
      _ = (j + 1) * m := by rw [Nat.succ_mul]
      _ ≤ n * m := Nat.mul_le_mul_right _ hj
      _ = m * n := Nat.mul_comm _ _
  have h1 : ((j : Nat) * m + i) % m = i := by
    rw [Nat.add_comm, Nat.add_mul_mod_self_right]; exact Nat.mod_eq_of_lt hi
  have h2 : ((j : Nat) * m + i) / m = j := by
    rw [Nat.add_comm, Nat.add_mul_div_right _ _ hpos, Nat.div_eq_of_lt hi, Nat.zero_add]
  simp only [colMat, flat, List.getD_eq_getElem?_getD, List.getElem?_map, List.getElem?_range hk, Option.map_some, Option.getD_some]
  simp only [h1, h2]
  rw [dif_pos ⟨hi, hj⟩]

/-- The symmetric matrix given by the upper triangle of `M`: what a routine called with UPLO = 'U' sees. -/
def symUpper {n : Nat} (M : Matrix (Fin n) (Fin n) R) : Matrix (Fin n) (Fin n) R := fun i j => if i ≤ j then M i j else M j i

/-- The upper triangle of `M`, with zeros below. -/
def upper [Zero R] {n : Nat} (M : Matrix (Fin n) (Fin n) R) : Matrix (Fin n) (Fin n) R := fun i j => if i ≤ j then M i j else 0

variable [CommRing R]

/-- `dsgesv`: on `info = 0` the solution buffer holds X with A X = B. -/
structure GesvOk (dsgesv : Nat → Nat → List R → List R → Int × List R) : Prop where
  len : ∀ n m a b, a.length = n * n → b.length = n * m → (dsgesv n m a b).2.length = n * m
  sound : ∀ n m a b, a.length = n * n → b.length = n * m → (dsgesv n m a b).1 = 0 →
    colMat n n a * colMat n m (dsgesv n m a b).2 = colMat n m b
  complete : ∀ n m a b, a.length = n * n → b.length = n * m → ((dsgesv n m a b).1 = 0 ↔ 0 < n ∧ IsUnit (colMat n n a))

/-- `dgetrf` followed by `dgetri`: on `info = 0` of both, the buffer holds the inverse; for a nonsingular matrix both succeed. -/
structure GetriOk (dgetrf : Nat → List R → Int × List R × List Int) (dgetri : Nat → List R → List Int → Int × List R) : Prop where
  len : ∀ n a, a.length = n * n → (dgetri n (dgetrf n a).2.1 (dgetrf n a).2.2).2.length = n * n
  sound : ∀ n a, a.length = n * n → (dgetrf n a).1 = 0 → (dgetri n (dgetrf n a).2.1 (dgetrf n a).2.2).1 = 0 →
    colMat n n a * colMat n n (dgetri n (dgetrf n a).2.1 (dgetrf n a).2.2).2 = 1
  complete : ∀ n a, a.length = n * n → 0 < n → IsUnit (colMat n n a) →
    (dgetrf n a).1 = 0 ∧ (dgetri n (dgetrf n a).2.1 (dgetrf n a).2.2).1 = 0

/-- `dpotrf` with UPLO = 'U': on `info = 0` the upper triangle of the buffer holds U with UᵀU = the symmetric matrix; the strictly lower
triangle is not referenced, so it is whatever the caller had put there. -/
structure PotrfOk (dpotrf : Nat → List R → Int × List R) : Prop where
  len : ∀ n a, a.length = n * n → (dpotrf n a).2.length = n * n
  sound : ∀ n a, a.length = n * n → (dpotrf n a).1 = 0 →
    (upper (colMat n n (dpotrf n a).2)).transpose * upper (colMat n n (dpotrf n a).2) = symUpper (colMat n n a)
  lower : ∀ n a, a.length = n * n → ∀ i j : Fin n, j < i → colMat n n (dpotrf n a).2 i j = colMat n n a i j

/-- `dsyevd` with JOBZ = 'V', UPLO = 'U': on `info = 0` the buffer holds orthonormal eigenvectors as columns and `w` the eigenvalues in ascending
order. -/
structure SyevdOk [LE R] (dsyevd : Nat → List R → Int × List R × List R) : Prop where
  len : ∀ n a, a.length = n * n → (dsyevd n a).2.1.length = n * n ∧ (dsyevd n a).2.2.length = n
  sound : ∀ n a, a.length = n * n → (dsyevd n a).1 = 0 →
    symUpper (colMat n n a) * colMat n n (dsyevd n a).2.1 =
        colMat n n (dsyevd n a).2.1 * Matrix.diagonal (fun i : Fin n => (dsyevd n a).2.2.getD i 0) ∧
      (colMat n n (dsyevd n a).2.1).transpose * colMat n n (dsyevd n a).2.1 = 1 ∧
      ∀ i j : Fin n, i ≤ j → (dsyevd n a).2.2.getD i 0 ≤ (dsyevd n a).2.2.getD j 0

end Blitzdg.Dense
