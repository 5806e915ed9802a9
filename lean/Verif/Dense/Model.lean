import Verif.Blitz.Model

/-!
Model of the LAPACK wrappers src/DirectSolver.cpp, src/DenseMatrixinverter.cpp, src/DenseCholeskyFactorizer.cpp, src/EigenSolver.cpp.

The LAPACK routines are arbitrary functions on the buffers they are given (parameters); their contracts are stated in
`Verif.Dense.Contracts`.  Overflow of `N*N` in `int` and out-of-memory are not modelled.
-/

namespace Blitzdg.Dense

open Blitzdg.Sparse (DMat)
open Blitzdg.Blitz (reshapeMatTo1D reshape1DToMat mset)

/-- A finished call: it returned or threw; in both cases the contents of its output arguments. -/
inductive Done (β : Type) where
  | ret (out : β)
  | threw (out : β)

variable {R : Type}

/-- src/DirectSolver.cpp lines 24-63 `solve(A, B, X)`.  `dsgesv n nrhs a b` gives `info` and the contents of the solution buffer; `a` and `b` are the wrapper's own
buffers. -/
def directSolve [Zero R] (dsgesv : Nat → Nat → List R → List R → Int × List R) (A B X : DMat R) : Out (Done (DMat R)) := do
  let a ← reshapeMatTo1D A (List.replicate (A.rows * A.rows) 0) false
  let b ← reshapeMatTo1D B (List.replicate (A.rows * B.cols) 0) false
  let r := dsgesv A.rows B.cols a b
  if r.1 < 0 then .ok (.threw X)
  else if r.1 > 0 then .ok (.threw X)
  else do
    let X' ← reshape1DToMat r.2 X false
    pure (.ret X')

/-- src/DenseMatrixinverter.cpp lines 26-60 `computeInverse(A, Ainv)`; `dgetrf n a` gives `info`, the factors and the pivots, `dgetri n lu piv` gives `info` and the
inverse. -/
def computeInverse [Zero R] (dgetrf : Nat → List R → Int × List R × List Int) (dgetri : Nat → List R → List Int → Int × List R)
    (A Ainv : DMat R) : Out (Done (DMat R)) := do
  let a ← reshapeMatTo1D A (List.replicate (A.rows * A.rows) 0) false
  let f := dgetrf A.rows a
  if f.1 < 0 then .ok (.threw Ainv)
  else if f.1 > 0 then .ok (.threw Ainv)
  else
    let r := dgetri A.rows f.2.1 f.2.2
    if r.1 < 0 then .ok (.threw Ainv)
    else if r.1 > 0 then .ok (.threw Ainv)
    else do
      let X ← reshape1DToMat r.2 Ainv false
      pure (.ret X)

/-- The positions strictly below the diagonal of a matrix with `n` rows, in the order of src/DenseCholeskyFactorizer.cpp lines 49-53. -/
def belowDiag (n : Nat) : List (Nat × Nat) := (List.range n).flatMap fun i => (List.range i).map fun j => (i, j)

/-- src/DenseCholeskyFactorizer.cpp lines 49-53: zero the strictly lower part; leaving the columns of `R` is undefined. -/
def zeroLower [Zero R] (r : DMat R) : Out (DMat R) :=
  loopM (fun m ij => if ij.2 < m.cols then .ok (mset m ij.1 ij.2 0) else .ub) r (belowDiag r.rows)

/-- src/DenseCholeskyFactorizer.cpp lines 23-54 `computeCholesky(A, R)`; `dpotrf n a` (with UPLO = 'U') gives `info` and the buffer afterwards. -/
def computeCholesky [Zero R] (dpotrf : Nat → List R → Int × List R) (A r : DMat R) : Out (Done (DMat R)) := do
  let a ← reshapeMatTo1D A (List.replicate (A.rows * A.rows) 0) false
  let f := dpotrf A.rows a
  if f.1 < 0 then .ok (.threw r)
  else if f.1 > 0 then .ok (.threw r)
  else do
    let r' ← reshape1DToMat f.2 r false
    let r'' ← zeroLower r'
    pure (.ret r'')

/-- src/EigenSolver.cpp lines 70-71: `eigenvalues(i) = ww[i]`. -/
def copyVec (ww w : List R) (n : Nat) : Out (List R) :=
  loopM (fun l i => do
    let x ← rd ww i
    wr l i x) w (List.range n)

/-- src/EigenSolver.cpp lines 24-73 `solve(A, eigenvalues, eigenvectors)`.  The copy at line 40 uses the default (row by row) order.  `query` is `info` of
the workspace query, `dsyevd n a` (JOBZ = 'V', UPLO = 'U') gives `info`, the buffer afterwards and the eigenvalues. -/
def eigenSolve [Zero R] (query : Nat → Int) (dsyevd : Nat → List R → Int × List R × List R) (A : DMat R) (w : List R) (V : DMat R) :
    Out (Done (List R × DMat R)) := do
  let a ← reshapeMatTo1D A (List.replicate (A.rows * A.rows) 0) true
  if query A.rows < 0 then .ok (.threw (w, V))
  else if query A.rows > 0 then .ok (.threw (w, V))
  else
    let f := dsyevd A.rows a
    if f.1 < 0 then .ok (.threw (w, V))
    else if f.1 > 0 then .ok (.threw (w, V))
    else do
      let V' ← reshape1DToMat f.2.1 V false
      let w' ← copyVec f.2.2 w A.rows
      pure (.ret (w', V'))

end Blitzdg.Dense
