import Verif.Jacobi.Model
import Verif.Dense.Model

/-!
Model of the quadrature rules of src/JacobiBuilders.cpp, in exact arithmetic.  The eigenvalue routine is the wrapper modelled in
`Verif.Dense.Model`, whose LAPACK routine is a parameter.
-/

namespace Blitzdg.Jacobi

open Blitzdg.Sparse (DMat rowMajor)
open Blitzdg.Blitz (mset)
open Blitzdg.Dense (Done eigenSolve)

/-- The matrix before symmetrising, src/JacobiBuilders.cpp lines 68-80.  For `α + β = 0` the code computes `J(0,0) = 0/0 = NaN` (or ±∞) at line 72 and replaces
it by 0 at line 79, as here. -/
noncomputable def gaussUpper (α β eps : ℝ) (N : ℕ) : DMat ℝ where
  rows := N + 1
  cols := N + 1
  at' := fun i j =>
    if i = j then (if i = 0 ∧ α + β < 10 * eps then 0 else -0.5 * (α * α - β * β) / ((2 * i + α + β) + 2) / (2 * i + α + β))
    else if j = i + 1 ∧ i < N then anew α β i
    else 0

/-- `J = J(ii,jj) + J(jj,ii)`, src/JacobiBuilders.cpp line 81.  The expression is evaluated in place, entry after entry in storage order, so later
entries read the new values of earlier ones. -/
def addTranspose (m : DMat ℝ) : DMat ℝ :=
  (rowMajor m.rows m.cols).foldl (fun m ij => mset m ij.1 ij.2 (m.at' ij.1 ij.2 + m.at' ij.2 ij.1)) m

/-- `w = (v1*v1)*gamma0` where `v1` is the first row of the eigenvector matrix: src/JacobiBuilders.cpp lines 90-95.  `v1` has `N + 1` entries; a longer `w` reads
past its end. -/
noncomputable def firstRowWeights (α β : ℝ) (N : ℕ) (V : DMat ℝ) (w : List ℝ) : Out (List ℝ) :=
  if w.length ≤ N + 1 then .ok ((List.range w.length).map fun i => V.at' 0 i * V.at' 0 i * gamma0 α β) else .ub

/-- src/JacobiBuilders.cpp lines 54-96 `computeJacobiQuadWeights`; `eps` is the machine epsilon.  The local eigenvector matrix is uninitialised in the code; all its
entries are overwritten. -/
noncomputable def quadWeights (query : Nat → Int) (dsyevd : Nat → List ℝ → Int × List ℝ × List ℝ) (α β eps : ℝ) (N : ℕ) (x w : List ℝ) :
    Out (Done (List ℝ × List ℝ)) :=
  if N = 0 then do
    let x' ← wr x 0 (-(α - β) / (α + β + 2))
    let w' ← wr w 0 2
    pure (.ret (x', w'))
  else do
    match ← eigenSolve query dsyevd (addTranspose (gaussUpper α β eps N)) x { rows := N + 1, cols := N + 1, at' := fun _ _ => 0 } with
    | .threw (x', _) => pure (.threw (x', w))
    | .ret (x', V) =>
      let w' ← firstRowWeights α β N V w
      pure (.ret (x', w'))

/-- src/JacobiBuilders.cpp lines 113-114: `x(i) = xJG(i-1)` for `1 ≤ i < N`. -/
def copyInterior (N : ℕ) (xJG x : List ℝ) : Out (List ℝ) :=
  loopM (fun l k => do
    let v ← rd xJG k
    wr l (k + 1) v) x (List.range (N - 1))

/-- src/JacobiBuilders.cpp lines 98-115 `computeGaussLobottoPoints`.  `N = 0` asks for arrays of length -1: undefined. -/
noncomputable def gllPoints (query : Nat → Int) (dsyevd : Nat → List ℝ → Int × List ℝ × List ℝ) (α β eps : ℝ) (N : ℕ) (x : List ℝ) :
    Out (Done (List ℝ)) :=
  if N = 1 then do
    let x ← wr x 0 (-1)
    let x ← wr x 1 1
    pure (.ret x)
  else if N = 0 then .ub
  else do
    let x ← wr x 0 (-1)
    let x ← wr x N 1
    match ← quadWeights query dsyevd (α + 1) (β + 1) eps (N - 2) (List.replicate (N - 1) 0) (List.replicate (N - 1) 0) with
    | .threw _ => pure (.threw x)
    | .ret (xJG, _) =>
      let x ← copyInterior N xJG x
      pure (.ret x)

end Blitzdg.Jacobi
