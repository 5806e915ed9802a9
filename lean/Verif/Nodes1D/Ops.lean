import Verif.Jacobi.Quad
import Verif.Nodes1D.Model

/-!
Model of the reference operators of src/Nodes1DProvisioner.cpp (`buildNodes` lines 57-67, `buildDr`, `buildLift`) and include/VandermondeBuilders.hpp, in exact arithmetic.
LAPACK routines are parameters.  An exception leaves `buildNodes`; the state of the provisioner after it is not modelled.
-/

namespace Blitzdg.Nodes1D

open Blitzdg.Sparse (DMat)
open Blitzdg.Dense (Done directSolve computeInverse)
open Blitzdg.Jacobi (jacobiP gradJacobi gllPoints)

/-- The LAPACK routines, as used by the wrappers of `Verif.Dense.Model`. -/
structure Lapack where
  dsgesv : Nat → Nat → List ℝ → List ℝ → Int × List ℝ
  dgetrf : Nat → List ℝ → Int × List ℝ × List Int
  dgetri : Nat → List ℝ → List Int → Int × List ℝ
  query : Nat → Int
  dsyevd : Nat → List ℝ → Int × List ℝ × List ℝ

/-- An exception thrown by a wrapper is not caught. -/
def uncaught {β : Type} : Done β → Out β
  | .ret b => .ok b
  | .threw _ => .throws

/-- include/VandermondeBuilders.hpp lines 46-52: column `j` holds the values of the polynomial of degree `j`. -/
noncomputable def vandermonde (r : List ℝ) (cols : ℕ) : DMat ℝ where
  rows := r.length
  cols := cols
  at' := fun i j => jacobiP 0 0 j (r.getD i 0)

/-- include/VandermondeBuilders.hpp lines 65-74 `computeGradVandermonde`. -/
noncomputable def gradVandermonde (r : List ℝ) : DMat ℝ where
  rows := r.length
  cols := r.length
  at' := fun i j => gradJacobi 0 0 j (r.getD i 0)

/-- `A(jj, ii)` assigned to a new matrix. -/
def trans (A : DMat ℝ) : DMat ℝ where
  rows := A.cols
  cols := A.rows
  at' := fun i j => A.at' j i

/-- src/Nodes1DProvisioner.cpp lines 283-307 `buildDr`.  The uninitialised local `Drtrans` is entirely overwritten. -/
noncomputable def buildDr (dsgesv : Nat → Nat → List ℝ → List ℝ → Int × List ℝ) (N : ℕ) (r : List ℝ) (V : DMat ℝ) : Out (DMat ℝ) := do
  let Drtrans ← (directSolve dsgesv (trans V) (trans (gradVandermonde r)) { rows := N + 1, cols := N + 1, at' := fun _ _ => 0 } >>= uncaught)
  pure (trans Drtrans)

/-- src/Nodes1DProvisioner.cpp lines 246-249: the face selection matrix. -/
noncomputable def faceE (np : ℕ) (l f : ℕ) : ℝ := if (l = 0 ∧ f = 0) ∨ (l = np - 1 ∧ f = 1) then 1 else 0

/-- src/Nodes1DProvisioner.cpp lines 240-259 `buildLift`. -/
noncomputable def buildLift (np : ℕ) (V : DMat ℝ) : DMat ℝ where
  rows := np
  cols := 2
  at' := fun i f => ∑ k ∈ Finset.range np, V.at' i k * ∑ l ∈ Finset.range np, V.at' l k * faceE np l f

/-- The reference operators held by the provisioner. -/
structure Ops where
  r : List ℝ
  V : DMat ℝ
  Vinv : DMat ℝ
  Dr : DMat ℝ
  lift : DMat ℝ

/-- src/Nodes1DProvisioner.cpp lines 58-67: the first part of `buildNodes`.  `r0`, `Vinv0` are the previous contents of the two arrays. -/
noncomputable def buildOps (la : Lapack) (eps : ℝ) (N : ℕ) (r0 : List ℝ) (Vinv0 : DMat ℝ) : Out Ops := do
  let r ← (gllPoints la.query la.dsyevd 0 0 eps N r0 >>= uncaught)
  let V := vandermonde r (N + 1)
  let Vinv ← (computeInverse la.dgetrf la.dgetri V Vinv0 >>= uncaught)
  let Dr ← buildDr la.dsgesv N r V
  pure { r := r, V := V, Vinv := Vinv, Dr := Dr, lift := buildLift (N + 1) V }

end Blitzdg.Nodes1D
