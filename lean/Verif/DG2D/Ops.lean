import Verif.DG2D.Basis
import Verif.Nodes1D.Ops

/-!
Reference operators of the two-dimensional provisioners: Vandermonde matrix and inverse, differentiation matrices (strong and weak), lift, interpolation.  Exact
arithmetic; LAPACK routines are parameters.  The same definitions serve triangles and quadrilaterals, whose code differs only in the modes, in the number of faces
and in the coordinate used along each face.

Simplifications: local arrays that the code leaves uninitialised and then overwrites entirely start at zero; entries of `Fmask` are node numbers (they are produced by
`fmask`, which only stores node numbers), so reading `r(Fmask(i,f))` is written with a default.
-/

namespace Blitzdg.DG2D

open Blitzdg.Sparse (DMat)
open Blitzdg.Blitz (mset)
open Blitzdg.Dense (Done directSolve computeInverse)
open Blitzdg.Nodes1D (Lapack uncaught vandermonde trans)

/-- A freshly allocated matrix. -/
def fresh (m n : ℕ) : DMat ℝ := { rows := m, cols := n, at' := fun _ _ => 0 }

/-- `sum(A(ii,kk)*B(kk,jj), kk)`. -/
noncomputable def mul (A B : DMat ℝ) : DMat ℝ where
  rows := A.rows
  cols := B.cols
  at' := fun i j => ∑ k ∈ Finset.range A.cols, A.at' i k * B.at' k j

/-- `LinSolver.solve(A, B, X)` into a fresh matrix; an exception is not caught. -/
noncomputable def solveInto (la : Lapack) (A B : DMat ℝ) (m n : ℕ) : Out (DMat ℝ) := directSolve la.dsgesv A B (fresh m n) >>= uncaught

/-- `Inverter.computeInverse(A, X)` into a fresh matrix. -/
noncomputable def invertInto (la : Lapack) (A : DMat ℝ) (m n : ℕ) : Out (DMat ℝ) := computeInverse la.dgetrf la.dgetri A (fresh m n) >>= uncaught

/-- An expression assigned to an array with `n` columns. -/
def withCols (A : DMat ℝ) (n : ℕ) : DMat ℝ := { rows := A.rows, cols := n, at' := A.at' }

structure Diff where
  Dr : DMat ℝ
  Ds : DMat ℝ
  Drw : DMat ℝ
  Dsw : DMat ℝ

/-- src/TriangleNodesProvisioner.cpp lines 456-512 `computeDifferentiationMatrices`; src/QuadNodesProvisioner.cpp lines 114-168 is the same with `Vc = V`.  The arrays `VVrt` and `VVst` have
as many columns as there are nodes (line 495), whatever the number of columns of the product assigned to them. -/
noncomputable def diffMatrices (la : Lapack) (V2Dr V2Ds V Vc : DMat ℝ) : Out Diff := do
  let Drt ← solveInto la (trans V) (trans V2Dr) V.rows V2Dr.rows
  let Dst ← solveInto la (trans V) (trans V2Ds) V.rows V2Dr.rows
  let VVt := mul Vc (trans Vc)
  let VVrt := withCols (mul Vc (trans V2Dr)) V.rows
  let VVst := withCols (mul Vc (trans V2Ds)) V.rows
  let Drwt ← solveInto la (trans VVt) (trans VVrt) V.rows V2Dr.rows
  let Dswt ← solveInto la (trans VVt) (trans VVst) V.rows V2Dr.rows
  pure { Dr := trans Drt, Ds := trans Dst, Drw := trans Drwt, Dsw := trans Dswt }

/-- The mass matrix of one face with nodes `t`: src/TriangleNodesProvisioner.cpp lines 1086-1089 (and 1102-1105, 1116-1119). -/
noncomputable def edgeMass (la : Lapack) (t : List ℝ) : Out (DMat ℝ) := do
  let V1 := vandermonde t t.length
  let _ ← invertInto la V1 t.length t.length
  invertInto la (mul V1 (trans V1)) t.length t.length

/-- src/TriangleNodesProvisioner.cpp lines 1091-1096: `E(Fm(i,f), off + j) = massEdge(i,j)`. -/
def fillFace (nfp : ℕ) (fm : ℕ → ℕ) (M : DMat ℝ) (off : ℕ) (E : DMat ℝ) : DMat ℝ :=
  (Sparse.rowMajor nfp nfp).foldl (fun E ij => mset E (fm ij.1) (off + ij.2) (M.at' ij.1 ij.2)) E

/-- Coordinates of the nodes of face `f` along that face; `onS f` tells whether the code takes `s` (src/TriangleNodesProvisioner.cpp lines 1083-1084, 1099-1100,
1113-1114; src/QuadNodesProvisioner.cpp lines 638-639, 654-655, 668-669, 682-683). -/
def faceCoords (nfp : ℕ) (fm : ℕ → ℕ → ℕ) (onS : ℕ → Bool) (r s : List ℝ) (f : ℕ) : List ℝ :=
  (List.range nfp).map fun i => (if onS f then s else r).getD (fm i f) 0

/-- The matrix `E` of face masses. -/
noncomputable def faceMatrix (la : Lapack) (nf nfp np : ℕ) (fm : ℕ → ℕ → ℕ) (onS : ℕ → Bool) (r s : List ℝ) : Out (DMat ℝ) :=
  loopM (fun E f => do
    let M ← edgeMass la (faceCoords nfp fm onS r s f)
    pure (fillFace nfp (fun i => fm i f) M (f * nfp) E)) (fresh np (nf * nfp)) (List.range nf)

/-- Triangles take `r` along faces 0 and 1, `s` along face 2 (src/TriangleNodesProvisioner.cpp lines 1083-1114). -/
def triOnS (f : ℕ) : Bool := f == 2

/-- Quadrilaterals take `r` along faces 0 and 2, `s` along faces 1 and 3 (src/QuadNodesProvisioner.cpp lines 638-683). -/
def quadOnS (f : ℕ) : Bool := f % 2 == 1

structure RefOps where
  V : DMat ℝ
  Vinv : DMat ℝ
  lift : DMat ℝ
  d : Diff

/-- src/TriangleNodesProvisioner.cpp lines 1060-1137 `buildLift` followed by lines 789-793 of `buildPhysicalGrid`; src/QuadNodesProvisioner.cpp `buildLift` (lines 615-705)
and the corresponding lines of its `buildPhysicalGrid`. -/
noncomputable def buildRefOps (la : Lapack) (pairs : List (ℕ × ℕ)) (mode modeR modeS : ℕ × ℕ → ℝ → ℝ → ℝ) (nf nfp : ℕ) (onS : ℕ → Bool) (fm : ℕ → ℕ → ℕ)
    (r s : List ℝ) : Out RefOps := do
  let E ← faceMatrix la nf nfp r.length fm onS r s
  let V := modeMatrix pairs mode r s
  let Vinv ← invertInto la V r.length r.length
  let d ← diffMatrices la (modeMatrix pairs modeR r s) (modeMatrix pairs modeS r s) V V
  pure { V := V, Vinv := Vinv, lift := mul (mul V (trans V)) E, d := d }

/-- src/TriangleNodesProvisioner.cpp lines 1139-1152 `computeInterpMatrix` with the stored inverse `Vinv`. -/
noncomputable def triInterp (N : ℕ) (Vinv : DMat ℝ) (rout sout : List ℝ) : DMat ℝ := mul (modeMatrix (triPairs N) triMode rout sout) Vinv

/-- src/QuadNodesProvisioner.cpp lines 707-719 `computeInterpMatrix`, which calls `computeVandermondeMatrix` (lines 76-92).  The latter overwrites the member `Vinv`
with the inverse of the matrix it has just computed.  Result: the interpolation matrix and the new contents of `Vinv`. -/
noncomputable def quadInterp (la : Lapack) (N : ℕ) (Vinv : DMat ℝ) (rout sout : List ℝ) : Out (DMat ℝ × DMat ℝ) := do
  let Vout := modeMatrix (quadPairs N) quadMode rout sout
  let Vinv' ← (computeInverse la.dgetrf la.dgetri Vout Vinv >>= uncaught)
  pure (mul Vout Vinv', Vinv')

end Blitzdg.DG2D
