import Verif.DG2D.Split
import Verif.DG2D.Ops

/-! Model of `writeFieldToFile` of include/VtkOutputter.hpp: the grid handed to the VTK writer. -/

namespace Blitzdg.Output

open Blitzdg.Sparse (DMat)
open Blitzdg.DG2D
open Blitzdg.Nodes1D (Lapack)

/-- The `vtkUnstructuredGrid`: points (with third coordinate zero), scalar values of the points, and the point numbers of the cells. -/
structure VtkFile where
  points : List (ℝ × ℝ)
  values : List ℝ
  cells : List (List ℕ)

/-- `a(n, k)`. -/
def getAt (a : DMat ℝ) (n k : ℕ) : Out ℝ := if n < a.rows ∧ k < a.cols then .ok (a.at' n k) else .ub

/-- Body of the inner loop, include/VtkOutputter.hpp lines 124-131: `InsertPoint`, `SetValue`. -/
def insertNode (x y f : DMat ℝ) (k : ℕ) (s : List (ℝ × ℝ) × List ℝ) (n : ℕ) : Out (List (ℝ × ℝ) × List ℝ) := do
  let a ← getAt x n k
  let b ← getAt y n k
  let v ← getAt f n k
  pure (s.1 ++ [(a, b)], s.2 ++ [v])

/-- Body of the outer loop, include/VtkOutputter.hpp lines 123-140. -/
def insertCell (x y f : DMat ℝ) (F : VtkFile) (k : ℕ) : Out VtkFile := do
  let s ← loopM (insertNode x y f k) (F.points, F.values) (List.range f.rows)
  let cell ← vtkCell f.rows k
  pure { points := s.1, values := s.2, cells := F.cells ++ [cell] }

/-- include/VtkOutputter.hpp lines 108-141 `insertAllCells`.  The cell type is not kept: it is determined by the number of nodes, three or four. -/
def insertAllCells (x y f : DMat ℝ) : Out VtkFile := loopM (insertCell x y f) ⟨[], [], []⟩ (List.range f.cols)

/-- The matrices `xnew`, `ynew`, `fieldnew` from their columns. -/
def ofCols (np : ℕ) (cols : List (List ℝ)) : DMat ℝ := ⟨np, cols.length, fun c i => (cols.getD i []).getD c 0⟩

/-- `rout`, `sout` of `splitElements` (src/TriangleNodesProvisioner.cpp lines 1169-1170, src/QuadNodesProvisioner.cpp lines 738-739). -/
noncomputable def outPts (N : ℕ) (pts : List (ℕ × ℕ)) : List ℝ × List ℝ :=
  (pts.map fun p => -1 + 2 * (p.1 : ℝ) / N, pts.map fun p => -1 + 2 * (p.2 : ℝ) / N)

/-- The matrix `IM(Np, Np)` with the entries of `M`. -/
def square (np : ℕ) (M : DMat ℝ) : DMat ℝ := ⟨np, np, M.at'⟩

/-- include/VtkOutputter.hpp lines 48-94 `writeFieldToFile` for a triangle provisioner of order `N` with stored inverse `Vinv` and grids `x`, `y`; `u` are the uninitialised
contents of the vectors of `splitElements` (src/TriangleNodesProvisioner.cpp lines 1154-1264). -/
noncomputable def vtkTri (N : ℕ) (Vinv x y f : DMat ℝ) (u : List ℝ) : Out VtkFile :=
  if 1 < N then do
    let l ← lattice N f.rows (triLattice N)
    let IM := square f.rows (triInterp N Vinv (outPts N l.pts).1 (outPts N l.pts).2)
    let xs ← splitTri N (mul IM x) u
    let ys ← splitTri N (mul IM y) u
    let fs ← splitTri N (mul IM f) u
    insertAllCells (ofCols 3 xs) (ofCols 3 ys) (ofCols 3 fs)
  else insertAllCells x y f

/-- The same for a quadrilateral provisioner (src/QuadNodesProvisioner.cpp lines 721-838); the second component is the stored inverse afterwards. -/
noncomputable def vtkQuad (la : Lapack) (N : ℕ) (Vinv x y f : DMat ℝ) (u : List ℝ) : Out (VtkFile × DMat ℝ) :=
  if 1 < N then do
    let l ← lattice N f.rows (quadLattice N)
    let (M, Vinv') ← quadInterp la N Vinv (outPts N l.pts).1 (outPts N l.pts).2
    let IM := square f.rows M
    let xs ← splitQuad N (mul IM x) u
    let ys ← splitQuad N (mul IM y) u
    let fs ← splitQuad N (mul IM f) u
    let F ← insertAllCells (ofCols 4 xs) (ofCols 4 ys) (ofCols 4 fs)
    pure (F, Vinv')
  else insertAllCells x y f >>= fun F => .ok (F, Vinv)

end Blitzdg.Output
