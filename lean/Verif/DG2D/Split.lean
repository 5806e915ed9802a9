import Verif.DG2D.Gather
import Verif.Blitz.Model

/-!
`splitElements` of the triangle and quadrilateral provisioners, and the cells written by the VTK outputter.

The equispaced points are kept as lattice pairs: the point of column `m` and row `n` is `r = -1 + 2 m / N`, `s = -1 + 2 n / N`.
The interpolated fields `resultx`, `resulty`, `resultField` are an arbitrary dense matrix: interpolation itself is in Interp.lean.
-/

namespace Blitzdg.DG2D

open Blitzdg.Sparse (DMat)
open Blitzdg.Blitz (rdI reshapeMatTo1D)

/-- State of the first loop nest: `counter`, the points `(rout, sout)` as lattice pairs `(m, n)`, and `count`. -/
structure Lattice where
  counter : List Int
  pts : List (Nat × Nat)
  count : Nat
deriving DecidableEq

/-- `counter(n, m)` on the `(N+1)` by `(N+1)` array. -/
def counterAt (N : Nat) (c : List Int) (n m : Nat) : Out Int :=
  if n ≤ N ∧ m ≤ N then rd c (n * (N + 1) + m) else .ub

/-- Loop body, src/TriangleNodesProvisioner.cpp lines 1169-1173, src/QuadNodesProvisioner.cpp lines 738-742. -/
def latticeStep (N : Nat) (s : Lattice) (p : Nat × Nat) : Out Lattice := do
  let pts ← wr s.pts s.count (p.2, p.1)
  let c ← if p.1 ≤ N ∧ p.2 ≤ N then wr s.counter (p.1 * (N + 1) + p.2) (s.count : Int) else .ub
  pure { counter := c, pts := pts, count := s.count + 1 }

/-- Iteration order `(n, m)`: `n < N+1`, `m < N+2-(n+1)` (src/TriangleNodesProvisioner.cpp lines 1167-1168). -/
def triLattice (N : Nat) : List (Nat × Nat) :=
  (List.range (N + 1)).flatMap fun n => (List.range (N + 2 - (n + 1))).map fun m => (n, m)

/-- Iteration order `(n, m)`: `n < N+1`, `m < N+1` (src/QuadNodesProvisioner.cpp lines 736-737). -/
def quadLattice (N : Nat) : List (Nat × Nat) :=
  (List.range (N + 1)).flatMap fun n => (List.range (N + 1)).map fun m => (n, m)

/-- src/TriangleNodesProvisioner.cpp lines 1156-1175 and src/QuadNodesProvisioner.cpp lines 724-744; `np = field.rows()`. -/
def lattice (N np : Nat) (order : List (Nat × Nat)) : Out Lattice :=
  loopM (latticeStep N) { counter := List.replicate ((N + 1) * (N + 1)) (-1), pts := List.replicate np (0, 0), count := 0 } order

/-- Loop body, src/TriangleNodesProvisioner.cpp lines 1187-1202: append one or two triangles. -/
def triStep (N : Nat) (c : List Int) (acc : List (List Int)) (p : Nat × Nat) : Out (List (List Int)) := do
  let v1 ← counterAt N c p.1 p.2
  let v2 ← counterAt N c p.1 (p.2 + 1)
  let v3 ← counterAt N c (p.1 + 1) p.2
  let v4 ← counterAt N c (p.1 + 1) (p.2 + 1)
  let acc := acc ++ [[v1, v2, v3]]
  pure (if v4 ≥ 0 then acc ++ [[v2, v4, v3]] else acc)

/-- Iteration order: `n < N+1`, `m < N+1-(n+1)` (src/TriangleNodesProvisioner.cpp lines 1185-1186). -/
def triCells (N : Nat) : List (Nat × Nat) :=
  (List.range (N + 1)).flatMap fun n => (List.range (N + 1 - (n + 1))).map fun m => (n, m)

/-- `localE2V` of the triangle provisioner; its length is `numLocalElements` (src/TriangleNodesProvisioner.cpp lines 1182-1204). -/
def localTris (N : Nat) (c : List Int) : Out (List (List Int)) := loopM (triStep N c) [] (triCells N)

/-- Loop body, src/QuadNodesProvisioner.cpp lines 756-770. -/
def quadStep (N : Nat) (c : List Int) (acc : List (List Int)) (p : Nat × Nat) : Out (List (List Int)) := do
  let v1 ← counterAt N c p.1 p.2
  let v2 ← counterAt N c p.1 (p.2 + 1)
  let v3 ← counterAt N c (p.1 + 1) p.2
  let v4 ← counterAt N c (p.1 + 1) (p.2 + 1)
  pure (acc ++ [[v1, v2, v3, v4]])

/-- Iteration order: `n < N`, `m < N` (src/QuadNodesProvisioner.cpp lines 754-755). -/
def quadCells (N : Nat) : List (Nat × Nat) :=
  (List.range N).flatMap fun n => (List.range N).map fun m => (n, m)

/-- `localE2V` of the quadrilateral provisioner (src/QuadNodesProvisioner.cpp lines 751-772). -/
def localQuads (N : Nat) (c : List Int) : Out (List (List Int)) := loopM (quadStep N c) [] (quadCells N)

/-- `E2Vnew` (src/TriangleNodesProvisioner.cpp lines 1206-1218, src/QuadNodesProvisioner.cpp lines 774-787). -/
def allCells (cells : List (List Int)) (np K : Nat) : List (List Int) :=
  (List.range K).flatMap fun k => cells.map fun row => row.map (· + ((k * np : Nat) : Int))

/-- The columns of `xnew` (or `ynew`, `fieldnew`): column `i`, row `c` is `xVec(E2Vnew[i](c))`
(src/TriangleNodesProvisioner.cpp lines 1231-1263, src/QuadNodesProvisioner.cpp lines 800-838). -/
def pick {α : Type} (vec : List α) (cells : List (List Int)) : Out (List (List α)) :=
  tabM (fun i => rd cells i >>= fun row => tabM (fun c => rd row c >>= fun v => rdI vec v) row.length) cells.length

/-- `splitElements` for one of the three fields, given the interpolated values `res` (`np` by `K`) and the uninitialised vector `vec0`. -/
def splitTri {α : Type} (N : Nat) (res : DMat α) (vec0 : List α) : Out (List (List α)) := do
  let l ← lattice N res.rows (triLattice N)
  let cells ← localTris N l.counter
  let vec ← reshapeMatTo1D res vec0 false
  pick vec (allCells cells res.rows res.cols)

/-- The same for quadrilaterals. -/
def splitQuad {α : Type} (N : Nat) (res : DMat α) (vec0 : List α) : Out (List (List α)) := do
  let l ← lattice N res.rows (quadLattice N)
  let cells ← localQuads N l.counter
  let vec ← reshapeMatTo1D res vec0 false
  pick vec (allCells cells res.rows res.cols)

/-- `std::swap(nodes[i], nodes[j])`. -/
def swapAt {α : Type} (l : List α) (i j : Nat) : Out (List α) := do
  let a ← rd l i
  let b ← rd l j
  let l ← wr l i b
  wr l j a

/-- The node list handed to VTK for cell `k` of `np` nodes: include/VtkOutputter.hpp lines 123-140; the nodes of cell `k` are numbered from `k * np`. -/
def vtkCell (np k : Nat) : Out (List Nat) :=
  let nodes := (List.range np).map (k * np + ·)
  if np = 4 then swapAt nodes 1 3 >>= fun l => swapAt l 1 2 else .ok nodes

end Blitzdg.DG2D
