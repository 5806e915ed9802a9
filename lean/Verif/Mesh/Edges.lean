import Verif.Mesh.ReadProps

/-!
Model of src/MeshManager.cpp lines 331-381: the second `buildBCTable`, which takes the line elements of a mesh file.  No function of the library calls it.
-/

namespace Blitzdg.Mesh

variable {R : Type} [Field R] [LinearOrder R]

/-- src/MeshManager.cpp lines 345-349 and 369-370: the first two coordinates of vertex `v`; the stride is `NumFaces`, whatever the number of coordinates stored per vertex. -/
def vertAt (vert : List R) (nf : Nat) (v : Int) : Out (R × R) := do
  let v ← toIx v
  let x ← rd vert (v * nf)
  let y ← rd vert (v * nf + 1)
  pure (x, y)

/-- src/MeshManager.cpp lines 361-377 for one line element: the tag it gives to a face with midpoint `mid`, if any. -/
def edgeTag (tol : R) (vert : List R) (nf : Nat) (mid : R × R) (edge : List Int) : Out (Option Int) := do
  let n1 ← rd edge 5
  let n2 ← rd edge 6
  let t ← rd edge 3
  let a ← vertAt vert nf (n1 - 1)
  let b ← vertAt vert nf (n2 - 1)
  pure (if |(b.2 - mid.2) * (b.1 - a.1) - (b.2 - a.2) * (b.1 - mid.1)| < tol then some (if t = 0 then 3 else t) else none)

/-- src/MeshManager.cpp lines 357-378: the loop over the line elements with its `break`. -/
def firstTag (tol : R) (vert : List R) (nf : Nat) (mid : R × R) : List (List Int) → Out (Option Int)
  | [] => .ok none
  | e :: es => do
    match ← edgeTag tol vert nf mid e with
    | some t => pure (some t)
    | none => firstTag tol vert nf mid es

/-- src/MeshManager.cpp lines 342-378: one face. -/
def tagStep (tol : R) (nf : Nat) (vert : List R) (e2v : List Int) (edges : List (List Int)) (bc : List Int) (kf : Nat × Nat) : Out (List Int) := do
  let v1 ← rd e2v (kf.1 * nf + kf.2)
  let v2 ← rd e2v (kf.1 * nf + (kf.2 + 1) % nf)
  let a ← vertAt vert nf v1
  let b ← vertAt vert nf v2
  match ← firstTag tol vert nf ((1 / 2) * (a.1 + b.1), (1 / 2) * (a.2 + b.2)) edges with
  | some t => wr bc (nf * kf.1 + kf.2) t
  | none => pure bc

/-- src/MeshManager.cpp lines 331-381 `buildBCTable(edges)`. -/
def buildBCEdges (tol : R) (nf k : Nat) (vert : List R) (e2v : List Int) (edges : List (List Int)) : Out (List Int) :=
  loopM (tagStep tol nf vert e2v edges) (List.replicate (k * nf) 0) (Sparse.rowMajor k nf)

end Blitzdg.Mesh
