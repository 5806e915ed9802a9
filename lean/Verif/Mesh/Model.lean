import Verif.Sparse.Csc

/-!
Model of src/MeshManager.cpp: connectivity, boundary table, counter-clockwise enforcement and partition input.

Vertex numbers are `Int` as read from the input; using a negative one as a row index is undefined behaviour.
Overflow of `NumFaces * NumElements` and `2 * totalFaces` is not modelled; overflow of the product in the `CSCMat` constructor is
(`wrap`, see `Sparse.prodIsZero`).
-/

namespace Blitzdg.Mesh

open Blitzdg.Sparse

/-- src/MeshManager.cpp lines 386-393: the table `localVertNum`; rows beyond the fourth do not exist. -/
def localVert (nf f : Nat) : Out (Nat × Nat) :=
  if nf = 4 then rd [(0, 1), (1, 2), (2, 3), (3, 0)] f else rd [(0, 1), (1, 2), (2, 0), (0, 0)] f

/-- A vertex number used as a row index of a `cs_di`. -/
def toIx (v : Int) : Out Nat := if v < 0 then .ub else .ok v.toNat

/-- src/MeshManager.cpp lines 406-423: one round of the double loop; the state is (VToF, globalFaceNum, nnz).
The value 1.0 is modelled exactly. -/
def vtofStep (nf : Nat) (e2v : List Int) (s : Csc Nat × Nat × Nat) (kf : Nat × Nat) : Out (Csc Nat × Nat × Nat) := do
  let p ← wr s.1.p s.2.1 (some s.2.2)
  let (a, b) ← localVert nf kf.2
  let v1 ← rd e2v (kf.1 * nf + a) >>= toIx
  let v2 ← rd e2v (kf.1 * nf + b) >>= toIx
  let ix ← wr s.1.ix s.2.2 (some (v1, 1))
  let ix' ← wr ix (s.2.2 + 1) (some (v2, 1))
  pure ({ s.1 with p := p, ix := ix' }, s.2.1 + 1, s.2.2 + 2)

/-- src/MeshManager.cpp lines 398-427: the vertex-face incidence matrix (one column per global face). -/
def buildVToF (wrap : Bool) (nv nf k : Nat) (e2v : List Int) : Out (Csc Nat) := do
  let c ← cscAlloc wrap nv (nf * k) (2 * (nf * k))
  let (c, _, nnz) ← loopM (vtofStep nf e2v) (c, 0, 0) (rowMajor k nf)
  let p ← wr c.p (nf * k) (some nnz)
  pure { c with p := p }

/-- src/MeshManager.cpp lines 430-462: the list of connections (i, j), columns `j` in order.  The sums are small integers, exact in
floating point, so `|elem - 2| < NodeTol` is `elem = 2`.  The first pass over the matrix only counts; it sizes the arrays the second pass
fills with the same test, which is modelled as building the list. -/
def connections (total : Nat) (ftof : Csc Nat) : Out (List (Nat × Nat)) :=
  loopM (fun acc j => match readCol ftof j with
    | none => .ub
    | some col => .ok (acc ++ ((col.filter fun e => e.1 ≠ j ∧ e.2 = 2).map fun e => (e.1, j)))) [] (List.range total)

/-- src/MeshManager.cpp lines 474-479: self-connection defaults. -/
def defaults (nf : Nat) (s : List Nat × List Nat) (kf : Nat × Nat) : Out (List Nat × List Nat) := do
  let a ← wr s.1 (kf.1 * nf + kf.2) kf.1
  let b ← wr s.2 (kf.1 * nf + kf.2) kf.2
  pure (a, b)

/-- src/MeshManager.cpp lines 464-468 and 481-488: one connection. -/
def connect (nf : Nat) (s : List Nat × List Nat) (c : Nat × Nat) : Out (List Nat × List Nat) := do
  let a ← wr s.1 (c.1 / nf * nf + c.1 % nf) (c.2 / nf)
  let b ← wr s.2 (c.1 / nf * nf + c.1 % nf) (c.2 % nf)
  pure (a, b)

/-- src/MeshManager.cpp lines 383-489 `buildConnectivity`: the new EToE and EToF, from the allocated arrays `e2e`, `e2f`. -/
def buildConnectivity (wrap : Bool) (nv nf k : Nat) (e2v : List Int) (e2e e2f : List Nat) : Out (List Nat × List Nat) := do
  let vtof ← buildVToF wrap nv nf k e2v
  let ftov ← transpose vtof
  let ftof ← multiply ftov vtof
  let cs ← connections (nf * k) ftof
  let s ← loopM (defaults nf) (e2e, e2f) (rowMajor k nf)
  loopM (connect nf) s cs

/-- src/MeshManager.cpp lines 315-329 `buildBCTable(tagNumber)`; `bc` is the allocated table. -/
def buildBCTable (tag nf k : Nat) (e2e bc : List Nat) : Out (List Nat) :=
  loopM (fun t f => do
    let k2 ← rd e2e f
    if k2 = f / nf then wr t f tag else pure t) (List.replicate bc.length 0) (List.range (nf * k))

/-- `BCTag::Wall` (include/BCtypes.hpp line 12). -/
def wall : Nat := 3

/-- src/MeshManager.cpp lines 294-296, 104-106: coordinates `d` of the vertex stored at position `pos` of EToV. -/
def coord {R : Type} (vert : List R) (dim : Nat) (e2v : List Int) (pos d : Nat) : Out R := do
  let v ← rd e2v pos >>= toIx
  rd vert (v * dim + d)

/-- src/MeshManager.cpp lines 292-306 (readMesh) and 101-116 (buildMesh): counter-clockwise enforcement for element `k`. -/
def ccwStep {R : Type} [Sub R] [Mul R] [Zero R] [LT R] [DecidableLT R] (vert : List R) (dim nf : Nat) (e2v : List Int) (k : Nat) :
    Out (List Int) := do
  let ax ← coord vert dim e2v (nf * k) 0
  let ay ← coord vert dim e2v (nf * k) 1
  let bx ← coord vert dim e2v (nf * k + 1) 0
  let b_y ← coord vert dim e2v (nf * k + 1) 1
  let cx ← coord vert dim e2v (nf * k + 2) 0
  let cy ← coord vert dim e2v (nf * k + 2) 1
  if (ax - cx) * (b_y - cy) - (bx - cx) * (ay - cy) < 0 then do
    let v1 ← rd e2v (nf * k + 1)
    let v2 ← rd e2v (nf * k + 2)
    let e ← wr e2v (nf * k + 1) v2
    wr e (nf * k + 2) v1
  else pure e2v

/-- The loop over the elements. -/
def ccw {R : Type} [Sub R] [Mul R] [Zero R] [LT R] [DecidableLT R] (vert : List R) (dim nf k : Nat) (e2v : List Int) :
    Out (List Int) := loopM (ccwStep vert dim nf) e2v (List.range k)

/-- src/MeshManager.cpp lines 523-525: the element pointers handed to METIS. -/
def eptr (nf k : Nat) (e : List Nat) : Out (List Nat) := loopM (fun l i => wr l i (nf * i)) e (List.range (k + 1))

end Blitzdg.Mesh
