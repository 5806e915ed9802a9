import Verif.Mesh.ReadModel
import Verif.Py.BuildMesh

/-!
Model of a `MeshManager` over its lifetime (src/MeshManager.cpp): the input functions again, this time with the state that is left behind when one of them throws,
`partitionMesh`, and the getters that export arrays to Python.

Pointers are `Option`s: `none` is a null pointer.
-/

namespace Blitzdg.Mesh

open Blitzdg.Csv

/-- include/MeshManager.hpp lines 24-34: the data members.  `tabs` are EToE, EToF and BCType, which are always allocated together. -/
structure Manager (R : Type) where
  dim : Nat
  nv : Nat
  nf : Nat
  k : Nat
  vert : Option (List R)
  e2v : Option (List Int)
  tabs : Option (List Nat × List Nat × List Nat)
  epart : Option (List Nat)
  vpart : Option (List Nat)
deriving DecidableEq

/-- src/MeshManager.cpp lines 57-61: the constructor. -/
def Manager.new {R : Type} : Manager R :=
  { dim := 0, nv := 0, nf := 0, k := 0, vert := none, e2v := none, tabs := none, epart := none, vpart := none }

/-- What a call does: it returns, it throws and leaves a state behind, or it is undefined. -/
inductive Res (S : Type) where
  | done (s : S)
  | threw (s : S)
  | ub

/-- A part of a function that does not touch the object. -/
def Res.after {S α : Type} (s : S) (x : Out α) (f : α → Res S) : Res S :=
  match x with
  | .ok a => f a
  | .throws => .threw s
  | .ub => .ub

/-- include/CSVFileReader.hpp lines 455-458: the loop of `csvread` with the output argument `nrows`, which counts the rows read before an exception; `none` is the exception. -/
def readLoopX {β : Type} (conv : Str → Option β) : Nat → Nat → List β → Reader → Nat × Option (List β)
  | 0, n, data, _ => (n, some data)
  | fuel + 1, n, data, r => match parseRow conv r with
    | (.row, vs, r') => readLoopX conv fuel (n + 1) (data ++ vs) r'
    | (.eof, _, _) => (n, some data)
    | (.threw, _, _) => (n, none)

/-- include/CSVFileReader.hpp lines 447-461 `csvread(filename, nrows, ncols)`: `set n c` is the object after the assignments to the output arguments; `f n c data` receives the result. -/
def csvreadX {β S : Type} (conv : Str → Option β) (file : Option Str) (s : S) (set : Nat → Nat → S) (f : Nat → Nat → List β → Res S) : Res S :=
  Res.after s (openReader file 0 ['\t', ' ']) fun r =>
    match readLoopX conv (r.rest.length + 1) 0 [] r with
    | (n, none) => .threw (set n r.ncols.toNat)
    | (n, some data) => if (data.length : Int) ≤ n * r.ncols then f n r.ncols.toNat data else .ub

variable {R : Type}

/-- src/MeshManager.cpp lines 546-548 `readVertices`: `NumVerts` and `Dim` are output arguments of `csvread`; `Vert` is assigned when it has returned. -/
def readVerticesX (cv : Conv R) (st : Manager R) (file : Option Str) : Res (Manager R) :=
  csvreadX cv.real file st (fun n c => { st with nv := n, dim := c })
    fun n c data => .done { st with nv := n, dim := c, vert := some data }

/-- The last steps of `readElements`, `readMesh` and `buildMesh`: connectivity and boundary table, in tables just allocated. -/
def connectX (wrap : Bool) (st : Manager R) (e2v : List Int) : Res (Manager R) :=
  let z := List.replicate (st.k * st.nf) 0
  let st := { st with e2v := some e2v, tabs := some (z, z, z) }
  Res.after st (buildConnectivity wrap st.nv st.nf st.k e2v z z) fun ef =>
    Res.after st (buildBCTable wall st.nf st.k ef.1 z) fun bc => .done { st with tabs := some (ef.1, ef.2, bc) }

/-- src/MeshManager.cpp lines 550-562 `readElements`. -/
def readElementsX (cv : Conv R) (wrap : Bool) (st : Manager R) (file : Option Str) : Res (Manager R) :=
  csvreadX cv.int file st (fun n c => { st with k := n, nf := c }) fun n c data =>
    let z := List.replicate (n * c) 0
    let st := { st with k := n, nf := c }
    if c = 3 then connectX wrap st data else .done { st with e2v := some data, tabs := some (z, z, z) }

/-- src/MeshManager.cpp lines 178-186: the node loop; the vertices written so far stay in the object. -/
def nodesX (cv : Conv R) (st : Manager R) : List R × Reader → List Nat → (List R × Reader → Res (Manager R)) → Res (Manager R)
  | s, [], f => f s
  | s, i :: is, f => Res.after { st with vert := some s.1 } (nodeStep cv s i) fun s' => nodesX cv st s' is f

variable [Sub R] [Mul R] [Zero R] [LT R] [DecidableLT R]

/-- Orientation (src/MeshManager.cpp lines 101-116, 292-306), then `connectX`. -/
def finishX (wrap : Bool) (st : Manager R) (vert : List R) (e2v : List Int) : Res (Manager R) :=
  Res.after st (ccw vert st.dim st.nf st.k e2v) fun e => connectX wrap st e

/-- src/MeshManager.cpp lines 193-313: the element section, for an object which has its vertices. -/
def elementsX (cv : Conv R) (wrap : Bool) (st : Manager R) (vert : List R) (r : Reader) : Res (Manager R) :=
  Res.after st (expectLine "$Elements".toList (skipLines 1 r)) fun r =>
  Res.after st (readCount cv 0 r) fun mr =>
  if mr.1 < 0 then .threw st
  else
    Res.after st (loopM (elemStep cv) (([], []), "$Elements".toList, mr.2) (List.range mr.1.toNat)) fun tq =>
    Res.after st (elemTable tq.1.1 tq.1.2) fun t => finishX wrap { st with nf := t.1, k := t.2.1 } vert t.2.2

/-- src/MeshManager.cpp lines 130-313 `readMesh`: `NumVerts`, `Dim` and `Vert` are replaced as soon as the number of vertices has been read. -/
def readMeshX (cv : Conv R) (wrap : Bool) (junk : R) (st : Manager R) (file : Option Str) : Res (Manager R) :=
  Res.after st (openReader file 0 ['\t', ' ']) fun r =>
  Res.after st (expectLine "$MeshFormat".toList r) fun r =>
  Res.after st (readFormat cv r) fun r =>
  Res.after st (expectLine "$Nodes".toList (skipLines 1 r)) fun r =>
  Res.after st (readCount cv st.nv r) fun nr =>
  if nr.1 < 0 then .ub
  else
    let st := { st with nv := nr.1.toNat, dim := 3 }
    nodesX cv st (List.replicate (nr.1.toNat * 3) junk, setNumCols 4 nr.2) (List.range nr.1.toNat) fun vr =>
      elementsX cv wrap { st with vert := some vr.1 } vr.1 vr.2

/-- src/MeshManager.cpp lines 74-122 `buildMesh`; nothing can be thrown before connectivity is built. -/
def buildMeshX (wrap : Bool) (st : Manager R) (ev : Py.View ℕ) (vv : Py.View R) : Res (Manager R) :=
  Res.after st (vv.raw) fun verts =>
  Res.after st (ev.raw) fun words =>
  Res.after st (loopM (fun l w => do let v ← Py.castInt (Py.decode64 w); pure (l ++ [v])) [] words) fun e2v =>
  finishX wrap { st with dim := vv.s1, nv := vv.s0, nf := ev.s1, k := ev.s0, vert := some verts } verts e2v

/-- `METIS_PartMeshNodal` (not part of the repository) as called by src/MeshManager.cpp lines 528-531: number of elements, number of vertices, element pointers, vertex numbers,
number of parts; the two maps if it succeeds.  Its other inputs are fixed and the value of the objective is only printed. -/
abbrev Metis := Nat → Nat → List Nat → List Int → Int → Option (List Nat × List Nat)

/-- src/MeshManager.cpp lines 491-543 `partitionMesh`: the maps are set to zero, METIS is called, and its result code is only printed.  Simplification: when METIS
fails it has not written to the maps.  Without elements the null pointer EToV is dereferenced. -/
def partitionMesh (metis : Metis) (st : Manager R) (parts : Int) : Res (Manager R) :=
  Res.after st (eptr st.nf st.k (List.replicate (st.k + 1) 0)) fun p =>
  match st.e2v with
  | none => .ub
  | some e2v =>
    match metis st.k st.nv p e2v parts with
    | some m => .done { st with epart := some m.1, vpart := some m.2 }
    | none => .done { st with epart := some (List.replicate st.k 0), vpart := some (List.replicate st.nv 0) }

/-- The calls a program can make. -/
inductive Call (R : Type) where
  | readVertices (file : Option Str)
  | readElements (file : Option Str)
  | readMesh (junk : R) (file : Option Str)
  | buildMesh (elems : Py.View ℕ) (verts : Py.View R)
  | partition (parts : Int)

/-- One call. -/
def call (cv : Conv R) (wrap : Bool) (metis : Metis) (st : Manager R) : Call R → Res (Manager R)
  | .readVertices file => readVerticesX cv st file
  | .readElements file => readElementsX cv wrap st file
  | .readMesh junk file => readMeshX cv wrap junk st file
  | .buildMesh ev vv => buildMeshX wrap st ev vv
  | .partition n => partitionMesh metis st n

/-- A program: it catches the exceptions and carries on.  The result tells for each call whether it threw; `none`: undefined. -/
def history (cv : Conv R) (wrap : Bool) (metis : Metis) : Manager R → List (Call R) → Option (Manager R × List Bool)
  | st, [] => some (st, [])
  | st, c :: cs =>
    match call cv wrap metis st c with
    | .done s => (history cv wrap metis s cs).map fun r => (r.1, false :: r.2)
    | .threw s => (history cv wrap metis s cs).map fun r => (r.1, true :: r.2)
    | .ub => none

/-- src/MeshManager.cpp lines 637-642 `get_Vertices_numpy`. -/
def Manager.verticesNumpy (st : Manager R) : Out (Py.NdArray R) :=
  match st.vert with
  | none => .ub
  | some v => Py.exportTo [st.nv, st.dim] v

/-- src/MeshManager.cpp lines 630-635 `get_Elements_numpy`. -/
def Manager.elementsNumpy (st : Manager R) : Out (Py.NdArray Int) :=
  match st.e2v with
  | none => .ub
  | some e => Py.exportTo [st.k, st.nf] e

/-- src/MeshManager.cpp lines 644-649 `get_BCType_numpy`. -/
def Manager.bcTypeNumpy (st : Manager R) : Out (Py.NdArray ℕ) :=
  match st.tabs with
  | none => .ub
  | some t => Py.exportTo [st.k, st.nf] t.2.2

/-- src/MeshManager.cpp lines 623-628 `get_ElementPartitionMap_numpy`. -/
def Manager.elementPartsNumpy (st : Manager R) : Out (Py.NdArray ℕ) :=
  match st.epart with
  | none => .ub
  | some p => Py.exportTo [st.k] p

/-- src/MeshManager.cpp lines 616-621 `get_VertexPartitionMap_numpy`. -/
def Manager.vertexPartsNumpy (st : Manager R) : Out (Py.NdArray ℕ) :=
  match st.vpart with
  | none => .ub
  | some p => Py.exportTo [st.nv] p

end Blitzdg.Mesh
