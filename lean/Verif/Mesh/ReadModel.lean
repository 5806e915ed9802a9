import Verif.Mesh.Model
import Verif.Csv.Model

/-!
Model of the input functions of src/MeshManager.cpp: `readMesh`, `readVertices`, `readElements`, `buildMesh`.

Conversions of tokens to numbers are parameters (`none`: the conversion throws).  Freshly allocated arrays of reals hold arbitrary values
(parameter `junk`).  The state after an exception is not modelled.
-/

namespace Blitzdg.Mesh

open Blitzdg.Csv

/-- include/MeshManager.hpp lines 24-32: the data members used by the input functions. -/
structure MM (R : Type) where
  dim : Nat
  nv : Nat
  nf : Nat
  k : Nat
  vert : List R
  e2v : List Int
  e2e : List Nat
  e2f : List Nat
  bc : List Nat
deriving DecidableEq

/-- src/MeshManager.cpp lines 57-61: the constructor. -/
def MM.new {R : Type} : MM R := { dim := 0, nv := 0, nf := 0, k := 0, vert := [], e2v := [], e2e := [], e2f := [], bc := [] }

/-- Conversions: `stoi`/`StrCast<int>` , `StrCast<double>`, and the version test `vers < 2.0 || vers >= 3.0` negated (lines 146-150). -/
structure Conv (R : Type) where
  int : Str → Option Int
  real : Str → Option R
  stoi : Str → Option Int
  version : Str → Option Bool

/-- `parseRowValues` with `n` arguments (include/CSVFileReader.hpp lines 395-410) before conversion: an exception, the tokens of the row, or `none` at
the end of the file (the arguments keep their values). -/
def rowToks (n : Nat) (r : Reader) : Out (Option (List Str) × Reader) :=
  match parseRowValues (fun t => some t) n r with
  | (.row, ts, r') => .ok (some ts, r')
  | (.eof, _, r') => .ok (none, r')
  | (.threw, _, _) => .throws

/-- Conversion that throws on failure. -/
def get {β : Type} : Option β → Out β
  | some b => .ok b
  | none => .throws

/-- src/MeshManager.cpp lines 138-139, 163-165, 191-193: read a line and compare it with a marker.  A failed read leaves `line` empty or equal to an earlier
line, which is never the marker. -/
def expectLine (marker : Str) (r : Reader) : Out Reader :=
  match readLine r with
  | (some l, r') => if l = marker then .ok r' else .throws
  | (none, _) => .throws

/-- src/MeshManager.cpp lines 141-157: the format line.  At the end of the file the three variables stay uninitialised. -/
def readFormat {R : Type} (cv : Conv R) (r : Reader) : Out Reader := do
  let (ts, r) ← rowToks 3 (setNumCols 3 r)
  match ts with
  | some [v, t, s] => do
    let okv ← get (cv.version v)
    let ft ← get (cv.int t)
    let fs ← get (cv.int s)
    if !okv then .throws else if ft ≠ 0 then .throws else if fs ≠ 8 then .throws else pure r
  | _ => .ub

/-- src/MeshManager.cpp lines 167-168, 195-197: one integer on a line; at the end of the file the variable keeps its value `old`. -/
def readCount {R : Type} (cv : Conv R) (old : Int) (r : Reader) : Out (Int × Reader) := do
  let (ts, r) ← rowToks 1 (setNumCols 1 r)
  match ts with
  | some [n] => do let n ← get (cv.int n); pure (n, r)
  | none => pure (old, r)
  | _ => .ub

/-- A possibly negative index into an array. -/
def wrI {α : Type} (l : List α) (i : Int) (a : α) : Out (List α) := if i < 0 then .ub else wr l i.toNat a

/-- src/MeshManager.cpp lines 178-186: one round of the node loop.  At the end of the file `nodeNum` is uninitialised. -/
def nodeStep {R : Type} (cv : Conv R) (s : List R × Reader) (_i : Nat) : Out (List R × Reader) := do
  let (ts, r) ← rowToks 4 s.2
  match ts with
  | some [n, x, y, z] => do
    let n ← get (cv.int n)
    let x ← get (cv.real x)
    let y ← get (cv.real y)
    let z ← get (cv.real z)
    let v ← wrI s.1 ((n - 1) * 3) x
    let v ← wrI v ((n - 1) * 3 + 1) y
    let v ← wrI v ((n - 1) * 3 + 2) z
    pure (v, r)
  | _ => .ub

/-- src/MeshManager.cpp lines 63-72 `parseElem`. -/
def parseElem {R : Type} (cv : Conv R) : List Str → Out (List Int)
  | [] => .ok []
  | t :: ts => do
    let x ← get (cv.stoi t)
    let xs ← parseElem cv ts
    pure (x :: xs)

/-- src/MeshManager.cpp lines 218-250: classification of one element row; the state is (tris, quads).  Points and lines are parsed and stored but never used
again; only their parse failures are kept. -/
def elemRow {R : Type} (cv : Conv R) (s : List (List Int) × List (List Int)) (toks : List Str) : Out (List (List Int) × List (List Int)) := do
  let ty ← rd toks 1 >>= fun t => get (cv.stoi t)
  let ntags ← rd toks 2 >>= fun t => get (cv.stoi t)
  let nloc : Int := toks.length - ntags - 3
  if nloc = 1 then
    if ty ≠ 15 then .throws else do
      let _ ← rd toks 3 >>= fun t => get (cv.stoi t)
      pure s
  else if nloc = 2 then
    if ty ≠ 1 then .throws else do
      let _ ← parseElem cv toks
      pure s
  else if nloc = 3 then
    if ty ≠ 2 then .throws else do
      let e ← parseElem cv toks
      pure (s.1 ++ [e], s.2)
  else if nloc = 4 then
    if ty ≠ 3 then .throws else do
      let e ← parseElem cv toks
      pure (s.1, s.2 ++ [e])
  else pure s

/-- The stream's `eofbit` while nothing has failed: the last line of the file has been read and it had no newline. -/
def atEof (r : Reader) : Bool := r.rest.isEmpty && r.content.getLast?.any (· != '\n')

/-- src/MeshManager.cpp line 215: `readLine(line)` with the result ignored (src/CSVFileReader.cpp lines 65-71).  `std::getline` leaves `line` as it is when the stream is
not good on entry (`eofbit` or `failbit`), and clears it when it is good but nothing is left. -/
def readLineVar (line : Str) (r : Reader) : Str × Reader :=
  match readLine r with
  | (some l, r') => (l, r')
  | (none, r') => (if r.failed || atEof r then line else [], r')

/-- src/MeshManager.cpp lines 214-216: one round of the element loop; the state is the rows collected so far, the variable `line` and the reader. -/
def elemStep {R : Type} (cv : Conv R) (s : (List (List Int) × List (List Int)) × Str × Reader) (_i : Nat) :
    Out ((List (List Int) × List (List Int)) × Str × Reader) := do
  let (l, r) := readLineVar s.2.1 s.2.2
  let t ← elemRow cv s.1 (tokenizeLine s.2.2.delims l)
  pure (t, l, r)

/-- src/MeshManager.cpp lines 275-290: the `nf` vertex numbers of one element, from the fixed columns 5, 6, 7 (and 8). -/
def elemVerts (nf : Nat) (row : List Int) : Out (List Int) :=
  loopM (fun acc i => do let v ← rd row (5 + i); pure (acc ++ [v - 1])) [] (List.range nf)

/-- src/MeshManager.cpp lines 253-258 and 275-290: choice of the element kind and construction of EToV. -/
def elemTable (tris quads : List (List Int)) : Out (Nat × Nat × List Int) :=
  let nf := if quads.isEmpty then 3 else 4
  let rows := if quads.isEmpty then tris else quads
  do
    let e2v ← loopM (fun acc row => do let v ← elemVerts nf row; pure (acc ++ v)) [] rows
    pure (nf, rows.length, e2v)

/-- src/MeshManager.cpp lines 292-312, 101-121: orientation, connectivity, boundary table. -/
def finish {R : Type} [Sub R] [Mul R] [Zero R] [LT R] [DecidableLT R] (wrap : Bool) (dim nv nf k : Nat) (vert : List R) (e2v : List Int) :
    Out (MM R) := do
  let e2v ← ccw vert dim nf k e2v
  let (e, f) ← buildConnectivity wrap nv nf k e2v (List.replicate (k * nf) 0) (List.replicate (k * nf) 0)
  let bc ← buildBCTable wall nf k e (List.replicate (k * nf) 0)
  pure { dim := dim, nv := nv, nf := nf, k := k, vert := vert, e2v := e2v, e2e := e, e2f := f, bc := bc }

/-- src/MeshManager.cpp lines 130-313 `readMesh`. -/
def readMesh {R : Type} [Sub R] [Mul R] [Zero R] [LT R] [DecidableLT R] (cv : Conv R) (wrap : Bool) (junk : R) (st : MM R)
    (file : Option Str) : Out (MM R) := do
  let r ← openReader file 0 ['\t', ' ']
  let r ← expectLine "$MeshFormat".toList r
  let r ← readFormat cv r
  let r := skipLines 1 r
  let r ← expectLine "$Nodes".toList r
  let (nv, r) ← readCount cv st.nv r
  if nv < 0 then .ub
  else do
    let (vert, r) ← loopM (nodeStep cv) (List.replicate (nv.toNat * 3) junk, setNumCols 4 r) (List.range nv.toNat)
    let r := skipLines 1 r
    let r ← expectLine "$Elements".toList r
    let (m, r) ← readCount cv 0 r
    if m < 0 then .throws -- `reserve` of a negative size throws std::length_error (lines 210-212)
    else do
      let (tq, _) ← loopM (elemStep cv) (([], []), "$Elements".toList, r) (List.range m.toNat)
      let (nf, k, e2v) ← elemTable tq.1 tq.2
      finish wrap 3 nv.toNat nf k vert e2v

/-- src/MeshManager.cpp lines 546-548 `readVertices`. -/
def readVertices {R : Type} (cv : Conv R) (st : MM R) (file : Option Str) : Out (MM R) := do
  let (n, c, data) ← csvread cv.real file 0 ['\t', ' ']
  pure { st with nv := n, dim := c.toNat, vert := data }

/-- src/MeshManager.cpp lines 550-562 `readElements`.  For a number of columns other than 3 the three tables stay uninitialised
(modelled as 0). -/
def readElements {R : Type} (cv : Conv R) (wrap : Bool) (st : MM R) (file : Option Str) : Out (MM R) := do
  let (n, c, data) ← csvread cv.int file 0 ['\t', ' ']
  let nf := c.toNat
  let st := { st with k := n, nf := nf, e2v := data }
  let z := List.replicate (n * nf) 0
  if nf = 3 then do
    let (e, f) ← buildConnectivity wrap st.nv nf n data z z
    let bc ← buildBCTable wall nf n e z
    pure { st with e2e := e, e2f := f, bc := bc }
  else pure { st with e2e := z, e2f := z, bc := z }

/-- src/MeshManager.cpp lines 74-122 `buildMesh`, after the conversion of the numpy arrays (lines 87-99): `verts` has `nv` rows of `dim` numbers,
`elems` has `k` rows of `nf` vertex numbers (already truncated to integers). -/
def buildMesh {R : Type} [Sub R] [Mul R] [Zero R] [LT R] [DecidableLT R] (wrap : Bool) (dim nv nf k : Nat) (verts : List R) (elems : List Int) :
    Out (MM R) := finish wrap dim nv nf k verts elems

end Blitzdg.Mesh
