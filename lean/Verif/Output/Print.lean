import Verif.Output.Model
import Verif.Sparse.Csc
import Verif.Gmres.Model
import Verif.Mesh.History

/-! Model of what the library prints: the two sparse matrix classes (src/SparseTriplet.cpp, src/CSCMatrix.cpp), the GMRES flag and report
(src/GMRESSolver.cpp), the mesh tables (src/MeshManager.cpp) and the closing lines of src/poisson2d/main.cpp.

A stream is its text so far with the two settings that the code changes: the notation of real numbers and their precision.  How a real number is written
under given settings is the C++ library's business and enters as a parameter. -/

namespace Blitzdg.Print

open Blitzdg.Output (Str intText)
open Blitzdg.Sparse (Triplet Csc)

/-- The settings of an output stream for real numbers: `std::scientific` and `std::setprecision`. -/
structure Fmt where
  sci : Bool
  prec : Nat
deriving DecidableEq, Repr

/-- The settings that a stream starts with. -/
def Fmt.initial : Fmt := ⟨false, 6⟩

/-- An output stream. -/
structure Strm where
  fmt : Fmt
  text : Str
deriving DecidableEq, Repr

/-- `strm << "..."`. -/
def Strm.put (s : Strm) (t : Str) : Strm := { s with text := s.text ++ t }

/-- `strm << std::setw(w) << x` with the text of `x` (fill character blank, adjustment right); the width is reset by the insertion. -/
def Strm.putw (s : Strm) (w : Nat) (t : Str) : Strm := s.put (List.replicate (w - t.length) ' ' ++ t)

variable {F : Type}

/-- src/SparseTriplet.cpp lines 19-22 (the same in src/CSCMatrix.cpp lines 20-23): `while (n > 0) { ++ret; n /= 10; }`. -/
def digitLoop : Nat → Nat → Nat
  | 0, _ => 0
  | fuel + 1, n => if n > 0 then digitLoop fuel (n / 10) + 1 else 0

/-- src/SparseTriplet.cpp lines 16-25, src/CSCMatrix.cpp lines 17-26 `numDigits`; the sizes are not negative. -/
def numDigits (n : Nat) : Nat := if n = 0 then 1 else digitLoop n n

/-- src/SparseTriplet.cpp lines 69-71 and src/CSCMatrix.cpp lines 152-154: the first two lines. -/
def header (s : Strm) (rows cols nnz : Nat) : Strm :=
  ((((((s.put "rows = ".toList).put (intText rows)).put ", ".toList).put "cols = ".toList).put (intText cols)).put ", ".toList).put
    ("nnz = ".toList ++ intText nnz ++ "\n\n".toList)

/-- src/SparseTriplet.cpp lines 73-75 and src/CSCMatrix.cpp lines 157-159: one entry. -/
def putEntry (num : Fmt → F → Str) (ndr ndc : Nat) (s : Strm) (i j : Int) (x : F) : Strm :=
  let s := (s.putw ndr (intText i)).put " ".toList
  let s := (s.putw ndc (intText j)).put " ".toList
  (s.put (num s.fmt x)).put "\n".toList

/-- src/SparseTriplet.cpp lines 66-78: `operator<<` of a triplet matrix. -/
def printTriplet (num : Fmt → F → Str) (s : Strm) (t : Triplet F) : Out Strm :=
  let ndr := numDigits t.rows
  let ndc := numDigits t.cols
  loopM (fun s k => do
    let i ← rd t.row k
    let j ← rd t.col k
    let x ← rd t.elems k
    pure (putEntry num ndr ndc s i j x)) (header s t.rows t.cols t.nnz) (List.range t.nnz)

/-- Reading a cell of a compressed matrix: a cell never written, or outside the array, is undefined. -/
def cell {β : Type} (l : List (Option β)) (k : Nat) : Out β :=
  match l[k]? with
  | some (some b) => .ok b
  | _ => .ub

/-- src/CSCMatrix.cpp lines 149-163: `operator<<` of a compressed matrix.  The bounds of the inner loop are read once here, at every turn there; nothing
changes them in between. -/
def printCsc (num : Fmt → F → Str) (s : Strm) (c : Csc F) : Out Strm :=
  let ndr := numDigits c.m
  let ndc := numDigits c.n
  loopM (fun s j => do
    let a ← cell c.p j
    let b ← cell c.p (j + 1)
    loopM (fun s k => do
      let e ← cell c.ix k
      pure (putEntry num ndr ndc s e.1 j e.2)) s (List.range' a (b - a))) (header s c.m c.n c.nnz) (List.range c.n)

/-- src/GMRESSolver.cpp lines 50-74 `ConvFlagToStr`. -/
def flagText : Gmres.Flag → Str
  | .success => "success -> convergence critera satisfied".toList
  | .unconverged => "unconverged -> neither converged nor diverged".toList
  | .diverged => "diverged -> excessive growth in residual norm".toList
  | .maxits => "maximum iterations reached".toList
  | .trueRnrm => "true residual norm failed convergence test".toList
  | .infOrNan => "residual norm is either inf or nan".toList
  | .preconFail => "preconditioner application failed".toList
  | .matvecFail => "matrix-vector product failed".toList
  | .breakdown => "input matrix or preconditioner are likely singular".toList
  | .stagnation => "stagnation".toList

/-- `strm << b` for a Boolean: without `std::boolalpha`, 1 or 0. -/
def boolText (b : Bool) : Str := if b then "1".toList else "0".toList

/-- src/GMRESSolver.cpp lines 91-101 (with include/GMRESSolver.hpp lines 86-89 for the flag): `operator<<` of a report. -/
def printReport (num : Fmt → F → Str) (s : Strm) (o : Gmres.GOut F) : Strm :=
  let s := ((s.put "outcome: ".toList).put (flagText o.flag)).put "\n".toList
  let s := if !o.msg.isEmpty then ((s.put "info: ".toList).put (boolText o.msg.isEmpty)).put "\n".toList else s
  let s := ((s.put "outer iter: ".toList).put (intText o.outerIts)).put "\n".toList
  let s := ((s.put "inner iter: ".toList).put (intText o.innerIts)).put "\n".toList
  let s := { s.put "relative residual: ".toList with fmt := ⟨true, 2⟩ }
  (s.put (num s.fmt o.relres)).put "\n".toList

/-- src/poisson2d/main.cpp lines 102-106: the number of elements, the report and the largest value, on the same stream. -/
def poissonLines (num : Fmt → F → Str) (s : Strm) (K : Nat) (o : Gmres.GOut F) (largest : F) : Strm :=
  let s := ((s.put "K: ".toList).put (intText K)).put "\n".toList
  let s := (printReport num (s.put "result is ".toList) o).put "\n".toList
  ((s.put "normMax u is: ".toList).put (num s.fmt largest)).put "\n".toList

/-- src/MeshManager.cpp lines 44-52 `printArray` (with include/MeshManager.hpp `get_Index(row, col, numCols)`, which is row * numCols + col);
`txt` writes an entry under the stream's settings. -/
def printArray {β : Type} (txt : Fmt → β → Str) (s : Strm) (arr : List β) (numRows numCols : Nat) : Out Strm :=
  loopM (fun s i => do
    let s ← loopM (fun s j => do
      let x ← rd arr (i * numCols + j)
      pure ((s.put (txt s.fmt x)).put " ".toList)) s (List.range numCols)
    pure (s.put "\n".toList)) s (List.range numRows)

/-- src/MeshManager.cpp lines 564-566 `printVertices`; without a vertex table the pointer that is dereferenced is null. -/
def printVertices {R : Type} (num : Fmt → R → Str) (s : Strm) (m : Mesh.Manager R) : Out Strm :=
  match m.vert with
  | some v => printArray num s v m.nv m.dim
  | none => .ub

/-- src/MeshManager.cpp lines 568-570 `printElements`. -/
def printElements {R : Type} (s : Strm) (m : Mesh.Manager R) : Out Strm :=
  match m.e2v with
  | some e => printArray (fun _ => intText) s e m.k m.nf
  | none => .ub

end Blitzdg.Print
