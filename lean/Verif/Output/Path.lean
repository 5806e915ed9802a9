import Verif.Output.Model

/-!
Model of src/PathResolver.cpp: the constructor, `get_RootPath`, and the use made of them (a file below the root).

`realpath` is the operating system's: the model is given its result, `none` when it fails.
-/

namespace Blitzdg.Output

/-- src/whereami.cpp lines 181-218 (`getExecutablePath` of the Linux branch): the returned length and the buffer `out` of `capacity` bytes, which was not
initialised by the caller (`none`: a byte never written).  A path longer than the capacity is not copied, but its length is returned.
`dirname_length` is null in the only call. -/
def getExecutablePath (exe : Option Str) (capacity : Nat) : Int × List (Option Char) :=
  match exe with
  | none => (-1, List.replicate capacity none)
  | some p =>
    if p.length ≤ capacity then (p.length, p.map some ++ List.replicate (capacity - p.length) none)
    else (p.length, List.replicate capacity none)

/-- `std::isspace` in the classic locale. -/
def isBlank (c : Char) : Bool :=
  c = ' ' || c = '\t' || c = '\n' || c = '\x0b' || c = '\x0c' || c = '\r'

/-- `boost::algorithm::trim_right`. -/
def trimRight (s : Str) : Str := (s.reverse.dropWhile isBlank).reverse

/-- Body of the loop, src/PathResolver.cpp lines 28-30: `ExePath += pathBuffer[i]`; reading a byte that was never written is undefined, like reading beyond the
buffer. -/
def copyByte (buf : List (Option Char)) (acc : Str) (i : Nat) : Out Str := do
  let c ← rd buf i
  match c with
  | some c => .ok (acc ++ [c])
  | none => .ub

/-- src/PathResolver.cpp lines 20-34 (constructor), without `resolveDelimiter`: the member `ExePath`. -/
def exePath (exe : Option Str) : Out Str :=
  let r := getExecutablePath exe 1024
  loopM (copyByte r.2) [] (List.range r.1.toNat) >>= fun s => .ok (trimRight s)

/-- src/PathResolver.cpp lines 36-41 `resolveDelimiter`. -/
def delimiter (exePath : Str) : Char := if '\\' ∈ exePath then '\\' else '/'

/-- The positions at which `pat` occurs in `s`, from the left. -/
def occurrences (pat s : Str) : List Nat := (List.range (s.length + 1)).filter fun i => pat.isPrefixOf (s.drop i)

/-- `boost::algorithm::replace_last(s, pat, "")` for a nonempty `pat`: the last occurrence is erased. -/
def eraseLast (pat s : Str) : Str :=
  match (occurrences pat s).getLast? with
  | some i => s.take i ++ s.drop (i + pat.length)
  | none => s

/-- src/PathResolver.cpp lines 43-50 `get_RootPath`, for a resolver whose executable path is `p`. -/
def rootPath (p : Str) : Str :=
  let d := delimiter p
  eraseLast ([d] ++ "bin".toList ++ [d] ++ "test".toList) (eraseLast ".exe".toList p)

/-- `PathResolver resolver; resolver.get_RootPath()` (src/test/TriangleNodesProvisionerTests.cpp lines 56-60). -/
def resolveRoot (exe : Option Str) : Out Str := exePath exe >>= fun p => .ok (rootPath p)

/-- The path of an input file: `joinPaths(joinPaths(root, dir), file)` (src/test/TriangleNodesProvisionerTests.cpp lines 56-62). -/
def inputFile (exe : Option Str) (dir file : Str) : Out Str := do
  let p ← exePath exe
  let a ← joinPaths (delimiter p) (rootPath p) dir
  joinPaths (delimiter p) a file

end Blitzdg.Output
