import Verif.Basic

/-!
Model of include/CSVFileReader.hpp, src/CSVFileReader.cpp and src/CsvOutputter.cpp.

Files are lists of characters.  Low-level read errors (`strm_.bad()`, src/CSVFileReader.cpp lines 68-69) are not modelled; opening
failure is (`file = none`).  `int` overflow of line and row counters is not modelled.
-/

namespace Blitzdg.Csv

abbrev Str := List Char

/-- `std::isspace` in the classic locale, the predicate of `boost::algorithm::trim` (include/CSVFileReader.hpp line 326). -/
def isSpace (c : Char) : Bool :=
  c == ' ' || c == '\t' || c == '\n' || c == '\x0b' || c == '\x0c' || c == '\r'

/-- `std::getline` on a stream whose unread part is the argument: `none` means that `failbit` is set (nothing to extract);
otherwise the line and the new unread part.  A last line without newline is returned (only `eofbit` is set). -/
def getline : Str → Option (Str × Str)
  | [] => none
  | s => some (s.takeWhile (· != '\n'), (s.dropWhile (· != '\n')).drop 1)

/-- include/CSVFileReader.hpp lines 306-311: the data members.  `content` is the file, `rest` its unread part, `failed` the stream's
`failbit`. -/
structure Reader where
  content : Str
  rest : Str
  failed : Bool
  lineno : Nat
  nskip : Int
  ncols : Int
  delims : Str
deriving DecidableEq

/-- src/CSVFileReader.cpp lines 65-71 `readLine`: `some line` when the returned stream state is true. -/
def readLine (r : Reader) : Option Str × Reader :=
  if r.failed then (none, r)
  else match getline r.rest with
    | none => (none, { r with failed := true })
    | some (l, t) => (some l, { r with rest := t, lineno := r.lineno + 1 })

/-- include/CSVFileReader.hpp lines 247-248: the loop of `skipLines` for `n > 0`. -/
def skipLoop : Nat → Reader → Reader
  | 0, r => r
  | n + 1, r => match readLine r with
    | (some _, r') => skipLoop n r'
    | (none, r') => r'

/-- include/CSVFileReader.hpp lines 244-251 `skipLines`; the returned stream state is `!failed`. -/
def skipLines (n : Int) (r : Reader) : Reader := if n > 0 then skipLoop n.toNat r else r

/-- include/CSVFileReader.hpp lines 229-234 `setToStart`. -/
def setToStart (r : Reader) : Reader :=
  skipLines r.nskip { r with rest := r.content, failed := false, lineno := 0 }

/-- `boost::algorithm::trim`. -/
def trim (s : Str) : Str := ((s.dropWhile isSpace).reverse.dropWhile isSpace).reverse

/-- include/CSVFileReader.hpp lines 324-331: the loop of `getNonemptyLine`; each round consumes a character, so the
length of the unread part bounds the number of rounds. -/
def nonemptyLoop : Nat → Reader → Option Str × Reader
  | 0, r => (none, r)
  | fuel + 1, r => match readLine r with
    | (some l, r') => if (trim l).isEmpty then nonemptyLoop fuel r' else (some (trim l), r')
    | (none, r') => (none, r')

/-- include/CSVFileReader.hpp lines 324-331 `getNonemptyLine`. -/
def getNonemptyLine (r : Reader) : Option Str × Reader := nonemptyLoop (r.rest.length + 1) r

/-- `boost::algorithm::split(…, is_any_of(delims), token_compress_on)`: cut at every maximal run of delimiters. -/
def splitLoop (isDelim : Char → Bool) : Nat → Str → List Str
  | 0, s => [s]
  | fuel + 1, s =>
    let tok := s.takeWhile (fun c => !isDelim c)
    let rest := s.dropWhile (fun c => !isDelim c)
    if rest.isEmpty then [tok] else tok :: splitLoop isDelim fuel (rest.dropWhile isDelim)

/-- include/CSVFileReader.hpp lines 298-303 `tokenizeLine`. -/
def tokenizeLine (delims : Str) (line : Str) : List Str := splitLoop (fun c => delims.contains c) line.length line

/-- src/CSVFileReader.cpp lines 12-21 `countCols`. -/
def countCols (r : Reader) : Reader :=
  match getNonemptyLine { r with ncols := 0 } with
  | (some l, r') => setToStart { r' with ncols := (tokenizeLine r.delims l).length }
  | (none, r') => setToStart r'

/-- src/CSVFileReader.cpp lines 26-27: the loop of `getNumRows`. -/
def numRowsLoop : Nat → Nat → Reader → Nat × Reader
  | 0, n, r => (n, r)
  | fuel + 1, n, r => match getNonemptyLine r with
    | (some _, r') => numRowsLoop fuel (n + 1) r'
    | (none, r') => (n, r')

/-- src/CSVFileReader.cpp lines 23-29 `getNumRows`. -/
def getNumRows (r : Reader) : Nat × Reader := numRowsLoop (r.rest.length + 1) 0 r

/-- include/CSVFileReader.hpp lines 336-340 `checkDelimiters`. -/
def checkDelimiters (delims : Str) : Bool :=
  !delims.isEmpty && delims.all fun c => c == ' ' || c == '\t' || c == ',' || c == ';' || c == '^' || c == '|'

/-- src/CSVFileReader.cpp lines 31-42: the constructor (also `openFile`, lines 44-59, which performs the same steps on an
existing object).  `file` is `none` when the file cannot be opened. -/
def openReader (file : Option Str) (nskip : Int) (delims : Str) : Out Reader :=
  if !checkDelimiters delims then .throws
  else match file with
    | none => .throws
    | some text =>
      let r0 : Reader := { content := text, rest := text, failed := false, lineno := 0, nskip := nskip, ncols := -1, delims := delims }
      let r1 := skipLines nskip r0
      if r1.failed then .throws else .ok (countCols r1)

/-- src/CSVFileReader.cpp lines 61-63 `setNumCols`. -/
def setNumCols (c : Int) (r : Reader) : Reader := { r with ncols := c }

/-- Outcome of a parse call: a row was read, no row was left, or an exception was thrown. -/
inductive Status
  | row
  | eof
  | threw
deriving DecidableEq

/-- include/CSVFileReader.hpp lines 387-390: conversion of the tokens in order, stopping at the first failure.  `conv` is
`StrCast<T>::convert` (lines 31-169). -/
def convAll {β : Type} (conv : Str → Option β) : List Str → Bool × List β
  | [] => (true, [])
  | t :: ts => match conv t with
    | none => (false, [])
    | some v => ((convAll conv ts).1, v :: (convAll conv ts).2)

/-- include/CSVFileReader.hpp lines 376-393 `parseRowIterator`: status, values written to the iterator, reader afterwards. -/
def parseRow {β : Type} (conv : Str → Option β) (r : Reader) : Status × List β × Reader :=
  match getNonemptyLine r with
  | (some l, r') =>
    let toks := tokenizeLine r.delims l
    if (toks.length : Int) ≠ r.ncols then (.threw, [], r')
    else if (convAll conv toks).1 then (.row, (convAll conv toks).2, r')
    else (.threw, (convAll conv toks).2, r')
  | (none, r') => (.eof, [], r')

/-- include/CSVFileReader.hpp lines 395-410 `parseRowValues` with `nargs` output arguments of one type (the argument count is
checked before anything is read). -/
def parseRowValues {β : Type} (conv : Str → Option β) (nargs : Nat) (r : Reader) : Status × List β × Reader :=
  if (nargs : Int) ≠ r.ncols then (.threw, [], r) else parseRow conv r

/-- include/CSVFileReader.hpp lines 429-430, 456-457: the loop of `csvread`. -/
def readLoop {β : Type} (conv : Str → Option β) : Nat → Nat → List β → Reader → Out (Nat × List β)
  | 0, n, data, _ => .ok (n, data)
  | fuel + 1, n, data, r => match parseRow conv r with
    | (.row, vs, r') => readLoop conv fuel (n + 1) (data ++ vs) r'
    | (.eof, _, _) => .ok (n, data)
    | (.threw, _, _) => .throws

/-- include/CSVFileReader.hpp lines 421-434 and 447-461 `csvread`: rows, columns and the row-major data.  Copying into the result
(lines 432, 459) writes one cell per datum, so more data than cells would be undefined. -/
def csvread {β : Type} (conv : Str → Option β) (file : Option Str) (nskip : Int) (delims : Str) : Out (Nat × Int × List β) := do
  let r ← openReader file nskip delims
  let (n, data) ← readLoop conv (r.rest.length + 1) 0 [] r
  if (data.length : Int) ≤ n * r.ncols then pure (n, r.ncols, data) else .ub

/-! ### Output -/

/-- src/CsvOutputter.cpp lines 28-39 `writeFieldToFile`: the text written; `fmt` is the formatting of a number by `operator<<`. -/
def writeField {α : Type} (fmt : α → Str) (delim : Char) (rows cols : Nat) (f : Nat → Nat → α) : Str :=
  (List.range rows).flatMap fun i =>
    ((List.range cols).flatMap fun k => fmt (f i k) ++ [delim]) ++ ['\n']

end Blitzdg.Csv
