import Verif.Csv.Model

/-!
The parameter file of src/ins2d (src/ins2d/main.cpp lines 37-98): lines `KEY = value`, empty lines and comments.  Characters are those of the classic locale; `std::stof`/`std::stoi` are a
parameter which fails on the empty string.
-/

namespace Blitzdg.Ins2D

open Blitzdg.Csv (Str getline)

/-- src/ins2d/main.cpp lines 37-44 `trim`: blanks only, no tabs or carriage returns. -/
def trimBlanks (s : Str) : Str := ((s.dropWhile (· == ' ')).reverse.dropWhile (· == ' ')).reverse

/-- src/ins2d/main.cpp lines 46-51 `str_toupper`. -/
def upper (s : Str) : Str := s.map Char.toUpper

/-- `std::string(s.c_str())` (line 78): everything up to the first null character. -/
def cStr (s : Str) : Str := s.takeWhile (· != Char.ofNat 0)

/-- `while (std::getline(line_strm, segment, '='))` (lines 77-79): pieces between the equal signs; nothing is extracted once the line is used up.  Each round consumes a character, so the length is
enough fuel. -/
def segmentsLoop : Nat → Str → List Str
  | 0, _ => []
  | fuel + 1, s => if s = [] then [] else cStr (trimBlanks (s.takeWhile (· != '='))) :: segmentsLoop fuel ((s.dropWhile (· != '=')).drop 1)

/-- `seglist` (lines 75-79). -/
def segments (line : Str) : List Str := segmentsLoop line.length line

/-- `std::unordered_map<string, string>` as the list of its entries, latest first. -/
abbrev Config := List (Str × Str)

/-- The value of a key. -/
def Config.get (c : Config) (k : Str) : Option Str := (c.find? fun e => e.1 == k).map Prod.snd

/-- `config.insert({k, v})` (line 84): has no effect if the key is present. -/
def Config.insert (c : Config) (k v : Str) : Config := if (c.get k).isSome then c else (k, v) :: c

/-- One line (lines 69-84). -/
def parseLine (c : Config) (line : Str) : Out Config :=
  if line = [] then .ok c
  else if line.head? = some '#' then .ok c
  else
    let seg := segments line
    if seg.length % 2 = 1 then .throws
    else do
      let k ← rd seg 0
      let v ← rd seg 1
      pure (c.insert (upper k) v)

/-- `while (std::getline(rfile, line))` (lines 68-85). -/
def parseLoop : Nat → Config → Str → Out Config
  | 0, c, _ => .ok c
  | fuel + 1, c, s =>
    match getline s with
    | none => .ok c
    | some (line, rest) => do
      let c ← parseLine c line
      parseLoop fuel c rest

/-- Lines 63-87; `none` is a file that cannot be opened. -/
def parseFile : Option Str → Out Config
  | none => .ok []
  | some text => parseLoop (text.length + 1) [] text

/-- `config[k]` (lines 90-98): the empty string for a missing key. -/
def Config.at (c : Config) (k : Str) : Str := (c.get k).getD []

/-- Keys read as numbers before the mesh is read (lines 90-98), in this order. -/
def numberKeys : List Str :=
  ["GRAVITATIONALACCELERATION", "FINALTIME", "INITIALTIME", "POLYNOMIALORDER", "CFL", "FILTERCUTOFF", "FILTERORDER"].map String.toList

/-- One conversion, `num` being `std::stof` or `std::stoi` according to the key (`none`: `std::invalid_argument` or `std::out_of_range`). -/
def readNumber {β : Type} (num : Str → Str → Option β) (c : Config) (acc : List β) (k : Str) : Out (List β) :=
  match num k (c.at k) with
  | some x => .ok (acc ++ [x])
  | none => .throws

/-- Lines 90-98: the numbers. -/
def readNumbers {β : Type} (num : Str → Str → Option β) (c : Config) : Out (List β) := loopM (readNumber num c) [] numberKeys

/-- Lines 63-98. -/
def start {β : Type} (num : Str → Str → Option β) (file : Option Str) : Out (List β × Str) := do
  let c ← parseFile file
  let xs ← readNumbers num c
  pure (xs, c.at "MESHFILE".toList)

end Blitzdg.Ins2D
