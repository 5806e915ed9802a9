import Verif.Basic

/-! Model of src/CsvOutputter.cpp (file names), src/VtkOutputter.cpp (file names) and src/PathResolver.cpp. -/

namespace Blitzdg.Output

abbrev Str := List Char

/-- The decimal digit `d`. -/
def digitChar (d : Nat) : Char := Char.ofNat (48 + d)

/-- Digits of `n`, at most `fuel` of them plus one. -/
def decLoop : Nat → Nat → Str
  | 0, n => [digitChar n]
  | fuel + 1, n => if n < 10 then [digitChar n] else decLoop fuel (n / 10) ++ [digitChar (n % 10)]

/-- `operator<<` for a non-negative integer in decimal. -/
def decText (n : Nat) : Str := decLoop n n

/-- `operator<<` for an integer in decimal. -/
def intText (n : Int) : Str := if n < 0 then '-' :: decText n.natAbs else decText n.natAbs

/-- `setfill('0') << setw(w)`: pad on the left (default adjustment `right`). -/
def padLeft (w : Nat) (s : Str) : Str := List.replicate (w - s.length) '0' ++ s

/-- src/CsvOutputter.cpp lines 46-50 `generateFileName` (with extension ".dat"); src/VtkOutputter.cpp `generateFileName` is the same
expression with another extension. -/
def generateFileName (ext : Str) (fieldName : Str) (fileNumber : Int) : Str :=
  fieldName ++ padLeft 7 (intText fileNumber) ++ ext

/-- src/PathResolver.cpp lines 52-61 (`joinPaths`); `d` is the first character of `PathDelimiter`, which is "/" or "\\" (lines 36-41).
`back()` and `front()` of an empty string are undefined. -/
def joinPaths (d : Char) (path1 path2 : Str) : Out Str :=
  match path1.getLast?, path2.head? with
  | some b, some f =>
    if b = d ∧ f = d then .ok (path1.dropLast ++ path2)
    else if b ≠ d ∧ f ≠ d then .ok (path1 ++ [d] ++ path2)
    else .ok (path1 ++ path2)
  | _, _ => .ub

end Blitzdg.Output
