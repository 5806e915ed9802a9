import Verif.Py.Model
import Mathlib.Algebra.Order.Floor.Ring
import Mathlib.Data.Rat.Floor

/-!
`MeshManager::buildMesh`: a mesh from two Python arrays (src/MeshManager.cpp lines 74-122, exported in src/pyblitzdg/pyblitzdg.cpp line 104).
-/

namespace Blitzdg.Py

/-- The number a 64-bit word stands for when it is read as a `double` (IEEE 754 binary64); `none` for infinities and NaN. -/
def decode64 (w : ℕ) : Option ℚ :=
  let m : ℚ := ((w % 4503599627370496 : ℕ) : ℚ)
  let e := w / 4503599627370496 % 2048
  let s : ℚ := if w / 9223372036854775808 % 2 = 1 then -1 else 1
  if e = 2047 then none
  else if e = 0 then some (s * m / 2 ^ 1074)
  else some (s * (4503599627370496 + m) * 2 ^ e / 2 ^ 1075)

/-- `static_cast<index_type>` of a `double` (line 97): towards zero, undefined if the result is not an `int` or there is none. -/
def castInt (x : Option ℚ) : Out Int :=
  match x with
  | none => .ub
  | some x =>
    let t := if 0 ≤ x then ⌊x⌋ else ⌈x⌉
    if -2147483648 ≤ t ∧ t ≤ 2147483647 then .ok t else .ub

/-- src/MeshManager.cpp lines 74-122 `buildMesh`.  The element array is read as 64-bit words whatever its element type is (line 88); `Vert` is an array of doubles, given by its numbers. -/
def buildMeshNumpy {R : Type} [Sub R] [Mul R] [Zero R] [LT R] [DecidableLT R] (wrap : Bool) (ev : View ℕ) (vv : View R) : Out (Mesh.MM R) := do
  let verts ← vv.raw
  let words ← ev.raw
  let e2v ← loopM (fun l w => do let v ← castInt (decode64 w); pure (l ++ [v])) [] words
  Mesh.buildMesh wrap vv.s1 vv.s0 ev.s1 ev.s0 verts e2v

end Blitzdg.Py
