import Mathlib.Data.Int.Log
import Mathlib.Algebra.Order.Floor.Ring
import Mathlib.Data.Rat.Floor
import Mathlib.Data.Real.Basic
import Mathlib.Algebra.Order.Archimedean.Real.Basic

/-!
Model of the clocks of all drivers as floating-point numbers: `t += dt` is an addition rounded to nearest.
-/

namespace Blitzdg.Time

section
variable {R : Type} [Field R] [LinearOrder R] [FloorRing R]

/-- Rounding to the nearest integer, ties to the even one (the default rounding of IEEE 754). -/
def roundEven (y : R) : Int :=
  let z := Int.floor y
  let r := y - z
  if r < 1 / 2 then z else if 1 / 2 < r then z + 1 else if z % 2 = 0 then z else z + 1

/-- Rounding to a floating-point number with `p` binary digits; `real_type` is double (`p = 53`, include/Types.hpp line 25), as are Python floats.  The exponent range is not limited: overflow and underflow are left out. -/
def fl (p : Nat) (x : R) : R :=
  if x = 0 then 0
  else
    let e := Int.log 2 |x| - (p - 1)
    (roundEven (x / 2 ^ e) : R) * 2 ^ e

end

/-- The time loop common to all drivers.  `pass t s` is what a pass at clock `t` does to the fields: `none` if it raises the instability error, otherwise the step size used and the new fields.  `rnd` is the rounding of `t += dt`; the result
is the clock, the number of passes and the fields at the end, or `none` while the loop is still running.  Rounding inside `pass` is left to `pass`.
(src/advec1d/main.cpp lines 86-111, src/burgers1d/main.cpp lines 82-107, src/sw2d-simple/main.cpp lines 121-172, src/sw2d/main.cpp lines 192-243, src/ins2d/main.cpp lines 207-259, sw2d.py lines 218-261, sw2d_curved.py lines 246-304,
sw2dquads.py lines 179-217, advec1d.py lines 77-98) -/
noncomputable def drive {S : Type*} (rnd : ℝ → ℝ) (T : ℝ) (pass : ℝ → S → Option (ℝ × S)) : Nat → ℝ → Nat → S → Option (Option (ℝ × Nat × S))
  | 0, _, _, _ => none
  | n + 1, t, c, s =>
    open Classical in
    if t < T then
      match pass t s with
      | none => some none
      | some (dt, s') => drive rnd T pass n (rnd (t + dt)) (c + 1) s'
    else some (some (t, c, s))

end Blitzdg.Time
