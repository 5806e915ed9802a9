import Mathlib.Analysis.SpecialFunctions.Gamma.Basic
import Mathlib.Analysis.SpecialFunctions.Pow.Real

/-!
Arithmetic with the special values of IEEE 754, without roundings, overflow and underflow.  Zeros have no sign: a zero divisor counts as `+0`.  Not a part of the repository: the meaning of the type
`double`, of <cmath>, of the reductions of blitz and of `numpy.max` where special values occur.
-/

namespace Blitzdg

/-- A value of type `double`: a number, an infinity (`true` for the negative one) or NaN. -/
inductive Val where
  | num (r : ℝ)
  | inf (neg : Bool)
  | nan

namespace Val

/-- `+` of IEEE 754. -/
def add : Val → Val → Val
  | num a, num b => num (a + b)
  | num _, inf s => inf s
  | inf s, num _ => inf s
  | inf s, inf t => if s = t then inf s else nan
  | _, _ => nan

/-- `*` of IEEE 754. -/
noncomputable def mul : Val → Val → Val
  | num a, num b => num (a * b)
  | num a, inf s => if a = 0 then nan else inf (s != decide (a < 0))
  | inf s, num a => if a = 0 then nan else inf (s != decide (a < 0))
  | inf s, inf t => inf (s != t)
  | _, _ => nan

/-- `/` of IEEE 754. -/
noncomputable def div : Val → Val → Val
  | num a, num b => if b = 0 then (if a = 0 then nan else inf (decide (a < 0))) else num (a / b)
  | num _, inf _ => num 0
  | inf s, num b => inf (s != decide (b < 0))
  | _, _ => nan

/-- `sqrt` of <cmath>. -/
noncomputable def sqrt : Val → Val
  | num a => if a < 0 then nan else num (Real.sqrt a)
  | inf false => inf false
  | _ => nan

/-- `tgamma` of <cmath>: infinite at `+0`, NaN at the negative whole numbers. -/
noncomputable def tgamma (a : ℝ) : Val :=
  open Classical in if a = 0 then inf false else if ∃ n : ℕ, a = -n then nan else num (Real.Gamma a)

noncomputable instance : Mul Val := ⟨mul⟩
noncomputable instance : Div Val := ⟨div⟩
instance : Add Val := ⟨add⟩

/-- `<` of IEEE 754: false as soon as one side is NaN. -/
def lt : Val → Val → Prop
  | num a, num b => a < b
  | num _, inf s => s = false
  | inf s, num _ => s = true
  | inf s, inf t => s = true ∧ t = false
  | _, _ => False

/-- `abs`. -/
def abs : Val → Val
  | num a => num |a|
  | inf _ => inf false
  | nan => nan

/-- `std::max(a, b)`: `(a < b) ? b : a`, as used in src/sw2d-simple/main.cpp lines 302-303. -/
noncomputable def stdMax (a b : Val) : Val := open Classical in if lt a b then b else a

/-- The reduction `blitz::max`, as used in include/LinAlgHelpers.hpp lines 87-90 and src/sw2d-simple/main.cpp line 310: starts from the lowest double `lo` and takes over an entry if it compares
greater (contract of blitz++). -/
noncomputable def maxRed (lo : ℝ) (l : List Val) : Val := l.foldl stdMax (num lo)

/-- The reduction `blitz::sum`, as used in src/sw2d/main.cpp line 239. -/
def sumRed (l : List Val) : Val := l.foldl add (num 0)

/-- `numpy.max`, as used in sw2d.py line 246: hands on NaN (contract of numpy). -/
noncomputable def npMax : List Val → Val
  | [] => nan
  | v :: l => l.foldl (fun m v => open Classical in if m = nan ∨ v = nan then nan else if lt m v then v else m) v

theorem num_mul (a b : ℝ) : num a * num b = num (a * b) := rfl
theorem num_add (a b : ℝ) : num a + num b = num (a + b) := rfl
theorem num_div (a : ℝ) {b : ℝ} (h : b ≠ 0) : num a / num b = num (a / b) := by
  change Val.div _ _ = _
  rw [Val.div, if_neg h]
theorem num_sqrt {a : ℝ} (h : 0 ≤ a) : Val.sqrt (num a) = num (Real.sqrt a) := by
  rw [Val.sqrt, if_neg (not_lt.2 h)]
theorem mul_nan (v : Val) : v * nan = nan := by cases v <;> rfl
theorem nan_mul (v : Val) : nan * v = nan := by cases v <;> rfl
theorem div_nan (v : Val) : v / nan = nan := by cases v <;> rfl
theorem nan_div (v : Val) : nan / v = nan := by cases v <;> rfl
theorem add_nan (v : Val) : v + nan = nan := by cases v <;> rfl

theorem nan_add (v : Val) : nan + v = nan := by cases v <;> rfl

end Val


end Blitzdg
