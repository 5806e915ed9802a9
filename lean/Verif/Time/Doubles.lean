import Verif.Time.LSERK4
import Verif.Time.FloatClock

/-! Model of the low-storage Runge-Kutta time stepper with the coefficients the compiled program holds: the quotients in the source, rounded to doubles. -/

namespace Blitzdg.Time

/-- The array `rk4a` of the compiled program.  Numerators and denominators in the source are integers below `2^53`, hence doubles; a quotient of doubles is the exact quotient rounded.
(include/LSERK4.hpp lines 17-21) -/
def rk4aD : List ℚ := rk4a.map (fl 53)

/-- The array `rk4b` of the compiled program; as above. (include/LSERK4.hpp lines 23-27) -/
def rk4bD : List ℚ := rk4b.map (fl 53)

/-- `lserk4wrapper::rk4a` and `lserk4wrapper::rk4b`: a Python list made by appending five entries; `none` is a read behind the end of the array. (src/pyblitzdg/pyblitzdg.cpp lines 34-48) -/
def wrapper (tab : List ℚ) : Option (List ℚ) :=
  (List.range 5).foldlM (fun a i => tab[i]?.map fun x => a ++ [x]) []

variable {E : Type*} [AddCommGroup E] [Module ℝ E]

/-- One pass of the stage loop with the coefficient arrays `a` and `b`.  The sums and products of fields are not rounded.
(src/advec1d/main.cpp lines 92-102, src/burgers1d/main.cpp lines 88-98, advec1d.py lines 80-88) -/
def stageWith (a b : List ℚ) (f : E → E) (dt : ℝ) (s : E × E) (i : Nat) : E × E :=
  let rhs := f s.1
  let res := ((a.getD i 0 : ℚ) : ℝ) • s.2 + dt • rhs
  (s.1 + ((b.getD i 0 : ℚ) : ℝ) • res, res)

/-- One time step with the coefficient arrays `a` and `b`. (src/advec1d/main.cpp lines 92-102, src/burgers1d/main.cpp lines 88-98, advec1d.py lines 80-88) -/
def stepWith (a b : List ℚ) (f : E → E) (dt : ℝ) (s : E × E) : E × E := (List.range numStages).foldl (stageWith a b f dt) s

/-- One time step as the programs take it, with the rounded coefficients. (src/advec1d/main.cpp lines 92-102, src/burgers1d/main.cpp lines 88-98, advec1d.py lines 80-88) -/
def stepD (f : E → E) (dt : ℝ) (s : E × E) : E × E := stepWith rk4aD rk4bD f dt s

end Blitzdg.Time
