import Mathlib.Algebra.Module.Basic
import Mathlib.Data.Real.Basic

/-! Model of the low-storage Runge-Kutta time stepper of `include/LSERK4.hpp` and of the loops that use it. -/

namespace Blitzdg.Time

/-- Coefficients `rk4a`. The code holds the double nearest to each quotient; here the quotient itself (the doubles are in Time/Doubles.lean).
(include/LSERK4.hpp lines 17-21) -/
def rk4a : List ℚ :=
  [0, -567301805773 / 1357537059087, -2404267990393 / 2016746695238, -3550918686646 / 2091501179385, -1275806237668 / 842570457699]

/-- Coefficients `rk4b`; as above. (include/LSERK4.hpp lines 23-27) -/
def rk4b : List ℚ :=
  [1432997174477 / 9575080441755, 5161836677717 / 13612068292357, 1720146321549 / 2090206949498, 3134564353537 / 4481467310338,
    2277821191437 / 14882151754819]

/-- `LSERK4::numStages`. (include/LSERK4.hpp line 16) -/
def numStages : Nat := 5

variable {E : Type*} [AddCommGroup E] [Module ℝ E]

/-- One pass of the stage loop: right-hand side, residual register, update. `f` is the right-hand side function, the state is `(u, resRK)`.
(src/advec1d/main.cpp lines 92-102, src/burgers1d/main.cpp lines 88-98) -/
def stage (f : E → E) (dt : ℝ) (s : E × E) (i : Nat) : E × E :=
  let rhs := f s.1
  let res := ((rk4a.getD i 0 : ℚ) : ℝ) • s.2 + dt • rhs
  (s.1 + ((rk4b.getD i 0 : ℚ) : ℝ) • res, res)

/-- One time step: all stages. (src/advec1d/main.cpp lines 92-102, src/burgers1d/main.cpp lines 88-98) -/
def step (f : E → E) (dt : ℝ) (s : E × E) : E × E := (List.range numStages).foldl (stage f dt) s

/-- State of a driver between time steps. `files` lists the indices handed to `generateFileName` so far.
(src/advec1d/main.cpp lines 42, 64-66, 79) -/
structure Run (E : Type*) where
  u : E
  res : E
  t : ℝ
  count : Nat
  files : List Nat

/-- Body of the driver's `while` loop; `none` is the thrown "numerical instability" error. `bad u` stands for the test
`u_max > 1e8 || isnan(u_max)`. The right-hand side may depend on the time `t` (burgers1d); advec1d ignores it.
(src/advec1d/main.cpp lines 86-111, src/burgers1d/main.cpp lines 82-107) -/
def body (f : ℝ → E → E) (dt : ℝ) (bad : E → Bool) (r : Run E) : Option (Run E) :=
  let files := if r.count % 10 = 0 then r.files ++ [r.count] else r.files
  let s := step (f r.t) dt (r.u, r.res)
  if bad s.1 then none else some ⟨s.1, s.2, r.t + dt, r.count + 1, files⟩

/-- `while (t < finalTime)`: the state in which the loop is left (or the error) within `fuel` iterations; `none` outside means that the loop is still running.
(src/advec1d/main.cpp lines 86-111, src/burgers1d/main.cpp lines 82-107) -/
noncomputable def loop (f : ℝ → E → E) (dt : ℝ) (bad : E → Bool) (T : ℝ) : Nat → Run E → Option (Option (Run E))
  | 0, _ => none
  | n + 1, r =>
    open Classical in
    if r.t < T then
      match body f dt bad r with
      | none => some none
      | some r' => loop f dt bad T n r'
    else some (some r)

end Blitzdg.Time
