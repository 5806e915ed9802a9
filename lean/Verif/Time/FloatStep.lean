import Verif.Time.Doubles

/-! Model of the Runge-Kutta stage loop in floating-point arithmetic: every product and sum of the two update statements is rounded. -/

namespace Blitzdg.Time

variable {ι : Type*}

/-- One pass of the stage loop on a field with entries indexed by `ι`; `rnd` is the rounding of the arithmetic, `f` the right-hand side as it is computed.
`resRK = rk4a[i]*resRK + dt*RHS` and `u += rk4b[i]*resRK` are evaluated entry by entry, each product and each sum rounded once (no contraction to fused operations).
(src/advec1d/main.cpp lines 92-102, src/burgers1d/main.cpp lines 88-98, advec1d.py lines 80-88) -/
def stageF (rnd : ℝ → ℝ) (f : (ι → ℝ) → ι → ℝ) (dt : ℝ) (s : (ι → ℝ) × (ι → ℝ)) (i : Nat) : (ι → ℝ) × (ι → ℝ) :=
  let rhs := f s.1
  let res := fun k => rnd (rnd (((rk4aD.getD i 0 : ℚ) : ℝ) * s.2 k) + rnd (dt * rhs k))
  (fun k => rnd (s.1 k + rnd (((rk4bD.getD i 0 : ℚ) : ℝ) * res k)), res)

/-- One time step in floating-point arithmetic. (src/advec1d/main.cpp lines 92-102, src/burgers1d/main.cpp lines 88-98, advec1d.py lines 80-88) -/
def stepF (rnd : ℝ → ℝ) (f : (ι → ℝ) → ι → ℝ) (dt : ℝ) (s : (ι → ℝ) × (ι → ℝ)) : (ι → ℝ) × (ι → ℝ) := (List.range numStages).foldl (stageF rnd f dt) s

end Blitzdg.Time
