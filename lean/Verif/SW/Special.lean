import Verif.SW.Disc
import Verif.Special.Breakdown

/-!
The interface fluxes of the shallow water programs at one face, on values that may be infinite or NaN: what happens at nodes without positive depth.  The depths and momenta of the fields are numbers.
-/

namespace Blitzdg.SW

open Blitzdg.Val (num nan)

/-- Depth and momentum at one point, as computed. -/
structure StateV where
  h : Val
  hu : Val
  hv : Val

/-- A state made of numbers. -/
def State.toV (q : State) : StateV := ⟨num q.h, num q.hu, num q.hv⟩

/-- `a - b`. -/
noncomputable def Val.sub (a b : Val) : Val := a + num (-1) * b

/-- `sqrt(u*u + v*v) + sqrt(g*h)` with `u = hu/h`, `v = hv/h` (src/sw2d-simple/main.cpp lines 292-299, 160-163; src/sw2d/main.cpp lines 259-273, 400-407). -/
noncomputable def speedV (g : ℝ) (q : StateV) : Val :=
  let u := q.hu / q.h
  let v := q.hv / q.h
  Val.sqrt (u * u + v * v) + Val.sqrt (num g * q.h)

/-- `max(spdM(i), spdP(i))` (src/sw2d-simple/main.cpp lines 302-303, src/sw2d/main.cpp lines 410-411). -/
noncomputable def pairSpeedV (g : ℝ) (x : StateV × StateV) : Val := Val.stdMax (speedV g x.1) (speedV g x.2)

/-- `blitz::max` of these over the nodes of a face (src/sw2d-simple/main.cpp lines 306-312) or over all face nodes (src/sw2d/main.cpp line 414). -/
noncomputable def coefV (lo g : ℝ) (l : List (StateV × StateV)) : Val := Val.maxRed lo (l.map (pairSpeedV g))

/-- `hMstar`, `hPstar` and the momenta made from them (src/sw2d/main.cpp lines 356-368). -/
noncomputable def starPairV (HM HP : ℝ) (m p : StateV) : StateV × StateV :=
  let bM := num (-HM)
  let bP := num (-HP)
  let hM := Val.stdMax (num 0) (Val.sub (m.h + bM) (Val.stdMax bP bM))
  let hP := Val.stdMax (num 0) (Val.sub (p.h + bP) (Val.stdMax bP bM))
  (⟨hM, hM * (m.hu / hM), hM * (m.hv / hM)⟩, ⟨hP, hP * (p.hu / hP), hP * (p.hv / hP)⟩)

/-- `dFlux1` (src/sw2d-simple/main.cpp line 317, src/sw2d/main.cpp line 419). -/
noncomputable def jumpFlux1V (nx ny : ℝ) (lam : Val) (m p : StateV) : Val :=
  num 0.5 * Val.sub (Val.sub m.hu p.hu * num nx + Val.sub m.hv p.hv * num ny) (lam * Val.sub m.h p.h)

/-- Surface term of the depth at one node of an element with `n` face nodes, `sum(Lift(ii,kk)*(Fscale*dFlux1)(kk,jj), kk)` (src/sw2d/main.cpp lines 445-456, src/sw2d-simple/main.cpp lines 342-355). -/
noncomputable def surfaceV (n : ℕ) (lift fs : ℕ → ℝ) (d : ℕ → Val) : Val := Val.sumRed ((List.range n).map fun c => num (lift c) * (num (fs c) * d c))

/-- `CFL/((N+1)*(N+1)*0.5*max(fs*spd))` (src/sw2d-simple/main.cpp lines 108-109 and 166-167, src/sw2d/main.cpp lines 271-276); `l` has `|Fscale|` and the state at each face node (`Fscale` is
positive, so that sw2d without `abs` agrees). -/
noncomputable def stepV (lo CFL : ℝ) (N : ℕ) (g : ℝ) (l : List (ℝ × StateV)) : Val :=
  num CFL / (num ((N + 1) * (N + 1) * 0.5) * Val.maxRed lo (l.map fun x => num x.1 * speedV g x.2))

/-- The coefficient of one face in the Python programs: `np.max` over both sides and then over the face (sw2d.py lines 98-106, sw2dquads.py lines 82-90, swhelpers/rhs.py lines 255-263). -/
noncomputable def coefPyV (g : ℝ) (l : List (StateV × StateV)) : Val := Val.npMax (l.map fun x => Val.npMax [speedV g x.1, speedV g x.2])

/-- Filtered rate of the depth at one node of an element with `np` nodes and `n` face nodes: `np.dot(Filt, RHS1)` with `RHS1 = vol + np.dot(Lift, Fscale*dFlux1)` (sw2d.py lines 120-137 and 219-222). -/
noncomputable def rateV (np n : ℕ) (filt : ℕ → ℝ) (vol : ℕ → Val) (lift : ℕ → ℕ → ℝ) (fs : ℕ → ℝ) (d : ℕ → Val) : Val :=
  Val.sumRed ((List.range np).map fun i => num (filt i) * (vol i + surfaceV n (lift i) fs d))

/-- One pass of the loop of sw2d.py for the depth (lines 217-247): predictor `h1 = h + 0.5*dt*RHS1`, corrector `h += dt*RHS1` with the rate of the predicted fields, and the test; `none` is the exception.
`rate 0` and `rate 1` give the filtered rates of the two evaluations from the depths they start with. -/
noncomputable def predictPy (nodes : ℕ) (dt : ℝ) (rate : ℕ → Breakdown.Field → Breakdown.Field) (h : Breakdown.Field) : Option Breakdown.Field :=
  let h1 : Breakdown.Field := fun j => h j + num 0.5 * num dt * rate 0 h j
  Breakdown.passPy nodes (fun _ => (num dt, rate 1 h1)) h

end Blitzdg.SW
