import Mathlib.Analysis.SpecialFunctions.Pow.NNReal

/-!
Pointwise parts of the shallow water solvers: exterior states, fluxes, source terms, limiter.  Exact real arithmetic; the code evaluates these expressions for every entry of its arrays.
-/

namespace Blitzdg.SW

/-- Depth and momentum at one point. -/
structure State where
  h : ℝ
  hu : ℝ
  hv : ℝ

/-- Exterior state at a wall node: src/sw2d/main.cpp lines 342-344 (in src/sw2d-simple/main.cpp the loop after `// BC's - no flow through walls.` sets the momentum only, `hP` being gathered
from the same node), swhelpers/rhs.py lines 83-84 and 236-237. -/
noncomputable def wallState (nx ny : ℝ) (q : State) : State where
  h := q.h
  hu := q.hu - 2 * nx * (q.hu * nx + q.hv * ny)
  hv := q.hv - 2 * ny * (q.hu * nx + q.hv * ny)

/-- A vector of three components, one for each equation. -/
structure V3 where
  c1 : ℝ
  c2 : ℝ
  c3 : ℝ

/-- `F1, F2, F3` (src/sw2d/main.cpp lines 376-380, 390-394, and the same lines of src/sw2d-simple/main.cpp; swhelpers/flux.py computes `hu*u` for `(hu*hu)/h`). -/
noncomputable def fluxF (g : ℝ) (q : State) : V3 := ⟨q.hu, q.hu * q.hu / q.h + 0.5 * g * q.h * q.h, q.hu * q.hv / q.h⟩

/-- `G1, G2, G3` (same lines). -/
noncomputable def fluxG (g : ℝ) (q : State) : V3 := ⟨q.hv, q.hu * q.hv / q.h, q.hv * q.hv / q.h + 0.5 * g * q.h * q.h⟩

/-- `spdM`, `spdP` (src/sw2d/main.cpp lines 400-407). -/
noncomputable def speed (g : ℝ) (q : State) : ℝ := √(q.hu / q.h * (q.hu / q.h) + q.hv / q.h * (q.hv / q.h)) + √(g * q.h)

/-- `dFlux1, dFlux2, dFlux3` (src/sw2d-simple/main.cpp, "strong form"; swhelpers/rhs.py lines 266-268); `lam` is `spdMax`. -/
noncomputable def jumpFlux (g nx ny lam : ℝ) (m p : State) : V3 where
  c1 := 0.5 * (((fluxF g m).c1 - (fluxF g p).c1) * nx + ((fluxG g m).c1 - (fluxG g p).c1) * ny - lam * (m.h - p.h))
  c2 := 0.5 * (((fluxF g m).c2 - (fluxF g p).c2) * nx + ((fluxG g m).c2 - (fluxG g p).c2) * ny - lam * (m.hu - p.hu))
  c3 := 0.5 * (((fluxF g m).c3 - (fluxF g p).c3) * nx + ((fluxG g m).c3 - (fluxG g p).c3) * ny - lam * (m.hv - p.hv))

/-- `fluxh, fluxhu, fluxhv` of the variant for curved elements (swhelpers/rhs.py lines 127-129). -/
noncomputable def weakFlux (g nx ny lam : ℝ) (m p : State) : V3 where
  c1 := 0.5 * (((fluxF g m).c1 + (fluxF g p).c1) * nx + ((fluxG g m).c1 + (fluxG g p).c1) * ny + lam * (m.h - p.h))
  c2 := 0.5 * (((fluxF g m).c2 + (fluxF g p).c2) * nx + ((fluxG g m).c2 + (fluxG g p).c2) * ny + lam * (m.hu - p.hu))
  c3 := 0.5 * (((fluxF g m).c3 + (fluxF g p).c3) * nx + ((fluxG g m).c3 + (fluxG g p).c3) * ny + lam * (m.hv - p.hv))

/-- Drag and Coriolis terms added to the two momentum equations by src/sw2d/main.cpp lines 475-483. -/
noncomputable def sourceCpp (CD f : ℝ) (q : State) : ℝ × ℝ :=
  let u := q.hu / q.h
  let v := q.hv / q.h
  let n := √(u * u + v * v)
  (-CD * u * n + f * q.hv, -CD * v * n + -f * q.hu)

/-- Drag and Coriolis terms of swhelpers/rhs.py lines 165-172 and 300-307: `RHS2 += f*hv - CD_norm_u*u`, `RHS3 -= f*hu - CD_norm_u*v`. -/
noncomputable def sourcePy (CD f : ℝ) (q : State) : ℝ × ℝ :=
  let u := q.hu / q.h
  let v := q.hv / q.h
  let n := √(u * u + v * v)
  (f * q.hv - CD * n * u, -(f * q.hu - CD * n * v))

/-- `np.mean` of one column. -/
noncomputable def mean (l : List ℝ) : ℝ := l.sum / l.length

/-- `np.min` of one column, starting from its first entry. -/
noncomputable def colMin (l : List ℝ) : ℝ := l.foldl min (l.getD 0 0)

/-- `theta` of swhelpers/limiters.py lines 5-13 for one element. -/
noncomputable def theta (h : List ℝ) : ℝ :=
  let hmin := if colMin h < 1e-3 then 1e-3 else colMin h
  let th := mean h / (mean h - hmin + 1e-4)
  if th > 1 then 1 else th

/-- One column of swhelpers/limiters.py lines 14-19: `mean + theta*(c - mean)`. -/
noncomputable def scaleCol (th : ℝ) (c : List ℝ) : List ℝ := c.map fun v => mean c + th * (v - mean c)

/-- swhelpers/limiters.py lines 3-21 `positivityPreservingLimiter2D`, one element (columns are independent). -/
noncomputable def limiter (h hu hv : List ℝ) : List ℝ × List ℝ × List ℝ := (scaleCol (theta h) h, scaleCol (theta h) hu, scaleCol (theta h) hv)

/-- swhelpers/limiters.py lines 24-34 `minmod`, one entry. -/
noncomputable def minmod (a b : ℝ) : ℝ :=
  if a < b ∧ a * b > 0 then a
  else if b < a ∧ a * b > 0 then b
  else 0

end Blitzdg.SW
