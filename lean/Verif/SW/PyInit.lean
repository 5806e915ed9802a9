import Verif.SW.PyLoop
import Verif.SW.Open

/-!
What the Python shallow water programs start from: sw2d_curved.py lines 151-161 and 187-238, sw2d.py lines 186-212, sw2dquads.py lines 157-166.  Exact real arithmetic.  `np.exp`, `np.hypot` are the functions of the real
numbers.
-/

namespace Blitzdg.SW

open Blitzdg.Sparse (DMat)
open Blitzdg.DG2D

/-- Parameters of the jet and of the patch of tracer (sw2d_curved.py lines 22-28, 151-154, 206-208). -/
structure Jet where
  /-- `g` -/
  grav : ℝ
  f : ℝ
  H0 : ℝ
  amp : ℝ
  L : ℝ
  W : ℝ
  Nx : ℝ
  Ny : ℝ
  Nrad : ℝ

/-- `eta = amp*np.exp(-((y-L)/W)**2)` (sw2d_curved.py line 155). -/
noncomputable def Jet.eta (p : Jet) (y : ℝ) : ℝ := p.amp * Real.exp (-((y - p.L) / p.W) ^ 2)

/-- `etay = -2*amp*(y-L)*np.exp(-((y-L)/W)**2) / W**2` (sw2d_curved.py line 156). -/
noncomputable def Jet.etay (p : Jet) (y : ℝ) : ℝ := -2 * p.amp * (y - p.L) * Real.exp (-((y - p.L) / p.W) ^ 2) / p.W ^ 2

/-- `u = (-g/f)*etay` (sw2d_curved.py line 157). -/
noncomputable def Jet.u (p : Jet) (y : ℝ) : ℝ := (-p.grav / p.f) * p.etay y

/-- `N = np.exp(-(((x-Nx)/Nrad)**2 + ((y-Ny)/Nrad)**2))` (sw2d_curved.py line 209). -/
noncomputable def Jet.N (p : Jet) (x y : ℝ) : ℝ := Real.exp (-(((x - p.Nx) / p.Nrad) ^ 2 + ((y - p.Ny) / p.Nrad) ^ 2))

/-- `h[h < 1e-3] = 1e-3` (sw2d_curved.py line 213), one entry. -/
noncomputable def clipDepth (h : ℝ) : ℝ := if h < 1e-3 then 1e-3 else h

/-- The arrays before the loop. -/
structure Start where
  eta : DMat ℝ
  u : DMat ℝ
  v : DMat ℝ
  N : DMat ℝ
  H : DMat ℝ
  h : DMat ℝ
  hu : DMat ℝ
  hv : DMat ℝ
  hN : DMat ℝ
  vort : DMat ℝ

/-- sw2d_curved.py lines 155-159, 189, 193, 209-218: fields at the nodes, whose coordinates are `x`, `y`.  `ctx.ry*np.dot(ctx.Dr, u) + ctx.sy*np.dot(ctx.Ds, u)` has the metric of the elements with straight sides: `setCoordinates`
(line 109) changes the coordinates only.  `v = 0*eta` is formed before the clipping and `eta` after it. -/
noncomputable def Grid.jetStart (g : Grid) (p : Jet) (x y : DMat ℝ) : Start :=
  let eta : DMat ℝ := ⟨g.np, g.K, fun i k => p.eta (y.at' i k)⟩
  let u : DMat ℝ := ⟨g.np, g.K, fun i k => p.u (y.at' i k)⟩
  let vort : DMat ℝ := ⟨g.np, g.K, fun i k => -g.slopeY u i k⟩
  let v : DMat ℝ := ⟨g.np, g.K, fun i k => 0 * eta.at' i k⟩
  let H : DMat ℝ := ⟨g.np, g.K, fun _ _ => p.H0 * 1⟩
  let N : DMat ℝ := ⟨g.np, g.K, fun i k => p.N (x.at' i k) (y.at' i k)⟩
  let h : DMat ℝ := ⟨g.np, g.K, fun i k => clipDepth (H.at' i k + eta.at' i k)⟩
  { eta := ⟨g.np, g.K, fun i k => h.at' i k - H.at' i k⟩
    u := u
    v := v
    N := N
    H := H
    h := h
    hu := ⟨g.np, g.K, fun i k => h.at' i k * u.at' i k⟩
    hv := ⟨g.np, g.K, fun i k => h.at' i k * v.at' i k⟩
    hN := ⟨g.np, g.K, fun i k => h.at' i k * N.at' i k⟩
    vort := vort }

/-- The vorticity written during the loop (sw2d_curved.py lines 292-293). -/
noncomputable def Grid.vort (g : Grid) (u v : DMat ℝ) : DMat ℝ := ⟨g.np, g.K, fun i k => g.slopeX v i k - g.slopeY u i k⟩

/-- The five arrays written by the loop (sw2d_curved.py lines 290-299): `eta`, `u`, `v`, `B`, `vort`.  The velocities of the vorticity are those of lines 279-280, which are the same quotients. -/
noncomputable def Grid.written (g : Grid) (q : Fields) (hN H : DMat ℝ) : List (DMat ℝ) :=
  [⟨g.np, g.K, fun i k => q.h.at' i k - H.at' i k⟩, g.velocity q.hu q.h, g.velocity q.hv q.h, g.velocity hN q.h, g.vort (g.velocity q.hu q.h) (g.velocity q.hv q.h)]

/-- The arrays written before the loop, of the same names (sw2d_curved.py lines 221-228; `h` is written only there). -/
def Start.written (s : Start) : List (DMat ℝ) := [s.eta, s.u, s.v, s.N, s.vort]

/-- Fields and first step when the loop of sw2d_curved.py is entered (lines 33, 211-218, 231-234). -/
noncomputable def Grid.startCurved (g : Grid) (p : Jet) (CFL : ℝ) (x y : DMat ℝ) : Out PySim := do
  let s := g.jetStart p x y
  let dt ← g.dtPy CFL (g.meanWave p.grav s.H) s.u s.v
  pure ⟨⟨s.h, s.hu, s.hv⟩, s.hN, 0, dt⟩

/-- Fields and first step when the loop of sw2d.py is entered: `eta = -2.5*(x/8000.0)`, `H = 10`, no flow, `N = np.exp(-((y-Ny)/Nrad)**2)` (lines 163, 186-203, 208-212). -/
noncomputable def Grid.startSw2dPy (g : Grid) (grav Ny Nrad CFL : ℝ) (x y : DMat ℝ) : Out PySim := do
  let h : DMat ℝ := ⟨g.np, g.K, fun i k => 10 * 1 + -2.5 * (x.at' i k / 8000)⟩
  let u : DMat ℝ := ⟨g.np, g.K, fun _ _ => 0⟩
  let v : DMat ℝ := ⟨g.np, g.K, fun _ _ => 0⟩
  let N : DMat ℝ := ⟨g.np, g.K, fun i k => Real.exp (-((y.at' i k - Ny) / Nrad) ^ 2)⟩
  let dt ← g.dtPy CFL (g.localWave grav h) u v
  pure ⟨⟨h, ⟨g.np, g.K, fun i k => h.at' i k * u.at' i k⟩, ⟨g.np, g.K, fun i k => h.at' i k * v.at' i k⟩⟩, ⟨g.np, g.K, fun i k => h.at' i k * N.at' i k⟩, 0, dt⟩

/-! ### Output of sw2d_curved.py -/

/-- One pass of the loop of sw2d_curved.py with its output (lines 247-300): the file number is the number of the pass, `outputInterval` is 50. -/
noncomputable def Grid.passCurved (g : Grid) (rhs : PyRhs) (grav CFL : ℝ) (H : DMat ℝ) (F : Matrix (Fin g.np) (Fin g.np) ℝ) (numSteps : ℕ) (r : PyRun) : Out PyRun := do
  let s ← g.stepCurved rhs grav CFL H F r.s
  if (r.step + 1) % 50 = 0 ∨ r.step + 1 = numSteps then pure ⟨s, r.step + 1, r.files ++ [r.step + 1]⟩
  else pure ⟨s, r.step + 1, r.files⟩

/-- sw2d_curved.py lines 229-300 from the state with the first step `dt` on, at most `n` passes: `numSteps = int(np.ceil(finalTime/dt))` with the first step, and file 0 is written before the loop. -/
noncomputable def Grid.curvedPy (g : Grid) (rhs : PyRhs) (grav CFL : ℝ) (H : DMat ℝ) (F : Matrix (Fin g.np) (Fin g.np) ℝ) (T : ℝ) (n : ℕ) (s : PySim) : Out PyRun :=
  pyWhile (fun r => r.s.t) (g.passCurved rhs grav CFL H F ⌈T / s.dt⌉₊) T n ⟨s, 0, [0]⟩

end Blitzdg.SW
