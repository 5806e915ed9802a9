import Verif.SW.Step
import Verif.SW.PyWeak

/-!
The time loops of the Python shallow water programs sw2d_curved.py and sw2d.py, and the drag coefficient of the former.  Exact real arithmetic: `nan` does not occur, and a division by zero gives 0 here; no claim is made about
states without water.  Printing and output to files are left out, except for the arithmetic that decides when files are written.
-/

namespace Blitzdg.SW

open Blitzdg.Sparse (DMat)
open Blitzdg.DG2D
open Blitzdg.Ctx (Cubature GaussFace)

/-- Variables of the loops: `h`, `hu`, `hv`, `hN`, `t`, `dt` (sw2d_curved.py lines 246-288, sw2d.py lines 218-251). -/
structure PySim where
  q : Fields
  hN : DMat ℝ
  t : ℝ
  dt : ℝ

/-- `np.dot(Filt, RHS1)` (sw2d_curved.py lines 250-253, 266-269; sw2d.py lines 222-225, 235-238), a new array. -/
noncomputable def npFilter {n : ℕ} (F : Matrix (Fin n) (Fin n) ℝ) (u : DMat ℝ) : DMat ℝ := { u with at' := fun a k => if h : a < n then ∑ j : Fin n, F ⟨a, h⟩ j * u.at' j k else u.at' a k }

/-- The four rates filtered. -/
noncomputable def npFilter4 {n : ℕ} (F : Matrix (Fin n) (Fin n) ℝ) (r : Fields × DMat ℝ) : Fields × DMat ℝ := (⟨npFilter F r.1.h, npFilter F r.1.hu, npFilter F r.1.hv⟩, npFilter F r.2)

/-- `hN + c*RHS4` (sw2d_curved.py lines 259, 275; sw2d.py lines 231, 244). -/
def addTo (c : ℝ) (r u : DMat ℝ) : DMat ℝ := { u with at' := fun i k => u.at' i k + c * r.at' i k }

/-- The rates of change as a function of the fields. -/
abbrev PyRhs := Fields → DMat ℝ → Out (Fields × DMat ℝ)

/-- The predictor `h1, hu1, hv1, hN1` (sw2d_curved.py lines 248-259; sw2d.py lines 220-231). -/
noncomputable def pyMid (rhs : PyRhs) {n : ℕ} (F : Matrix (Fin n) (Fin n) ℝ) (s : PySim) : Out (Fields × DMat ℝ) := do
  let r ← rhs s.q s.hN
  let r := npFilter4 F r
  pure (Fields.axpy (0.5 * s.dt) r.1 s.q, addTo (0.5 * s.dt) r.2 s.hN)

/-- The corrector (sw2d_curved.py lines 264-275; sw2d.py lines 233-244). -/
noncomputable def pyAdvance (rhs : PyRhs) {n : ℕ} (F : Matrix (Fin n) (Fin n) ℝ) (s : PySim) : Out (Fields × DMat ℝ) := do
  let q1 ← pyMid rhs F s
  let r ← rhs q1.1 q1.2
  let r := npFilter4 F r
  pure (Fields.axpy s.dt r.1 s.q, addTo s.dt r.2 s.hN)

/-- `CFL / np.max(((NOrder+1)**2)*0.5*np.abs(Fscale)*(c[vmapM] + np.sqrt(u[vmapM]**2 + v[vmapM]**2)))` (sw2d_curved.py lines 234, 281; sw2d.py line 212), `c` and the velocities being arrays of the shape of the grid.  The
maximum of an empty array raises ValueError. -/
noncomputable def Grid.dtPy (g : Grid) (CFL : ℝ) (c u v : DMat ℝ) : Out ℝ := do
  let cM ← pick (flatF c) g.maps.vmapM
  let uM ← pick (flatF u) g.maps.vmapM
  let vM ← pick (flatF v) g.maps.vmapM
  let fs := flatF ⟨3 * (g.N + 1), g.K, g.fscale⟩
  if g.nf = 0 ∨ g.maps.vmapM.length ≠ g.nf then .throws
  else pure (CFL / listMax ((List.range g.nf).map fun i => (((g.N : ℝ) + 1) ^ 2) * 0.5 * |fs.getD i 0| * (cM.getD i 0 + √(uM.getD i 0 ^ 2 + vM.getD i 0 ^ 2))))

/-- `hu / h` (sw2d_curved.py lines 279-280). -/
noncomputable def Grid.velocity (g : Grid) (m h : DMat ℝ) : DMat ℝ := ⟨g.np, g.K, fun i k => m.at' i k / h.at' i k⟩

/-- `np.mean(H)` (sw2d_curved.py line 231). -/
noncomputable def Grid.mean (g : Grid) (H : DMat ℝ) : ℝ := (∑ k ∈ Finset.range g.K, ∑ i ∈ Finset.range g.np, H.at' i k) / (g.np * g.K)

/-- `c = np.sqrt(g*Hbar)*np.ones((Np, K))` (sw2d_curved.py lines 231-232), computed once before the loop. -/
noncomputable def Grid.meanWave (g : Grid) (grav : ℝ) (H : DMat ℝ) : DMat ℝ := ⟨g.np, g.K, fun _ _ => √(grav * g.mean H)⟩

/-- `np.max(np.abs(h)) > 1e8` (sw2d_curved.py lines 284-285; sw2d.py lines 246-247). -/
noncomputable def Grid.hMax (g : Grid) (h : DMat ℝ) : ℝ := listMax ((List.range (g.np * g.K)).map fun c => |h.at' (c / g.K) (c % g.K)|)

/-- One pass of the loop of sw2d_curved.py (lines 248-288) for given rates: the clock advances by the step just taken, then the next step is chosen. -/
noncomputable def Grid.stepCurved (g : Grid) (rhs : PyRhs) (grav CFL : ℝ) (H : DMat ℝ) (F : Matrix (Fin g.np) (Fin g.np) ℝ) (s : PySim) : Out PySim := do
  let q ← pyAdvance rhs F s
  let dt ← g.dtPy CFL (g.meanWave grav H) (g.velocity q.1.hu q.1.h) (g.velocity q.1.hv q.1.h)
  if g.hMax q.1.h > 1e8 then .throws
  else pure ⟨q.1, q.2, s.t + s.dt, dt⟩

/-- One pass of the loop of sw2d.py (lines 220-250) for given rates: the step stays what it was. -/
noncomputable def Grid.stepSw2dPy (g : Grid) (rhs : PyRhs) (F : Matrix (Fin g.np) (Fin g.np) ℝ) (s : PySim) : Out PySim := do
  let q ← pyAdvance rhs F s
  if g.hMax q.1.h > 1e8 then .throws
  else pure ⟨q.1, q.2, s.t + s.dt, s.dt⟩

/-- At most `n` passes of `while t < finalTime:` (sw2d_curved.py line 246, sw2d.py line 218); `clock` is the variable `t`. -/
noncomputable def pyWhile {α : Type} (clock : α → ℝ) (step : α → Out α) (T : ℝ) : ℕ → α → Out α
  | 0, s => .ok s
  | n + 1, s => if clock s < T then do
      let s' ← step s
      pyWhile clock step T n s'
    else .ok s

/-! ### sw2d.py -/

/-- `hM`, `huM`, `hvM`, `hNM` or the same with `P` (sw2d.py lines 63-73): here the momenta are taken as they are. -/
noncomputable def sideDirect (q : Fields) (hN : DMat ℝ) (vmap : List ℕ) : Out (List Q4) := do
  let h ← pick (flatF q.h) vmap
  let hu ← pick (flatF q.hu) vmap
  let hv ← pick (flatF q.hv) vmap
  let n ← pick (flatF hN) vmap
  pure ((List.range vmap.length).map fun c => ⟨h.getD c 0, hu.getD c 0, hv.getD c 0, n.getD c 0⟩)

/-- sw2d.py lines 36-146 `sw2dComputeRHS`, with the index maps of the context.  The fluxes of lines 12-34 are those of swhelpers/flux.py. -/
noncomputable def Grid.rhsSw2dPy (g : Grid) (grav f : ℝ) (q : Fields) (hN : DMat ℝ) : Out (Fields × DMat ℝ) := do
  let nx := flatF g.nx
  let ny := flatF g.ny
  let mapW ← tagNodes g.bc 3
  let m ← sideDirect q hN g.maps.vmapM
  let p ← sideDirect q hN g.maps.vmapP
  if m.length ≠ g.nf ∨ p.length ≠ g.nf then .throws
  else do
    let p ← loopM (pyWall nx ny m) p mapW
    let lam := pyFaceMax (g.N + 1) (nodeSpeed grav m p)
    let dF := (List.range g.nf).map fun c => pyJump grav (nx.getD c 0) (ny.getD c 0) (lam c) (m.getD c Q4.none) (p.getD c Q4.none)
    let d1 := reshapeF (3 * (g.N + 1)) g.K (dF.map V4.c1)
    let d2 := reshapeF (3 * (g.N + 1)) g.K (dF.map V4.c2)
    let d3 := reshapeF (3 * (g.N + 1)) g.K (dF.map V4.c3)
    let d4 := reshapeF (3 * (g.N + 1)) g.K (dF.map V4.c4)
    let at4 : ℕ → ℕ → Q4 := fun j k => ⟨q.h.at' j k, q.hu.at' j k, q.hv.at' j k, hN.at' j k⟩
    pure (
      { h := ⟨g.np, g.K, fun i k => g.divergence (fun j k => (pyF grav (at4 j k)).c1) (fun j k => (pyG grav (at4 j k)).c1) i k + g.surface d1 i k⟩
        hu := ⟨g.np, g.K, fun i k => g.divergence (fun j k => (pyF grav (at4 j k)).c2) (fun j k => (pyG grav (at4 j k)).c2) i k + g.surface d2 i k + f * q.hv.at' i k⟩
        hv := ⟨g.np, g.K, fun i k => g.divergence (fun j k => (pyF grav (at4 j k)).c3) (fun j k => (pyG grav (at4 j k)).c3) i k + g.surface d3 i k - f * q.hu.at' i k⟩ },
      ⟨g.np, g.K, fun i k => g.divergence (fun j k => (pyF grav (at4 j k)).c4) (fun j k => (pyG grav (at4 j k)).c4) i k + g.surface d4 i k⟩)

/-- `c = np.sqrt(g*h)` (sw2d.py line 210). -/
noncomputable def Grid.localWave (g : Grid) (grav : ℝ) (h : DMat ℝ) : DMat ℝ := ⟨g.np, g.K, fun i k => √(grav * h.at' i k)⟩

/-- Variables of the loop of sw2d.py with `step` and the numbers of the files written so far. -/
structure PyRun where
  s : PySim
  step : ℕ
  files : List ℕ

/-- One pass of the loop of sw2d.py with its output (lines 219-260).  `step % 0` raises ZeroDivisionError. -/
noncomputable def Grid.passSw2dPy (g : Grid) (rhs : PyRhs) (F : Matrix (Fin g.np) (Fin g.np) ℝ) (numSteps outputInterval : ℕ) (r : PyRun) : Out PyRun := do
  let s ← g.stepSw2dPy rhs F r.s
  if outputInterval = 0 then .throws
  else if (r.step + 1) % outputInterval = 0 ∨ r.step + 1 = numSteps then pure ⟨s, r.step + 1, r.files ++ [r.step + 1]⟩
  else pure ⟨s, r.step + 1, r.files⟩

/-- sw2d.py lines 208-260 from the state with the first step `dt` on, at most `n` passes: `numSteps = int(np.ceil(finalTime/dt))`, `outputInterval = int(numSteps / numOuts)`, and file 0 is written before the loop. -/
noncomputable def Grid.sw2dPy (g : Grid) (rhs : PyRhs) (F : Matrix (Fin g.np) (Fin g.np) ℝ) (T : ℝ) (numOuts n : ℕ) (s : PySim) : Out PyRun :=
  pyWhile (fun r => r.s.t) (g.passSw2dPy rhs F ⌈T / s.dt⌉₊ (⌈T / s.dt⌉₊ / numOuts)) T n ⟨s, 0, [0]⟩

/-! ### The drag coefficient -/

/-- `CD_max*0.5*(1-np.tanh((min_dist - 0.5*length_tol)/(0.1*length_tol)))` (sw2d_curved.py line 182). -/
noncomputable def dragAt (CDmax tol dist : ℝ) : ℝ := CDmax * 0.5 * (1 - Real.tanh ((dist - 0.5 * tol) / (0.1 * tol)))

/-- `np.hypot`. -/
noncomputable def pyHypot (a b : ℝ) : ℝ := √(a ^ 2 + b ^ 2)

/-- `np.min`; raises ValueError for an empty array. -/
noncomputable def pyMin : List ℝ → Out ℝ
  | [] => .throws
  | a :: l => .ok (l.foldl min a)

/-- Entry `i` of `CDflat` (sw2d_curved.py lines 175-182); `xW`, `yW` are the coordinates of the wall nodes. -/
noncomputable def dragNode (CDmax tol : ℝ) (xW yW : List ℝ) (xi yi : ℝ) : Out ℝ := do
  let d ← pyMin ((List.range xW.length).map fun j => pyHypot (xi - xW.getD j 0) (yi - yW.getD j 0))
  pure (dragAt CDmax tol d)

end Blitzdg.SW
