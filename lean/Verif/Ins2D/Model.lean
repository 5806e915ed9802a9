import Verif.SW.Disc

/-!
src/ins2d/main.cpp: right-hand side (lines 268-432), step sizes (lines 160-165, 193-195, 243-253) and main loop (lines 207-259).  Exact real arithmetic.

Simplifications: the contexts built from the quadrilateral provisioner are the fields of `Elem`; the Poisson matrix and its factorisation (lines 168-188) are not used by the loop; output is left out;
`isnan` is false for real numbers.
-/

namespace Blitzdg.Ins2D

open Blitzdg.Sparse (DMat)
open Blitzdg.Blitz (reshapeMatTo1D reshape1DToMat applyIndexMap)
open Blitzdg.DG2D (TagMap)
open Blitzdg.SW (zeros zeroMat tagNodes spreadMax listMax)

/-- What `computeRHS` reads from the provisioner (lines 274-297, 418-419). -/
structure Elem where
  np : ℕ
  K : ℕ
  nf : ℕ
  nfp : ℕ
  Dr : ℕ → ℕ → ℝ
  Ds : ℕ → ℕ → ℝ
  rx : ℕ → ℕ → ℝ
  ry : ℕ → ℕ → ℝ
  sx : ℕ → ℕ → ℝ
  sy : ℕ → ℕ → ℝ
  nx : DMat ℝ
  ny : DMat ℝ
  fscale : ℕ → ℕ → ℝ
  lift : ℕ → ℕ → ℝ
  vmapM : List ℕ
  vmapP : List ℕ
  bc : TagMap

/-- Density and velocity. -/
structure Flow where
  rho : DMat ℝ
  u : DMat ℝ
  v : DMat ℝ

variable (E : Elem)

/-- `numFaceNodes` (line 299). -/
def Elem.nodes : ℕ := E.nf * E.nfp * E.K

/-- `fullToVector` and the two `applyIndexMap` (lines 329-340). -/
def Elem.traces (u : DMat ℝ) : Out (List ℝ × List ℝ) := do
  let v ← reshapeMatTo1D u (zeros (E.np * E.K)) false
  let uM ← applyIndexMap v (E.vmapM.map Int.ofNat) (zeros E.nodes)
  let uP ← applyIndexMap v (E.vmapP.map Int.ofNat) (zeros E.nodes)
  pure (uM, uP)

/-- `rx*sum(Dr(ii,kk)*w(kk,jj), kk) + sx*sum(Ds(ii,kk)*w(kk,jj), kk)` (lines 366, 370). -/
def Elem.ddx (w : ℕ → ℕ → ℝ) (i k : ℕ) : ℝ := E.rx i k * (∑ j ∈ Finset.range E.np, E.Dr i j * w j k) + E.sx i k * ∑ j ∈ Finset.range E.np, E.Ds i j * w j k

/-- `ry*sum(Dr(ii,kk)*w(kk,jj), kk) + sy*sum(Ds(ii,kk)*w(kk,jj), kk)` (lines 367, 371). -/
def Elem.ddy (w : ℕ → ℕ → ℝ) (i k : ℕ) : ℝ := E.ry i k * (∑ j ∈ Finset.range E.np, E.Dr i j * w j k) + E.sy i k * ∑ j ∈ Finset.range E.np, E.Ds i j * w j k

/-- `ener` (line 369). -/
noncomputable def Flow.ener (q : Flow) (i k : ℕ) : ℝ := 0.5 * (q.u.at' i k * q.u.at' i k + q.v.at' i k * q.v.at' i k)

/-- `sum(Lift(ii,kk)*(Fscale*dFlux)(kk,jj), kk)` (lines 424-431). -/
def Elem.surface (d : DMat ℝ) (i k : ℕ) : ℝ := ∑ c ∈ Finset.range (E.nfp * E.nf), E.lift i c * (E.fscale c k * d.at' c k)

/-- `spdMax` (lines 380-398). -/
noncomputable def Elem.faceSpeeds (uM vM uP vP : List ℝ) : Out (List ℝ) := do
  let s := (List.range E.nodes).map fun c =>
    max √(uM.getD c 0 * uM.getD c 0 + vM.getD c 0 * vM.getD c 0) √(uP.getD c 0 * uP.getD c 0 + vP.getD c 0 * vP.getD c 0)
  let lam ← reshape1DToMat s (zeroMat E.nfp (E.nf * E.K)) false
  reshapeMatTo1D (spreadMax lam) s false

/-- `dFlux1`, `dFlux2`, `dFlux3` (lines 403-405): half the jump of the normal flux `(a u, a v)·n` minus the speed times the jump of `a`, for `a` the density, `u` and `v`. -/
noncomputable def jump (nx ny lam aM uM vM aP uP vP : ℝ) : ℝ := 0.5 * ((aM * uM - aP * uP) * nx + (aM * vM - aP * vP) * ny - lam * (aM - aP))

/-- src/ins2d/main.cpp lines 268-432 `ins2d::computeRHS`; `vort` is the content of the memory of the array of that name, which is allocated in line 365 and never written. -/
noncomputable def Elem.rhs (grav : ℝ) (vort : ℕ → ℕ → ℝ) (q : Flow) : Out Flow := do
  let _ ← tagNodes E.bc 3
  let nx ← reshapeMatTo1D E.nx (zeros E.nodes) false
  let ny ← reshapeMatTo1D E.ny (zeros E.nodes) false
  let (rM, rP) ← E.traces q.rho
  let (uM, uP) ← E.traces q.u
  let (vM, vP) ← E.traces q.v
  let lam ← E.faceSpeeds uM vM uP vP
  let flux := fun (aM aP : List ℝ) => (List.range E.nodes).map fun c =>
    jump (nx.getD c 0) (ny.getD c 0) (lam.getD c 0) (aM.getD c 0) (uM.getD c 0) (vM.getD c 0) (aP.getD c 0) (uP.getD c 0) (vP.getD c 0)
  let d1 ← reshape1DToMat (flux rM rP) (zeroMat (E.nfp * E.nf) E.K) false
  let d2 ← reshape1DToMat (flux uM uP) (zeroMat (E.nfp * E.nf) E.K) false
  let d3 ← reshape1DToMat (flux vM vP) (zeroMat (E.nfp * E.nf) E.K) false
  pure
    { rho := ⟨E.np, E.K, fun i k => -q.u.at' i k * E.ddx q.rho.at' i k - q.v.at' i k * E.ddy q.rho.at' i k + E.surface d1 i k⟩
      u := ⟨E.np, E.K, fun i k => -E.ddx q.ener i k - q.v.at' i k * vort i k + E.surface d2 i k⟩
      v := ⟨E.np, E.K, fun i k => -E.ddy q.ener i k + q.u.at' i k * vort i k + -grav * q.rho.at' i k + E.surface d3 i k⟩ }

/-- `(N+1)*(N+1)*0.5*(Fsc+c0_bound)` at one face node (lines 195 and 253). -/
noncomputable def rate (N : ℕ) (c0 f : ℝ) : ℝ := ((N : ℝ) + 1) * (N + 1) * 0.5 * (f + c0)

/-- The step size of the loop (line 253); `fsc` are the entries of `abs(fsVec)*spdM`. -/
noncomputable def dtLoop (CFL : ℝ) (N : ℕ) (c0 : ℝ) (fsc : List ℝ) : ℝ := CFL / listMax (fsc.map fun f => 1 / rate N c0 f)

/-- The initial step size (line 195), `nb` being the buoyancy frequency. -/
noncomputable def dtInit (CFL : ℝ) (N : ℕ) (c0 nb : ℝ) (fsc : List ℝ) : ℝ := min (1 / listMax (fsc.map fun f => CFL / rate N c0 f)) (CFL / nb)

/-- Variables of the main loop. -/
structure Sim where
  q : Flow
  t : ℝ
  dt : ℝ

/-- `q + c*r`, entry by entry. -/
noncomputable def Flow.axpy (c : ℝ) (r q : Flow) : Flow where
  rho := { q.rho with at' := fun i k => q.rho.at' i k + c * r.rho.at' i k }
  u := { q.u with at' := fun i k => q.u.at' i k + c * r.u.at' i k }
  v := { q.v with at' := fun i k => q.v.at' i k + c * r.v.at' i k }

/-- One pass of the loop (lines 207-258): two filtered right-hand sides, the test for blow-up (`big`: `abs(normMax(rho)) > 1e8`), the next step size, and only then `t += dt`.  `step` is line 253 as a
function of the velocities: `rhoVec` is not refreshed, so `c0_bound` keeps its first value. -/
noncomputable def pass (rhs : Flow → Out Flow) (big : Flow → Prop) [DecidablePred big] (step : Flow → ℝ) (s : Sim) : Out Sim := do
  let r ← rhs s.q
  let r ← rhs (Flow.axpy (0.5 * s.dt) r s.q)
  let q := Flow.axpy s.dt r s.q
  if big q then .throws
  else pure ⟨q, s.t + step q, step q⟩

end Blitzdg.Ins2D
