import Verif.Nodes1D.Ops
import Mathlib.Analysis.Complex.Trigonometric
import Mathlib.Analysis.SpecialFunctions.Sqrt

/-!
Model of the right-hand sides of the one-dimensional drivers, src/advec1d/main.cpp and src/burgers1d/main.cpp, in exact arithmetic.
Local arrays which the code fills before use start with zeros here; the (2, K) table of normals and the map arrays are those of `Nodes1D.Tables`.
-/

namespace Blitzdg.Drivers

open Blitzdg.Sparse (DMat rowMajor)
open Blitzdg.Nodes1D (Ops Tables Lapack buildOps buildNodes mapIO)
open Blitzdg.Blitz (reshapeMatTo1D reshape1DToMat applyIndexMap rdI)

/-- What the drivers read from the provisioner after `buildNodes` and `computeJacobian`. -/
structure Prov where
  N : ℕ
  K : ℕ
  o : Ops
  t : Tables ℝ

/-- `buildNodes` (src/Nodes1DProvisioner.cpp lines 57-89), both parts; `rx`, `Fscale` (`computeJacobian`) are functions of the result.
The last three arguments are the previous contents of the arrays. -/
noncomputable def buildProv (la : Lapack) (wrap : Bool) (eps tol xmin xmax : ℝ) (N K : ℕ) (r0 : List ℝ) (Vinv0 : DMat ℝ) (t0 : Tables ℝ) : Out Prov := do
  let o ← buildOps la eps N r0 Vinv0
  let t ← buildNodes wrap tol xmin xmax K o.r t0
  pure ⟨N, K, o, t⟩

/-- `get_nx()`: the (2, K) table of normals. -/
def Prov.nx (p : Prov) : DMat ℝ where
  rows := 2
  cols := p.K
  at' := fun f k => p.t.nx.getD (f * p.K + k) 0

/-- `get_rx()`. -/
noncomputable def Prov.rx (p : Prov) (i k : ℕ) : ℝ := Nodes1D.rx p.o.Dr p.t.x i k

/-- `get_Fscale()`. -/
noncomputable def Prov.fscale (p : Prov) (f k : ℕ) : ℝ := Nodes1D.fscale p.o.Dr p.t.x f k

/-- `sum(Dr(ii,kk)*u(kk,jj), kk)`. -/
noncomputable def Prov.diff (p : Prov) (u : DMat ℝ) (i k : ℕ) : ℝ := ∑ j ∈ Finset.range (p.N + 1), p.o.Dr.at' i j * u.at' j k

/-- `sum(Lift(ii,kk)*s(kk,jj), kk)`. -/
noncomputable def Prov.lift (p : Prov) (s : ℕ → ℕ → ℝ) (i k : ℕ) : ℝ := ∑ f ∈ Finset.range 2, p.o.lift.at' i f * s f k

/-- `vec(i) = x` for an `int` index. -/
def wrI {α : Type} (l : List α) (i : Int) (x : α) : Out (List α) := if i < 0 then .ub else wr l i.toNat x

/-- An array of zeros. -/
def zeros (n : ℕ) : List ℝ := List.replicate n 0

/-- A matrix of zeros. -/
def zeroMat (m n : ℕ) : DMat ℝ where
  rows := m
  cols := n
  at' := fun _ _ => 0

/-- The flattened field and its traces `uM`, `uP`.
(src/advec1d/main.cpp lines 167-169, src/burgers1d/main.cpp lines 183-187, 206-208) -/
noncomputable def Prov.traces (p : Prov) (u : DMat ℝ) : Out (List ℝ × List ℝ × List ℝ) := do
  let uVec ← reshapeMatTo1D u (zeros ((p.N + 1) * p.K)) false
  let uM ← applyIndexMap uVec (p.t.vmapM.map Int.ofNat) (zeros (2 * p.K))
  let uP ← applyIndexMap uVec (p.t.vmapP.map Int.ofNat) (zeros (2 * p.K))
  pure (uVec, uM, uP)

/-- src/advec1d/main.cpp lines 126-188 `advec1d::computeRHS`; `alpha` is the constant 0 (upwind). -/
noncomputable def advecRHS (p : Prov) (c : ℝ) (u : DMat ℝ) : Out (DMat ℝ) := do
  let nxVec ← reshapeMatTo1D p.nx (zeros (2 * p.K)) false
  let (_, uM, uP) ← p.traces u
  let (mapI, mapO, _, _) := mapIO p.N p.K
  let out ← rdI uM mapO
  let uP ← wrI uP mapO out
  let uP ← wrI uP mapI 0
  let du := (List.range (2 * p.K)).map fun g =>
    (uM.getD g 0 - uP.getD g 0) * 0.5 * (c * nxVec.getD g 0 - (1 - 0) * |c * nxVec.getD g 0|)
  let duMat ← reshape1DToMat du (zeroMat 2 p.K) false
  pure { rows := p.N + 1, cols := p.K, at' := fun i k =>
    -c * p.rx i k * p.diff u i k + p.lift (fun f k => p.fscale f k * duMat.at' f k) i k }

/-- src/burgers1d/main.cpp lines 119-122 `burgers1d::Burgers2` (scalar version). -/
noncomputable def burgers2 (x t alpha nu c : ℝ) : ℝ := c / alpha - c / alpha * Real.tanh (0.5 * (c / nu) * (x - c * t))

/-- src/burgers1d/main.cpp line 177: `max(abs(u))` (0 for an empty matrix, where blitz returns minus infinity). -/
noncomputable def maxAbs (u : DMat ℝ) : ℝ := (rowMajor u.rows u.cols).foldl (fun m ij => max m |u.at' ij.1 ij.2|) 0

/-- src/burgers1d/main.cpp lines 203-204: the scaled gradient `q`. -/
noncomputable def Prov.auxiliary (p : Prov) (nu : ℝ) (u duMat : DMat ℝ) : DMat ℝ where
  rows := p.N + 1
  cols := p.K
  at' := fun i k => √nu * (p.rx i k * p.diff u i k - p.lift (fun f k => 0.5 * p.fscale f k * p.nx.at' f k * duMat.at' f k) i k)

/-- src/burgers1d/main.cpp line 223: the volume flux. -/
noncomputable def Prov.burgersFlux (p : Prov) (nu : ℝ) (u q : DMat ℝ) : DMat ℝ where
  rows := p.N + 1
  cols := p.K
  at' := fun i k => 0.5 * u.at' i k * u.at' i k - √nu * q.at' i k

/-- src/burgers1d/main.cpp lines 222-227: the result. -/
noncomputable def Prov.burgersSum (p : Prov) (nu : ℝ) (u q fluxMat : DMat ℝ) : DMat ℝ where
  rows := p.N + 1
  cols := p.K
  at' := fun i k => -p.rx i k * p.diff (p.burgersFlux nu u q) i k + p.lift (fun f k => p.fscale f k * fluxMat.at' f k) i k

/-- src/burgers1d/main.cpp lines 127-229 `burgers1d::computeRHS`; `x` is the grid. -/
noncomputable def burgersRHS (p : Prov) (x : DMat ℝ) (t c alpha nu : ℝ) (u : DMat ℝ) : Out (DMat ℝ) := do
  let maxvel := maxAbs u
  let nxVec ← reshapeMatTo1D p.nx (zeros (2 * p.K)) false
  let xVec ← reshapeMatTo1D x (zeros ((p.N + 1) * p.K)) false
  let (uVec, uM, uP) ← p.traces u
  let (mapI, mapO, vmapI, vmapO) := mapIO p.N p.K
  let xI ← rdI xVec vmapI
  let xO ← rdI xVec vmapO
  let uL := burgers2 xI t alpha nu c
  let uR := burgers2 xO t alpha nu c
  let uI ← rdI uVec vmapI
  let uO ← rdI uVec vmapO
  let du := (List.range (2 * p.K)).map fun g => uM.getD g 0 - uP.getD g 0
  let du ← wrI du mapI (2 * (uI - uL))
  let du ← wrI du mapO (2 * (uO - uR))
  let duMat ← reshape1DToMat du (zeroMat 2 p.K) false
  let q := p.auxiliary nu u duMat
  let (_, qM, qP) ← p.traces q
  let dq := (List.range (2 * p.K)).map fun g => 0.5 * (qM.getD g 0 - qP.getD g 0)
  let dq ← wrI dq mapO 0
  let dq ← wrI dq mapI 0
  let du2 := (List.range (2 * p.K)).map fun g => 0.5 * (uM.getD g 0 * uM.getD g 0 - uP.getD g 0 * uP.getD g 0)
  let du2 ← wrI du2 mapI (uI * uI - uL * uL)
  let du2 ← wrI du2 mapO (uO * uO - uR * uR)
  let flux := (List.range (2 * p.K)).map fun g =>
    nxVec.getD g 0 * (0.5 * du2.getD g 0 - √nu * dq.getD g 0) - 0.5 * maxvel * du.getD g 0
  let fluxMat ← reshape1DToMat flux (zeroMat 2 p.K) false
  pure (p.burgersSum nu u q fluxMat)

end Blitzdg.Drivers
