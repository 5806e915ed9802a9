import Verif.Drivers.AdvecRun
import Verif.SW.PyRhs
import Verif.Py.Model

/-!
Model of the script advec1d.py and of the array properties of the one-dimensional provisioner it reads.  Exact arithmetic; the test for "not a number" never holds.
-/

namespace Blitzdg.Drivers

open Blitzdg.Sparse (DMat)
open Blitzdg.Nodes1D (Tables Lapack mapIO)
open Blitzdg.SW (flatF reshapeF pick)
open Blitzdg.Py (NdArray exportTo storage)

/-- `xGrid` (src/Nodes1DProvisioner.cpp lines 317-322 `get_xGrid_numpy`). -/
noncomputable def Prov.xGridNumpy (p : Prov) : Out (NdArray ℝ) := exportTo [p.N + 1, p.K] (storage p.t.x)

/-- `rx` as an array of the shape given by the constructor. -/
noncomputable def Prov.rxMat (p : Prov) : DMat ℝ := ⟨p.N + 1, p.K, p.rx⟩

/-- `Fscale` as an array of the shape given by the constructor. -/
noncomputable def Prov.fscaleMat (p : Prov) : DMat ℝ := ⟨2, p.K, p.fscale⟩

/-- `rx` (lines 338-343 `get_rx_numpy`). -/
noncomputable def Prov.rxNumpy (p : Prov) : Out (NdArray ℝ) := exportTo [p.N + 1, p.K] (storage p.rxMat)

/-- `Fscale` (lines 331-336 `get_Fscale_numpy`). -/
noncomputable def Prov.fscaleNumpy (p : Prov) : Out (NdArray ℝ) := exportTo [2, p.K] (storage p.fscaleMat)

/-- `nx` (lines 366-371 `get_nx_numpy`). -/
noncomputable def Prov.nxNumpy (p : Prov) : Out (NdArray ℝ) := exportTo [2, p.K] (storage p.nx)

/-- `vmapM` (lines 352-357 `get_vmapM_numpy`). -/
def Prov.vmapMNumpy (p : Prov) : Out (NdArray ℕ) := exportTo [p.K * 2] p.t.vmapM

/-- `vmapP` (lines 359-364 `get_vmapP_numpy`). -/
def Prov.vmapPNumpy (p : Prov) : Out (NdArray ℕ) := exportTo [p.K * 2] p.t.vmapP

/-- The position meant by the number `i` in `a[i]`, `a` of length `n`: negative numbers count from the end, others raise `IndexError`. -/
def npIdx (n : ℕ) (i : ℤ) : Out ℕ := if 0 ≤ i ∧ i < n then .ok i.toNat else if i < 0 ∧ 0 ≤ i + n then .ok (i + n).toNat else .throws

/-- `np.dot` of two matrices; `ValueError` if the inner dimensions differ. -/
noncomputable def npDot (a b : DMat ℝ) : Out (DMat ℝ) := if a.cols = b.rows then .ok ⟨a.rows, b.cols, fun i k => ∑ j ∈ Finset.range a.cols, a.at' i j * b.at' j k⟩ else .throws

/-- An entrywise operation on two matrices; `ValueError` if the shapes differ (shapes with a dimension one, which NumPy repeats, are not met here and left out). -/
def npZip (f : ℝ → ℝ → ℝ) (a b : DMat ℝ) : Out (DMat ℝ) := if a.rows = b.rows ∧ a.cols = b.cols then .ok ⟨a.rows, a.cols, fun i k => f (a.at' i k) (b.at' i k)⟩ else .throws

/-- advec1d.py lines 12-39 `advec1dComputeRHS`.  `Dr` and `Lift` have the shapes given by their properties. -/
noncomputable def pyAdvecRHS (p : Prov) (c : ℝ) (u : DMat ℝ) : Out (DMat ℝ) := do
  let uC := flatF u
  let nxC := flatF p.nx
  let uM ← pick uC p.t.vmapM
  let uP ← pick uC p.t.vmapP
  let o ← npIdx uM.length (mapIO p.N p.K).2.1
  let o' ← npIdx uP.length (mapIO p.N p.K).2.1
  let uP := uP.set o' (uM.getD o 0)
  let i ← npIdx uP.length (mapIO p.N p.K).1
  let uP := uP.set i 0
  if uM.length ≠ uP.length ∨ uM.length ≠ nxC.length then .throws else do
    let du := (List.range uM.length).map fun g => (uM.getD g 0 - uP.getD g 0) * 0.5 * (c * nxC.getD g 0 - (1 - 0) * |c * nxC.getD g 0|)
    if du.length ≠ p.nx.rows * p.nx.cols then .throws else do
      let D ← npDot ⟨p.N + 1, p.N + 1, p.o.Dr.at'⟩ u
      let R ← npZip (fun a b => -c * a * b) p.rxMat D
      let S ← npZip (fun a b => a * b) p.fscaleMat (reshapeF p.nx.rows p.nx.cols du)
      let L ← npDot ⟨p.N + 1, 2, p.o.lift.at'⟩ S
      npZip (fun a b => a + b) R L

/-- The variables of the time loop and the fields plotted so far. -/
structure PyAdvecState where
  u : DMat ℝ
  res : DMat ℝ
  t : ℝ
  plots : List (DMat ℝ)

/-- One pass of the time loop.  `raise("...")` raises `TypeError`, since a string is no exception. (advec1d.py lines 77-102) -/
noncomputable def pyAdvecBody (p : Prov) (c dt : ℝ) (s : PyAdvecState) : Out PyAdvecState := do
  let (u, res) ← rkStep (pyAdvecRHS p c) dt (s.u, s.res)
  if maxAbs u > 1e8 then .throws else pure ⟨u, res, s.t + dt, s.plots ++ [u]⟩

/-- `while t < finalTime`, at most `fuel` passes (`none`: still running). (advec1d.py lines 77-102) -/
noncomputable def pyAdvecLoop (p : Prov) (c dt T : ℝ) : ℕ → PyAdvecState → Out (Option PyAdvecState)
  | 0, _ => .ok none
  | n + 1, s => if s.t < T then pyAdvecBody p c dt s >>= pyAdvecLoop p c dt T n else .ok (some s)

/-- The script after the provisioner is built; `x[1,0]` fails if there is one node or no element.  The script has `F(x) = exp(-10 x²)`. (advec1d.py lines 57-102) -/
noncomputable def pyAdvecProgram (p : Prov) (c T CFL : ℝ) (F : ℝ → ℝ) (fuel : ℕ) : Out (Option PyAdvecState) :=
  if p.N = 0 ∨ p.K = 0 then .throws else
    pyAdvecLoop p c (CFL * (p.t.x.at' 1 0 - p.t.x.at' 0 0) / |c|) T fuel ⟨p.sample F, zeroMat (p.N + 1) p.K, 0, []⟩

/-- The whole script. (advec1d.py lines 41-102) -/
noncomputable def pyAdvecMain (la : Lapack) (wrap : Bool) (eps tol xmin xmax : ℝ) (N K : ℕ) (r0 : List ℝ) (Vinv0 : DMat ℝ) (t0 : Tables ℝ) (c T CFL : ℝ) (F : ℝ → ℝ) (fuel : ℕ) : Out (Option PyAdvecState) := do
  let p ← buildProv la wrap eps tol xmin xmax N K r0 Vinv0 t0
  pyAdvecProgram p c T CFL F fuel

end Blitzdg.Drivers
