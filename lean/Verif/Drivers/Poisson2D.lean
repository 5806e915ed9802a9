import Verif.SW.Disc

/-!
Model of the two-dimensional Poisson driver: the operator handed to GMRES (src/poisson2d/Poisson2d.hpp) and the driver's data (src/poisson2d/main.cpp), in exact arithmetic on a triangle grid.
-/

namespace Blitzdg.Poisson2D

open Blitzdg.Sparse (DMat)
open Blitzdg.Blitz (reshapeMatTo1D reshape1DToMat)
open Blitzdg.DG2D
open Blitzdg.SW

variable (g : Grid)

/-- `sum(Dr(ii,kk)*u(kk,jj), kk)`, `sum(Ds(ii,kk)*u(kk,jj), kk)` (src/poisson2d/Poisson2d.hpp lines 56-57). -/
noncomputable def dr (u : ℕ → ℕ → ℝ) (i k : ℕ) : ℝ := ∑ j ∈ Finset.range g.np, g.o.d.Dr.at' i j * u j k
noncomputable def ds (u : ℕ → ℕ → ℝ) (i k : ℕ) : ℝ := ∑ j ∈ Finset.range g.np, g.o.d.Ds.at' i j * u j k

/-- `rx*dudr + sx*duds`, `ry*dudr + sy*duds` (src/poisson2d/Poisson2d.hpp lines 59-60). -/
noncomputable def gradX (u : ℕ → ℕ → ℝ) (i k : ℕ) : ℝ := metric (g.deriv i k) 0 0 * dr g u i k + metric (g.deriv i k) 1 0 * ds g u i k
noncomputable def gradY (u : ℕ → ℕ → ℝ) (i k : ℕ) : ℝ := metric (g.deriv i k) 0 1 * dr g u i k + metric (g.deriv i k) 1 1 * ds g u i k

/-- `sum(Lift(ii,kk)*w(kk,jj), kk)`. -/
noncomputable def lift (w : ℕ → ℕ → ℝ) (i k : ℕ) : ℝ := ∑ c ∈ Finset.range (3 * (g.N + 1)), g.o.lift.at' i c * w c k

/-- One pass of src/poisson2d/Poisson2d.hpp lines 71-74: `uP(d) = -uM(d)`. -/
noncomputable def wallStep (uM uP : List ℝ) (d : ℕ) : Out (List ℝ) := do
  let v ← rd uM d
  wr uP d (-v)

/-- One pass of src/poisson2d/Poisson2d.hpp lines 125-129: the outer gradient is the reflected inner one. -/
noncomputable def neumannStep (nx ny uxM uyM : List ℝ) (p : List ℝ × List ℝ) (n : ℕ) : Out (List ℝ × List ℝ) := do
  let ux ← rd uxM n
  let uy ← rd uyM n
  let x ← rd nx n
  let y ← rd ny n
  let uxP ← wr p.1 n (ux - 2 * x * (ux * x + uy * y))
  let uyP ← wr p.2 n (uy - 2 * y * (ux * x + uy * y))
  pure (uxP, uyP)

/-- `blitz::max(blitz::abs(mat))` (include/LinAlgHelpers.hpp lines 87-90), for arrays with at least one entry. -/
noncomputable def normMax (a : DMat ℝ) : ℝ :=
  (List.range (a.rows * a.cols)).foldl (fun m c => max m |a.at' (c / a.cols) (c % a.cols)|) |a.at' 0 0|

/-- `dg.jacobian()`. -/
noncomputable def jacobian : DMat ℝ := ⟨g.np, g.K, fun i k => jac (g.deriv i k)⟩

/-- src/poisson2d/Poisson2d.hpp lines 143-144: `hmin = 2.0/normMax(jacobian)`, `tau = Np/hmin`. -/
noncomputable def tau : ℝ := (g.np : ℝ) / (2 / normMax (jacobian g))

/-- `bcmap().at(BCTag::Neuman)` if the tag is present, else no nodes (src/poisson2d/Poisson2d.hpp lines 120-123). -/
def neumannNodes (bc : TagMap) : List ℕ :=
  match bc 7 with
  | some l => l
  | none => []

/-- A field with one row per node. -/
def field (u : ℕ → ℕ → ℝ) : DMat ℝ := ⟨g.np, g.K, u⟩

/-- src/poisson2d/Poisson2d.hpp lines 24-167 `PoissonOperator::operator()`; `out0`: previous contents of `out`.  `qxP`, `qyP` are overwritten before they are used (lines 132-133), the local mass matrix
is formed but not used (lines 150-153); both are left out. -/
noncomputable def op (inn out0 : List ℝ) : Out (List ℝ) := do
  let u ← reshape1DToMat inn (zeroMat g.np g.K) false
  let nx ← reshapeMatTo1D g.nx (zeros g.nf) false
  let ny ← reshapeMatTo1D g.ny (zeros g.nf) false
  let ux := gradX g u.at'
  let uy := gradY g u.at'
  let (uM, uP) ← g.traces u
  let mapD ← tagNodes g.bc 3
  let uP ← loopM (wallStep uM) uP mapD
  let du := (List.range g.nf).map fun c => uM.getD c 0 - uP.getD c 0
  let duMat ← reshape1DToMat du (zeroMat (3 * (g.N + 1)) g.K) false
  let qx := fun i k => ux i k - lift g (fun c k => g.fscale c k * (g.nx.at' c k * duMat.at' c k / 2)) i k
  let qy := fun i k => uy i k - lift g (fun c k => g.fscale c k * (g.ny.at' c k * duMat.at' c k / 2)) i k
  let (qxM, _) ← g.traces (field g qx)
  let (qyM, _) ← g.traces (field g qy)
  let (uxM, uxP) ← g.traces (field g ux)
  let (uyM, uyP) ← g.traces (field g uy)
  let (uxP, uyP) ← loopM (neumannStep nx ny uxM uyM) (uxP, uyP) (neumannNodes g.bc)
  let dqx := (List.range g.nf).map fun c => qxM.getD c 0 - 0.5 * (uxM.getD c 0 + uxP.getD c 0)
  let dqy := (List.range g.nf).map fun c => qyM.getD c 0 - 0.5 * (uyM.getD c 0 + uyP.getD c 0)
  let dqxMat ← reshape1DToMat dqx (zeroMat (3 * (g.N + 1)) g.K) false
  let dqyMat ← reshape1DToMat dqy (zeroMat (3 * (g.N + 1)) g.K) false
  let surf := fun c k => (g.nx.at' c k * dqxMat.at' c k + g.ny.at' c k * dqyMat.at' c k + tau g * duMat.at' c k) / 2
  let result := field g fun i k => gradX g qx i k + gradY g qy i k - lift g surf i k
  reshapeMatTo1D result out0 false

/-- src/poisson2d/main.cpp line 64: `uexact = sin(pi*x)*sin(pi*y)`. -/
noncomputable def uexact (x y : ℝ) : ℝ := Real.sin (Real.pi * x) * Real.sin (Real.pi * y)

/-- src/poisson2d/main.cpp line 65: `rhs = -pi*pi*uexact`. -/
noncomputable def rhs (x y : ℝ) : ℝ := -Real.pi * Real.pi * uexact x y

end Blitzdg.Poisson2D
