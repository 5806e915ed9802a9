import Verif.Drivers.OneD

/-!
Model of the one-dimensional Poisson driver: the operator handed to GMRES (src/poisson1d/Poisson1d.hpp) and the right-hand side (src/poisson1d/main.cpp), in exact arithmetic.
-/

namespace Blitzdg.Drivers

open Blitzdg.Sparse (DMat)
open Blitzdg.Nodes1D (mapIO)
open Blitzdg.Blitz (reshapeMatTo1D reshape1DToMat rdI)

/-- `get_J()`. -/
noncomputable def Prov.jac (p : Prov) (i k : ℕ) : ℝ := Nodes1D.jac p.o.Dr p.t.x i k

/-- src/poisson1d/Poisson1d.hpp line 69: `ux = rx*sum(Dr(ii,kk)*u(kk,jj), kk)`. -/
noncomputable def Prov.slope (p : Prov) (u : DMat ℝ) : DMat ℝ where
  rows := p.N + 1
  cols := p.K
  at' := fun i k => p.rx i k * p.diff u i k

/-- src/poisson1d/Poisson1d.hpp lines 92-95: the auxiliary variable `q`. -/
noncomputable def Prov.auxSlope (p : Prov) (u duMat : DMat ℝ) : DMat ℝ where
  rows := p.N + 1
  cols := p.K
  at' := fun i k => p.rx i k * p.diff u i k - p.lift (fun f k => p.fscale f k * (p.nx.at' f k * duMat.at' f k / 2)) i k

/-- src/poisson1d/Poisson1d.hpp line 125, src/poisson1d/main.cpp line 85: `MassMatrix = sum(Vinv(kk,ii)*Vinv(kk,jj), kk)`. -/
noncomputable def Prov.mass (p : Prov) (i j : ℕ) : ℝ := ∑ m ∈ Finset.range (p.N + 1), p.o.Vinv.at' m i * p.o.Vinv.at' m j

/-- src/poisson1d/Poisson1d.hpp line 132, src/poisson1d/main.cpp line 86: `J*(sum(MassMatrix(ii,kk)*f(kk,jj),kk))`. -/
noncomputable def Prov.massMul (p : Prov) (f : DMat ℝ) : DMat ℝ where
  rows := p.N + 1
  cols := p.K
  at' := fun i k => p.jac i k * ∑ j ∈ Finset.range (p.N + 1), p.mass i j * f.at' j k

/-- src/poisson1d/Poisson1d.hpp lines 119-120: `hmin = 2.0/normMax(rx)`, `tau = (Np*Np)/hmin`. -/
noncomputable def Prov.tau (p : Prov) : ℝ :=
  ((p.N + 1) * (p.N + 1) : ℝ) / (2 / maxAbs { rows := p.N + 1, cols := p.K, at' := p.rx })

/-- src/poisson1d/Poisson1d.hpp lines 122, 130-131: `surfaceRHS` and `tmp`. -/
noncomputable def Prov.laplace (p : Prov) (q dqMat duMat : DMat ℝ) : DMat ℝ where
  rows := p.N + 1
  cols := p.K
  at' := fun i k => p.rx i k * p.diff q i k -
    p.lift (fun f k => p.nx.at' f k * (dqMat.at' f k + p.tau * p.nx.at' f k * duMat.at' f k)) i k

/-- src/poisson1d/Poisson1d.hpp lines 24-137 `PoissonOperator::operator()`; `out0`: previous contents of `out`. The `+` trace of `q`, which the code does not form, is discarded. -/
noncomputable def poisson1dOp (p : Prov) (inn out0 : List ℝ) : Out (List ℝ) := do
  let u ← reshape1DToMat inn (zeroMat (p.N + 1) p.K) false
  let (_, uM, uP) ← p.traces u
  let (mapI, mapO, _, _) := mapIO p.N p.K
  let uI ← rdI uM mapI
  let uP ← wrI uP mapI (-uI)
  let uO ← rdI uM mapO
  let uP ← wrI uP mapO (-uO)
  let du := (List.range (2 * p.K)).map fun g => uM.getD g 0 - uP.getD g 0
  let duMat ← reshape1DToMat du (zeroMat 2 p.K) false
  let q := p.auxSlope u duMat
  let (_, qM, _) ← p.traces q
  let (_, uxM, uxP) ← p.traces (p.slope u)
  let uxI ← rdI uxM mapI
  let uxP ← wrI uxP mapI uxI
  let uxO ← rdI uxM mapO
  let uxP ← wrI uxP mapO uxO
  let dq := (List.range (2 * p.K)).map fun g => qM.getD g 0 - 0.5 * (uxM.getD g 0 + uxP.getD g 0)
  let dqMat ← reshape1DToMat dq (zeroMat 2 p.K) false
  reshapeMatTo1D (p.massMul (p.laplace q dqMat duMat)) out0 false

/-- src/poisson1d/main.cpp lines 85-88: the vector handed to GMRES for the right-hand side `f` (in the driver `-pi*pi*sin(pi*x)`). -/
noncomputable def poisson1dRhs (p : Prov) (f : DMat ℝ) (vec0 : List ℝ) : Out (List ℝ) := reshapeMatTo1D (p.massMul f) vec0 false

end Blitzdg.Drivers
