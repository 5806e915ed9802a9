import Verif.Nodes1D.Model

/-! The one-dimensional grid in rounding arithmetic. -/

namespace Blitzdg.Nodes1D

open Blitzdg.Sparse (DMat)

/-- src/Nodes1DProvisioner.cpp lines 69-75 with the result of every operation rounded by `rnd`; `r` are the stored reference nodes. -/
def gridRounded {R : Type} [Field R] (rnd : R → R) (xmin xmax : R) (K : Nat) (r : List R) : DMat R :=
  { rows := r.length, cols := K, at' := fun i k => rnd (xmin + rnd (rnd (rnd (xmax - xmin) / K) * rnd (k + rnd (1 / 2 * rnd (r.getD i 0 + 1))))) }

/-- `buildNodes` (src/Nodes1DProvisioner.cpp lines 57-89) with the rounded grid.  The distance of lines 144-145 is that of the stored coordinates, in exact arithmetic. -/
def buildNodesRounded {R : Type} [Field R] [LinearOrder R] (rnd : R → R) (wrap : Bool) (tol xmin xmax : R) (K : Nat) (r : List R) (o : Tables R) : Out (Tables R) := do
  let x := gridRounded rnd xmin xmax K r
  let e2v ← buildE2V K o.e2v
  let (e2e, e2f) ← buildConnectivity wrap K e2v o.e2e o.e2f
  let fx ← buildFx r.length K x o.fx
  let (vm, vp) ← buildMaps tol r.length K x e2e e2f
  let nx ← buildNormals K o.nx
  pure { x := x, e2v := e2v, e2e := e2e, e2f := e2f, fx := fx, vmapM := vm, vmapP := vp, nx := nx }

end Blitzdg.Nodes1D
