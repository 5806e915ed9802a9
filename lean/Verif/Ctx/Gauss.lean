import Verif.Ctx.Model
import Verif.DG2D.Maps
import Verif.Jacobi.Quad

/-!
The Gauss face context of a triangle grid: `TriangleNodesProvisioner::buildGaussFaceNodes`.  Exact real arithmetic; LAPACK routines are parameters.  The index maps are those of
`Verif/DG2D/Maps.lean`.
-/

namespace Blitzdg.Ctx

open Blitzdg.Sparse (DMat)
open Blitzdg.Nodes1D (Lapack uncaught)
open Blitzdg.DG2D
open Blitzdg.SW

/-- `GaussFaceContext2D` (include/GaussFaceContext2D.hpp). -/
structure GaussFace where
  n : ℕ
  nx : DMat ℝ
  ny : DMat ℝ
  sJ : DMat ℝ
  J : DMat ℝ
  rx : DMat ℝ
  ry : DMat ℝ
  sx : DMat ℝ
  sy : DMat ℝ
  bc : TagMap
  x : DMat ℝ
  y : DMat ℝ
  W : DMat ℝ
  interp : DMat ℝ
  mapM : List ℕ
  mapP : List ℕ

/-- `face1r`, `face2r`, `face3r` (src/TriangleNodesProvisioner.cpp line 221). -/
noncomputable def faceR (f : ℕ) (z : List ℝ) : List ℝ := if f = 0 then z else if f = 1 then z.map fun t => -t else z.map fun t => 0 * t - 1

/-- `face1s`, `face2s`, `face3s` (src/TriangleNodesProvisioner.cpp line 222). -/
noncomputable def faceS (f : ℕ) (z : List ℝ) : List ℝ := if f = 0 then z.map fun t => 0 * t - 1 else if f = 1 then z else z.map fun t => -t

/-- `gaussInterpMatrix` (src/TriangleNodesProvisioner.cpp lines 224-242): the three matrices `V_f * invV` one above the other. -/
noncomputable def gaussInterp (g : Grid) (NG : ℕ) (z : List ℝ) : DMat ℝ :=
  ⟨3 * NG, g.np, fun c j => (triInterp g.N g.o.Vinv (faceR (c / NG) z) (faceS (c / NG) z)).at' (c % NG) j⟩

/-- The derivative matrices `dVMdr`, `dVMds` of all faces, one above the other (src/TriangleNodesProvisioner.cpp lines 277-281). -/
noncomputable def gaussDiff (g : Grid) (V : DMat ℝ) : Diff := ⟨mul V g.o.d.Dr, mul V g.o.d.Ds, g.o.d.Drw, g.o.d.Dsw⟩

/-- Unnormalised normal by face number (src/TriangleNodesProvisioner.cpp lines 309-315). -/
noncomputable def faceNormal (f : ℕ) (d : Deriv) : ℝ × ℝ := if f = 0 then gaussNormal 0 d else if f = 1 then gaussNormal 1 d else gaussNormal 2 d

/-- src/TriangleNodesProvisioner.cpp lines 207-381 `buildGaussFaceNodes(NGauss)`, `NGauss ≥ 1`.  `eps` is the machine epsilon.  The arrays `z` and `w` are uninitialised before the call of
`computeJacobiQuadWeights`, which overwrites all their entries; zeros stand for them.  Row `c = f*NGauss + ig` of the arrays is written in the pass for face `f`. -/
noncomputable def buildGauss (la : Lapack) (eps : ℝ) (g : Grid) (m : Mesh) (NG : ℕ) : Out GaussFace := do
  let (z, w) ← (Jacobi.quadWeights la.query la.dsyevd 0 0 eps (NG - 1) (zeros NG) (zeros NG) >>= uncaught)
  let V := gaussInterp g NG z
  let d := gaussDiff g V
  let (mapM, r) ← gaussMaps NG 3 g.K m.E m.F m.bcType
  let nrml := fun c k => faceNormal (c / NG) (cubDeriv g d c k)
  let sJ := fun c k => len (nrml c k) * jac (cubDeriv g d c k)
  let met := fun c k => metric (cubDeriv g d c k)
  pure {
    n := NG
    nx := ⟨3 * NG, g.K, fun c k => (unit (nrml c k)).1⟩, ny := ⟨3 * NG, g.K, fun c k => (unit (nrml c k)).2⟩
    sJ := ⟨3 * NG, g.K, sJ⟩, J := ⟨3 * NG, g.K, fun c k => jac (cubDeriv g d c k)⟩
    rx := ⟨3 * NG, g.K, fun c k => met c k 0 0⟩, ry := ⟨3 * NG, g.K, fun c k => met c k 0 1⟩
    sx := ⟨3 * NG, g.K, fun c k => met c k 1 0⟩, sy := ⟨3 * NG, g.K, fun c k => met c k 1 1⟩
    bc := r.bc
    x := ⟨3 * NG, g.K, fun c k => ∑ j ∈ Finset.range g.np, V.at' c j * gridX (g.tri k) g.n j⟩
    y := ⟨3 * NG, g.K, fun c k => ∑ j ∈ Finset.range g.np, V.at' c j * gridY (g.tri k) g.n j⟩
    W := ⟨3 * NG, g.K, fun c k => w.getD (c % NG) 0 * sJ c k⟩
    interp := V, mapM := mapM, mapP := r.mapP }

end Blitzdg.Ctx
