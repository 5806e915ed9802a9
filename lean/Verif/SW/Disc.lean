import Verif.SW.Flux
import Verif.DG2D.Nodes
import Verif.DG2D.Geom
import Verif.DG2D.Maps
import Verif.DG2D.Gather
import Mathlib.Analysis.Complex.Trigonometric
import Mathlib.Analysis.Real.Pi.Bounds

/-!
The two shallow water solvers on arrays: the data they read from the triangle provisioner, their right-hand sides and time steps.  Exact real arithmetic.
Local arrays which the code fills before use start with zeros here.
-/

namespace Blitzdg.SW

open Blitzdg.Sparse (DMat)
open Blitzdg.Nodes1D (Lapack)
open Blitzdg.Blitz (reshapeMatTo1D reshape1DToMat applyIndexMap)
open Blitzdg.DG2D

/-- What the provisioner reads from the mesh manager: vertex table with three coordinates per vertex, elements, neighbours, boundary tags. -/
structure Mesh where
  K : ℕ
  nv : ℕ
  ev : List ℕ
  vert : List ℝ
  E : List ℕ
  F : List ℕ
  bcType : List Int

/-- What the solvers read from a triangle provisioner. -/
structure Grid where
  N : ℕ
  K : ℕ
  n : RefNodes
  o : RefOps
  tri : ℕ → Tri
  maps : TraceMaps
  bc : TagMap

/-- The three corners of an element, as gathered (src/TriangleNodesProvisioner.cpp lines 762-772). -/
def toTri (c : List (ℝ × ℝ)) : Tri :=
  ⟨(c.getD 0 0).1, (c.getD 0 0).2, (c.getD 1 0).1, (c.getD 1 0).2, (c.getD 2 0).1, (c.getD 2 0).2⟩

/-- `xGrid(i, k)`, `yGrid(i, k)` (src/TriangleNodesProvisioner.cpp lines 807-808). -/
noncomputable def gridX (T : Tri) (n : RefNodes) (i : ℕ) : ℝ := triCoord T.xa T.xb T.xc (n.r.getD i 0) (n.s.getD i 0)
noncomputable def gridY (T : Tri) (n : RefNodes) (i : ℕ) : ℝ := triCoord T.ya T.yb T.yc (n.r.getD i 0) (n.s.getD i 0)

/-- The corners between which face `f` runs: `v1`, `v2` of src/TriangleNodesProvisioner.cpp lines 947-948. -/
def faceEnds (T : Tri) (f : ℕ) : (ℝ × ℝ) × (ℝ × ℝ) :=
  if f = 0 then ((T.xa, T.ya), (T.xb, T.yb)) else if f = 1 then ((T.xb, T.yb), (T.xc, T.yc)) else ((T.xc, T.yc), (T.xa, T.ya))

/-- `std::hypot`. -/
noncomputable def hypot (x y : ℝ) : ℝ := √(x * x + y * y)

/-- The nearness test of src/TriangleNodesProvisioner.cpp lines 951-964 and include/LinAlgHelpers.hpp lines 103-105 on face `g = 3*k + f`: volume nodes `a` and `b` are
less than `tol` times the length of the face apart. -/
noncomputable def nearTest (tri : ℕ → Tri) (n : RefNodes) (np : ℕ) (tol : ℝ) (g a b : ℕ) : Bool :=
  let e := faceEnds (tri (g / 3)) (g % 3)
  hypot (gridX (tri (b / np)) n (b % np) - gridX (tri (a / np)) n (a % np)) (gridY (tri (b / np)) n (b % np) - gridY (tri (a / np)) n (a % np))
    < hypot (e.1.1 - e.2.1) (e.1.2 - e.2.2) * tol

/-- The constructor of TriangleNodesProvisioner (src/TriangleNodesProvisioner.cpp lines 40-79): `buildNodes`, `buildLift`, `buildPhysicalGrid`, `buildMaps`, the last with
`buildBCHash`.  The `uniquetol` call at the end of `buildMaps` is the subject of C14 and left out. -/
noncomputable def buildGrid (la : Lapack) (eps ztol tol : ℝ) (N : ℕ) (m : Mesh) : Out Grid := do
  let (n, o) ← triElement la eps ztol tol N
  let cs ← gather 3 m.ev m.vert m.nv m.K
  let tri := fun k => toTri (cs.getD k [])
  let maps ← buildMaps ((N + 1) * (N + 2) / 2) (N + 1) 3 m.K n.mask m.E m.F (nearTest tri n ((N + 1) * (N + 2) / 2) tol)
  let bc ← buildBCHash (N + 1) (3 * m.K) m.bcType TagMap.empty
  pure ⟨N, m.K, n, o, tri, maps, bc⟩

variable (g : Grid)

/-- `NumLocalPoints`. -/
def Grid.np : ℕ := (g.N + 1) * (g.N + 2) / 2

/-- Derivatives of the map at node `i` of element `k` (src/TriangleNodesProvisioner.cpp lines 810-813). -/
noncomputable def Grid.deriv (i k : ℕ) : Deriv where
  xr := ∑ j ∈ Finset.range g.np, g.o.d.Dr.at' i j * gridX (g.tri k) g.n j
  xs := ∑ j ∈ Finset.range g.np, g.o.d.Ds.at' i j * gridX (g.tri k) g.n j
  yr := ∑ j ∈ Finset.range g.np, g.o.d.Dr.at' i j * gridY (g.tri k) g.n j
  ys := ∑ j ∈ Finset.range g.np, g.o.d.Ds.at' i j * gridY (g.tri k) g.n j

/-- Unnormalised normal by face number (src/TriangleNodesProvisioner.cpp lines 861-874). -/
def rawNormal (f : ℕ) (d : Deriv) : ℝ × ℝ := if f = 0 then triNormal 0 d else if f = 1 then triNormal 1 d else triNormal 2 d

/-- Row `c = f*Nfp + n` of `nx`, `ny` before normalisation. -/
noncomputable def Grid.normal (c k : ℕ) : ℝ × ℝ := rawNormal (c / (g.N + 1)) (g.deriv (g.n.mask (c % (g.N + 1)) (c / (g.N + 1))) k)

/-- `get_nx()`, `get_ny()`, `get_Fscale()` (src/TriangleNodesProvisioner.cpp lines 879-892). -/
noncomputable def Grid.nx : DMat ℝ := ⟨3 * (g.N + 1), g.K, fun c k => (unit (g.normal c k)).1⟩
noncomputable def Grid.ny : DMat ℝ := ⟨3 * (g.N + 1), g.K, fun c k => (unit (g.normal c k)).2⟩
noncomputable def Grid.fscale (c k : ℕ) : ℝ := DG2D.fscale (g.normal c k) (g.deriv (g.n.mask (c % (g.N + 1)) (c / (g.N + 1))) k)

/-- An array of zeros. -/
def zeros (n : ℕ) : List ℝ := List.replicate n 0

/-- A matrix of zeros. -/
def zeroMat (m n : ℕ) : DMat ℝ := ⟨m, n, fun _ _ => 0⟩

/-- Number of face nodes. -/
def Grid.nf : ℕ := 3 * (g.N + 1) * g.K

/-- `fullToVector(u, uVec, false)`, `applyIndexMap(uVec, vmapM, uM)`, `applyIndexMap(uVec, vmapP, uP)`
(src/sw2d-simple/main.cpp lines 242-253, src/sw2d/main.cpp lines 321-337). -/
noncomputable def Grid.traces (u : DMat ℝ) : Out (List ℝ × List ℝ) := do
  let v ← reshapeMatTo1D u (zeros (g.np * g.K)) false
  let uM ← applyIndexMap v (g.maps.vmapM.map Int.ofNat) (zeros g.nf)
  let uP ← applyIndexMap v (g.maps.vmapP.map Int.ofNat) (zeros g.nf)
  pure (uM, uP)

/-- Depth and momentum fields. -/
structure Fields where
  h : DMat ℝ
  hu : DMat ℝ
  hv : DMat ℝ

/-- Traces of the three fields on one side of the faces. -/
structure Trace where
  h : List ℝ
  hu : List ℝ
  hv : List ℝ

/-- The state at face node `c`. -/
def Trace.at' (t : Trace) (c : ℕ) : State := ⟨t.h.getD c 0, t.hu.getD c 0, t.hv.getD c 0⟩

/-- One pass of the wall loop: src/sw2d-simple/main.cpp lines 256-260 (`setH = false`) and src/sw2d/main.cpp lines 340-345 (`setH = true`). -/
noncomputable def wallStep (setH : Bool) (nx ny : List ℝ) (m : Trace) (p : Trace) (w : ℕ) : Out Trace := do
  let hM ← rd m.h w
  let huM ← rd m.hu w
  let hvM ← rd m.hv w
  let x ← rd nx w
  let y ← rd ny w
  let h ← if setH then wr p.h w (wallState x y ⟨hM, huM, hvM⟩).h else .ok p.h
  let hu ← wr p.hu w (wallState x y ⟨hM, huM, hvM⟩).hu
  let hv ← wr p.hv w (wallState x y ⟨hM, huM, hvM⟩).hv
  pure ⟨h, hu, hv⟩

/-- `bcHash.at(t)`: throws when the tag is absent. -/
def tagNodes (bc : TagMap) (t : Int) : Out (List ℕ) :=
  match bc t with
  | some l => .ok l
  | none => .throws

/-- `blitz::max` over the entries of column `j`. -/
noncomputable def colMax (a : DMat ℝ) (j : ℕ) : ℝ := (List.range a.rows).foldl (fun m i => max m (a.at' i j)) (a.at' 0 j)

/-- `(1 + 0*ii)*(blitz::max(lambda(kk, jj), kk))` (src/sw2d-simple/main.cpp line 310): the column maximum in every row. -/
noncomputable def spreadMax (a : DMat ℝ) : DMat ℝ := ⟨a.rows, a.cols, fun _ j => (1 + 0) * colMax a j⟩

/-- `spdMax` of src/sw2d-simple/main.cpp lines 289-312: the larger speed of the two sides, then the maximum over each face. -/
noncomputable def Grid.faceSpeeds (grav : ℝ) (m p : Trace) : Out (List ℝ) := do
  let s := (List.range g.nf).map fun c => max (speed grav (m.at' c)) (speed grav (p.at' c))
  let lam ← reshape1DToMat s (zeroMat (g.N + 1) (3 * g.K)) false
  reshapeMatTo1D (spreadMax lam) s false

/-- `-(rx*Dr*F + sx*Ds*F)` and `-(ry*Dr*G + sy*Ds*G)` (src/sw2d-simple/main.cpp lines 332-339). -/
noncomputable def Grid.divergence (F G : ℕ → ℕ → ℝ) (i k : ℕ) : ℝ :=
  -(metric (g.deriv i k) 0 0 * ∑ j ∈ Finset.range g.np, g.o.d.Dr.at' i j * F j k + metric (g.deriv i k) 1 0 * ∑ j ∈ Finset.range g.np, g.o.d.Ds.at' i j * F j k)
    + -(metric (g.deriv i k) 0 1 * ∑ j ∈ Finset.range g.np, g.o.d.Dr.at' i j * G j k + metric (g.deriv i k) 1 1 * ∑ j ∈ Finset.range g.np, g.o.d.Ds.at' i j * G j k)

/-- `sum(Lift(ii,kk)*(Fscale*dFlux)(kk,jj), kk)` (src/sw2d-simple/main.cpp lines 342-355). -/
noncomputable def Grid.surface (dF : DMat ℝ) (i k : ℕ) : ℝ := ∑ c ∈ Finset.range (3 * (g.N + 1)), g.o.lift.at' i c * (g.fscale c k * dF.at' c k)

/-- State of the fields at node `i` of element `k`. -/
def Fields.at' (q : Fields) (i k : ℕ) : State := ⟨q.h.at' i k, q.hu.at' i k, q.hv.at' i k⟩

/-- The last part of both solvers (src/sw2d-simple/main.cpp lines 321-355, src/sw2d/main.cpp lines 423-458): flux divergence plus surface terms for given jumps. -/
noncomputable def Grid.assemble (grav : ℝ) (q : Fields) (dF : List V3) : Out Fields := do
  let d1 ← reshape1DToMat (dF.map V3.c1) (zeroMat (3 * (g.N + 1)) g.K) false
  let d2 ← reshape1DToMat (dF.map V3.c2) (zeroMat (3 * (g.N + 1)) g.K) false
  let d3 ← reshape1DToMat (dF.map V3.c3) (zeroMat (3 * (g.N + 1)) g.K) false
  pure
    { h := ⟨g.np, g.K, fun i k => g.divergence (fun j k => (fluxF grav (q.at' j k)).c1) (fun j k => (fluxG grav (q.at' j k)).c1) i k + g.surface d1 i k⟩
      hu := ⟨g.np, g.K, fun i k => g.divergence (fun j k => (fluxF grav (q.at' j k)).c2) (fun j k => (fluxG grav (q.at' j k)).c2) i k + g.surface d2 i k⟩
      hv := ⟨g.np, g.K, fun i k => g.divergence (fun j k => (fluxF grav (q.at' j k)).c3) (fun j k => (fluxG grav (q.at' j k)).c3) i k + g.surface d3 i k⟩ }

/-- src/sw2d-simple/main.cpp lines 181-356 `sw2d::computeRHS`. -/
noncomputable def Grid.rhsSimple (grav : ℝ) (q : Fields) : Out Fields := do
  let mapW ← tagNodes g.bc 3
  let nx ← reshapeMatTo1D g.nx (zeros g.nf) false
  let ny ← reshapeMatTo1D g.ny (zeros g.nf) false
  let (hM, hP) ← g.traces q.h
  let (huM, huP) ← g.traces q.hu
  let (hvM, hvP) ← g.traces q.hv
  let m : Trace := ⟨hM, huM, hvM⟩
  let p ← loopM (wallStep false nx ny m) ⟨hP, huP, hvP⟩ mapW
  let lam ← g.faceSpeeds grav m p
  let dF := (List.range g.nf).map fun c => jumpFlux grav (nx.getD c 0) (ny.getD c 0) (lam.getD c 0) (m.at' c) (p.at' c)
  g.assemble grav q dF

/-- The open-boundary elevation: src/sw2d/main.cpp lines 281-283 and 352. -/
noncomputable def tide (t : ℝ) : ℝ :=
  3 * Real.cos (2 * Real.pi / (3600 * 12.42) * t) * 0.5 * (Real.tanh (0.15 / 3600 * (t - 3600 * 12.42)) + 1)

/-- One pass of the open-boundary loop: src/sw2d/main.cpp lines 348-353. -/
noncomputable def openStep (t : ℝ) (HM : List ℝ) (m : Trace) (p : Trace) (c : ℕ) : Out Trace := do
  let huM ← rd m.hu c
  let hvM ← rd m.hv c
  let H ← rd HM c
  let hu ← wr p.hu c huM
  let hv ← wr p.hv c hvM
  let h ← wr p.h c (H + tide t)
  pure ⟨h, hu, hv⟩

/-- src/sw2d/main.cpp lines 356-368 at one face node: `hMstar`, `hPstar`, then `hM = hMstar` *before* `huM = hMstar*(huM/hM)`.
Where a star depth is zero the code divides 0 by 0; here the quotient is 0, and no claim is made about such nodes. -/
noncomputable def starPair (HM HP : ℝ) (m p : State) : State × State :=
  let bM := -HM
  let bP := -HP
  let hM := max 0 (m.h + bM - max bP bM)
  let hP := max 0 (p.h + bP - max bP bM)
  (⟨hM, hM * (m.hu / hM), hM * (m.hv / hM)⟩, ⟨hP, hP * (p.hu / hP), hP * (p.hv / hP)⟩)

/-- `dFlux1, dFlux2, dFlux3` of src/sw2d/main.cpp lines 419-421: after the star step `hM` and `hMstar` are the same array, so the correction terms are `0`. -/
noncomputable def jumpFull (grav nx ny lam : ℝ) (m p : State) : V3 :=
  let j := jumpFlux grav nx ny lam m p
  ⟨j.c1, j.c2 - 0.5 * ((0.5 * grav * m.h * m.h - 0.5 * grav * m.h * m.h) * nx), j.c3 - 0.5 * ((0.5 * grav * m.h * m.h - 0.5 * grav * m.h * m.h) * ny)⟩

/-- Parameters of src/sw2d: gravity, drag, Coriolis parameter. -/
structure Phys where
  g : ℝ
  CD : ℝ
  f : ℝ

/-- Bed: depth `H` and slopes `Hx`, `Hy`. -/
structure Bed where
  H : DMat ℝ
  Hx : DMat ℝ
  Hy : DMat ℝ

/-- `blitz::max(spdMax)` (src/sw2d/main.cpp line 414). -/
noncomputable def listMax (l : List ℝ) : ℝ := l.foldl max (l.getD 0 0)

/-- Sources of src/sw2d/main.cpp lines 460-483: bed slope, drag, Coriolis. -/
noncomputable def addSources (ph : Phys) (b : Bed) (q r : Fields) : Fields where
  h := r.h
  hu := { r.hu with at' := fun i k => r.hu.at' i k + ph.g * q.h.at' i k * b.Hx.at' i k + (sourceCpp ph.CD ph.f (q.at' i k)).1 }
  hv := { r.hv with at' := fun i k => r.hv.at' i k + ph.g * q.h.at' i k * b.Hy.at' i k + (sourceCpp ph.CD ph.f (q.at' i k)).2 }

/-- src/sw2d/main.cpp lines 279-484 `sw2d::computeRHS`. -/
noncomputable def Grid.rhsFull (ph : Phys) (b : Bed) (t : ℝ) (q : Fields) : Out Fields := do
  let mapW ← tagNodes g.bc 3
  let mapO ← tagNodes g.bc 2
  let nx ← reshapeMatTo1D g.nx (zeros g.nf) false
  let ny ← reshapeMatTo1D g.ny (zeros g.nf) false
  let (hM, hP) ← g.traces q.h
  let (huM, huP) ← g.traces q.hu
  let (hvM, hvP) ← g.traces q.hv
  let (HM, HP) ← g.traces b.H
  let m : Trace := ⟨hM, huM, hvM⟩
  let p ← loopM (wallStep true nx ny m) ⟨hP, huP, hvP⟩ mapW
  let p ← loopM (openStep t HM m) p mapO
  let st := (List.range g.nf).map fun c => starPair (HM.getD c 0) (HP.getD c 0) (m.at' c) (p.at' c)
  let lam := listMax (st.map fun x => max (speed ph.g x.1) (speed ph.g x.2))
  let dF := (List.range g.nf).map fun c =>
    jumpFull ph.g (nx.getD c 0) (ny.getD c 0) lam (st.getD c (⟨0, 0, 0⟩, ⟨0, 0, 0⟩)).1 (st.getD c (⟨0, 0, 0⟩, ⟨0, 0, 0⟩)).2
  let r ← g.assemble ph.g q dF
  pure (addSources ph b q r)

end Blitzdg.SW
