import Verif.SW.PyLoop

/-!
The quadrilateral nodes provisioner and the shallow water script sw2dquads.py on its grids.  Exact real arithmetic: `nan` does not occur, and a division by zero gives 0 here; no claim is made about states without water.
The name `np.dtype('Float64')` of lines 89 and 157-161 exists in NumPy before version 1.20 only.
-/

namespace Blitzdg.Quads

open Blitzdg.Sparse (DMat)
open Blitzdg.Nodes1D (Lapack)
open Blitzdg.DG2D
open Blitzdg.SW (Mesh Fields State V3 hypot tagNodes flatF reshapeF pick fluxF fluxG jumpFlux speed pyFaceMax npFilter pyWhile listMax)

/-- What sw2dquads.py reads from a quadrilateral provisioner. -/
structure QGrid where
  N : ℕ
  K : ℕ
  n : RefNodes
  o : RefOps
  quad : ℕ → Quad
  maps : TraceMaps
  bc : TagMap

/-- The four corners of an element, as gathered (src/QuadNodesProvisioner.cpp lines 290-322). -/
def toQuad (c : List (ℝ × ℝ)) : Quad :=
  ⟨(c.getD 0 0).1, (c.getD 0 0).2, (c.getD 1 0).1, (c.getD 1 0).2, (c.getD 2 0).1, (c.getD 2 0).2, (c.getD 3 0).1, (c.getD 3 0).2⟩

/-- `xGrid(i, k)`, `yGrid(i, k)` (src/QuadNodesProvisioner.cpp lines 358-362). -/
noncomputable def nodeX (Q : Quad) (n : RefNodes) (i : ℕ) : ℝ := quadCoord Q.xa Q.xb Q.xc Q.xd (n.r.getD i 0) (n.s.getD i 0)
noncomputable def nodeY (Q : Quad) (n : RefNodes) (i : ℕ) : ℝ := quadCoord Q.ya Q.yb Q.yc Q.yd (n.r.getD i 0) (n.s.getD i 0)

/-- The corners between which face `f` runs: `v1`, `v2` of src/QuadNodesProvisioner.cpp lines 500-505. -/
def ends (Q : Quad) (f : ℕ) : (ℝ × ℝ) × (ℝ × ℝ) :=
  if f = 0 then ((Q.xa, Q.ya), (Q.xb, Q.yb)) else if f = 1 then ((Q.xb, Q.yb), (Q.xc, Q.yc))
  else if f = 2 then ((Q.xc, Q.yc), (Q.xd, Q.yd)) else ((Q.xd, Q.yd), (Q.xa, Q.ya))

/-- The nearness test of src/QuadNodesProvisioner.cpp lines 500-520 on face `g = 4*k + f`: volume nodes `a` and `b` are less than `tol` times the length of the face apart. -/
noncomputable def nearQ (quad : ℕ → Quad) (n : RefNodes) (np : ℕ) (tol : ℝ) (g a b : ℕ) : Bool :=
  let e := ends (quad (g / 4)) (g % 4)
  hypot (nodeX (quad (b / np)) n (b % np) - nodeX (quad (a / np)) n (a % np)) (nodeY (quad (b / np)) n (b % np) - nodeY (quad (a / np)) n (a % np))
    < hypot (e.1.1 - e.2.1) (e.1.2 - e.2.2) * tol

/-- The constructor of QuadNodesProvisioner (src/QuadNodesProvisioner.cpp lines 38-75): `buildNodes`, `buildLift`, `buildPhysicalGrid`, `buildMaps`, the last with `buildBCHash`.  The `uniquetol` call at the end of
`buildMaps` is the subject of C14 and left out. -/
noncomputable def buildQGrid (la : Lapack) (eps tol : ℝ) (N : ℕ) (m : Mesh) : Out QGrid := do
  let (n, o) ← quadElement la eps tol N
  let cs ← gather 4 m.ev m.vert m.nv m.K
  let quad := fun k => toQuad (cs.getD k [])
  let maps ← buildMaps ((N + 1) * (N + 1)) (N + 1) 4 m.K n.mask m.E m.F (nearQ quad n ((N + 1) * (N + 1)) tol)
  let bc ← buildBCHash (N + 1) (4 * m.K) m.bcType TagMap.empty
  pure ⟨N, m.K, n, o, quad, maps, bc⟩

variable (g : QGrid)

/-- `NumLocalPoints`. -/
def QGrid.np : ℕ := (g.N + 1) * (g.N + 1)

/-- Number of face nodes. -/
def QGrid.nf : ℕ := 4 * (g.N + 1) * g.K

/-- Derivatives of the map at node `i` of element `k` (src/QuadNodesProvisioner.cpp lines 364-367). -/
noncomputable def QGrid.deriv (i k : ℕ) : Deriv where
  xr := ∑ j ∈ Finset.range g.np, g.o.d.Dr.at' i j * nodeX (g.quad k) g.n j
  xs := ∑ j ∈ Finset.range g.np, g.o.d.Ds.at' i j * nodeX (g.quad k) g.n j
  yr := ∑ j ∈ Finset.range g.np, g.o.d.Dr.at' i j * nodeY (g.quad k) g.n j
  ys := ∑ j ∈ Finset.range g.np, g.o.d.Ds.at' i j * nodeY (g.quad k) g.n j

/-- Unnormalised normal by face number (src/QuadNodesProvisioner.cpp lines 414-432). -/
def rawNormal (f : ℕ) (d : Deriv) : ℝ × ℝ := if f = 0 then quadNormal 0 d else if f = 1 then quadNormal 1 d else if f = 2 then quadNormal 2 d else quadNormal 3 d

/-- Row `c = f*Nfp + n` of `nx`, `ny` before normalisation. -/
noncomputable def QGrid.normal (c k : ℕ) : ℝ × ℝ := rawNormal (c / (g.N + 1)) (g.deriv (g.n.mask (c % (g.N + 1)) (c / (g.N + 1))) k)

/-- `get_nx()`, `get_ny()`, `get_Fscale()` (src/QuadNodesProvisioner.cpp lines 434-447). -/
noncomputable def QGrid.nx : DMat ℝ := ⟨4 * (g.N + 1), g.K, fun c k => (unit (g.normal c k)).1⟩
noncomputable def QGrid.ny : DMat ℝ := ⟨4 * (g.N + 1), g.K, fun c k => (unit (g.normal c k)).2⟩
noncomputable def QGrid.fscale (c k : ℕ) : ℝ := DG2D.fscale (g.normal c k) (g.deriv (g.n.mask (c % (g.N + 1)) (c / (g.N + 1))) k)

/-- `get_Filter()` after `buildFilter(Nc, s)` (src/QuadNodesProvisioner.cpp lines 170-202). -/
noncomputable def QGrid.filter (Nc : ℝ) (s : Int) : Out (Fin g.np → Fin g.np → Option ℝ) :=
  buildFilter g.N Nc s (Dense.toMat g.o.V g.np g.np) (Dense.toMat g.o.Vinv g.np g.np)

/-! ### sw2dquads.py -/

/-- `hM`, `huM`, `hvM` or the same with `P` (sw2dquads.py lines 42-44, 51-58). -/
noncomputable def sideQ (q : Fields) (vmap : List ℕ) : Out (List State) := do
  let h ← pick (flatF q.h) vmap
  let hu ← pick (flatF q.hu) vmap
  let hv ← pick (flatF q.hv) vmap
  pure ((List.range vmap.length).map fun c => ⟨h.getD c 0, hu.getD c 0, hv.getD c 0⟩)

/-- A point without water. -/
def dry : State := ⟨0, 0, 0⟩

/-- The assignments to `huP[mapW]`, `hvP[mapW]` (sw2dquads.py lines 60-65) for one entry of `mapW`.  Their right-hand sides read arrays of the inner side only, so taking the entries one after the other makes no difference. -/
noncomputable def wallQ (nx ny : List ℝ) (m : List State) (p : List State) (w : ℕ) : Out (List State) :=
  match m[w]?, p[w]?, nx[w]?, ny[w]? with
  | some a, some b, some x, some y =>
    .ok (p.set w { b with hu := a.hu - 2 * x * (a.hu * x + a.hv * y), hv := a.hv - 2 * y * (a.hu * x + a.hv * y) })
  | _, _, _, _ => .throws

/-- `spdMax` of sw2dquads.py line 85, at face node `c` (lines 76-85). -/
noncomputable def nodeSpeedQ (grav : ℝ) (m p : List State) (c : ℕ) : ℝ := max (speed grav (m.getD c dry)) (speed grav (p.getD c dry))

/-- `-(rx*np.dot(Dr, F) + sx*np.dot(Ds, F))` and `-(ry*np.dot(Dr, G) + sy*np.dot(Ds, G))` (sw2dquads.py lines 103-110). -/
noncomputable def QGrid.divergence (F G : ℕ → ℕ → ℝ) (i k : ℕ) : ℝ :=
  -(metric (g.deriv i k) 0 0 * ∑ j ∈ Finset.range g.np, g.o.d.Dr.at' i j * F j k + metric (g.deriv i k) 1 0 * ∑ j ∈ Finset.range g.np, g.o.d.Ds.at' i j * F j k)
    + -(metric (g.deriv i k) 0 1 * ∑ j ∈ Finset.range g.np, g.o.d.Dr.at' i j * G j k + metric (g.deriv i k) 1 1 * ∑ j ∈ Finset.range g.np, g.o.d.Ds.at' i j * G j k)

/-- `np.dot(Lift, Fscale*dFluxMat)` (sw2dquads.py lines 115-121). -/
noncomputable def QGrid.surface (dF : DMat ℝ) (i k : ℕ) : ℝ := ∑ c ∈ Finset.range (4 * (g.N + 1)), g.o.lift.at' i c * (g.fscale c k * dF.at' c k)

/-- sw2dquads.py lines 10-23 and 25-123 `sw2dComputeRHS`.  A missing tag raises KeyError; index arrays of any other length than the number of face nodes fail at the latest in `np.reshape`.  Argument `H` is not used. -/
noncomputable def QGrid.rhs (grav : ℝ) (q : Fields) : Out Fields := do
  let nx := flatF g.nx
  let ny := flatF g.ny
  let mapW ← tagNodes g.bc 3
  let m ← sideQ q g.maps.vmapM
  let p ← sideQ q g.maps.vmapP
  if m.length ≠ g.nf ∨ p.length ≠ g.nf then .throws
  else do
    let p ← loopM (wallQ nx ny m) p mapW
    let lam := pyFaceMax (g.N + 1) (nodeSpeedQ grav m p)
    let dF := (List.range g.nf).map fun c => jumpFlux grav (nx.getD c 0) (ny.getD c 0) (lam c) (m.getD c dry) (p.getD c dry)
    let d1 := reshapeF (4 * (g.N + 1)) g.K (dF.map V3.c1)
    let d2 := reshapeF (4 * (g.N + 1)) g.K (dF.map V3.c2)
    let d3 := reshapeF (4 * (g.N + 1)) g.K (dF.map V3.c3)
    pure
      { h := ⟨g.np, g.K, fun i k => g.divergence (fun j k => (fluxF grav (q.at' j k)).c1) (fun j k => (fluxG grav (q.at' j k)).c1) i k + g.surface d1 i k⟩
        hu := ⟨g.np, g.K, fun i k => g.divergence (fun j k => (fluxF grav (q.at' j k)).c2) (fun j k => (fluxG grav (q.at' j k)).c2) i k + g.surface d2 i k⟩
        hv := ⟨g.np, g.K, fun i k => g.divergence (fun j k => (fluxF grav (q.at' j k)).c3) (fun j k => (fluxG grav (q.at' j k)).c3) i k + g.surface d3 i k⟩ }

/-- The three rates filtered (sw2dquads.py lines 183-185, 193-195). -/
noncomputable def filter3 {n : ℕ} (F : Matrix (Fin n) (Fin n) ℝ) (r : Fields) : Fields := ⟨npFilter F r.h, npFilter F r.hu, npFilter F r.hv⟩

/-- `h + c*RHS1` and the same for the momenta (sw2dquads.py lines 188-190, 198-200). -/
def plus (c : ℝ) (r q : Fields) : Fields where
  h := { q.h with at' := fun i k => q.h.at' i k + c * r.h.at' i k }
  hu := { q.hu with at' := fun i k => q.hu.at' i k + c * r.hu.at' i k }
  hv := { q.hv with at' := fun i k => q.hv.at' i k + c * r.hv.at' i k }

/-- The two stages of one step (sw2dquads.py lines 182-200). -/
noncomputable def QGrid.advance (grav dt : ℝ) {n : ℕ} (F : Matrix (Fin n) (Fin n) ℝ) (q : Fields) : Out Fields := do
  let r ← g.rhs grav q
  let q1 := plus (0.5 * dt) (filter3 F r) q
  let r1 ← g.rhs grav q1
  pure (plus dt (filter3 F r1) q)

/-- `np.max(np.abs(h))` (sw2dquads.py line 202). -/
noncomputable def QGrid.hMax (h : DMat ℝ) : ℝ := listMax ((List.range (g.np * g.K)).map fun c => |h.at' (c / g.K) (c % g.K)|)

/-- Variables of the loop: the fields, `t`, `step`, and the states written so far with their numbers. -/
structure QRun where
  q : Fields
  t : ℝ
  step : ℕ
  out : List (ℕ × Fields)

/-- One pass of the loop (sw2dquads.py lines 180-216).  What is written are `h - H`, `hu/h` and `hv/h`; here the fields themselves. -/
noncomputable def QGrid.pass (grav dt : ℝ) {n : ℕ} (F : Matrix (Fin n) (Fin n) ℝ) (r : QRun) : Out QRun := do
  let q ← g.advance grav dt F r.q
  if g.hMax q.h > 1e8 then .throws
  else if (r.step + 1) % 20 = 0 then pure ⟨q, r.t + dt, r.step + 1, r.out ++ [(r.step + 1, q)]⟩
  else pure ⟨q, r.t + dt, r.step + 1, r.out⟩

/-- sw2dquads.py lines 172-216 from the initial fields on, at most `n` passes: the initial state is written with number 0. -/
noncomputable def QGrid.run (grav dt T : ℝ) {k : ℕ} (F : Matrix (Fin k) (Fin k) ℝ) (n : ℕ) (q : Fields) : Out QRun :=
  pyWhile QRun.t (g.pass grav dt F) T n ⟨q, 0, 0, [(0, q)]⟩

end Blitzdg.Quads
