import Verif.Sparse.Csc
import Verif.Blitz.Model
import Mathlib.Algebra.BigOperators.Group.Finset.Basic

/-!
Model of src/Nodes1DProvisioner.cpp: grid, connectivity, surface maps, normals and metric terms, in exact arithmetic over an ordered
field `R`.  Tables `(K, 2)` and `(2, K)` are flat lists in row-major order, as blitz stores them.  Overflow of `NumFaces * NumElements` and
`Np * K` is not modelled; overflow of the product in the `CSCMat` constructor is (`wrap`, see `Sparse.prodIsZero`).
-/

namespace Blitzdg.Nodes1D

open Blitzdg.Sparse

/-- src/Nodes1DProvisioner.cpp lines 69-75: the grid; `r` are the reference nodes, `K` the number of elements. -/
def grid {R : Type} [Field R] (xmin xmax : R) (K : Nat) (r : List R) : DMat R :=
  { rows := r.length, cols := K, at' := fun i k => xmin + (xmax - xmin) / K * (k + 1 / 2 * (r.getD i 0 + 1)) }

/-- src/Nodes1DProvisioner.cpp lines 80-83: element-to-vertex table. -/
def buildE2V (K : Nat) (e2v : List Nat) : Out (List Nat) :=
  loopM (fun e k => do
    let e ← wr e (2 * k) k
    wr e (2 * k + 1) (k + 1)) e2v (List.range K)

/-- src/Nodes1DProvisioner.cpp lines 181-190: one round of the double loop; the state is (FToVtrans, globalFaceNum). -/
def ftovStep (e2v : List Nat) (s : Csc Nat × Nat) (kf : Nat × Nat) : Out (Csc Nat × Nat) := do
  let v ← rd [0, 1] kf.2
  let vg ← rd e2v (kf.1 * 2 + v)
  let p ← wr s.1.p s.2 (some s.2)
  let ix ← wr s.1.ix s.2 (some (vg, 1))
  pure ({ s.1 with p := p, ix := ix }, s.2 + 1)

/-- src/Nodes1DProvisioner.cpp lines 172-191: the vertex-face incidence matrix (one column per global face). -/
def buildFToV (wrap : Bool) (K : Nat) (e2v : List Nat) : Out (Csc Nat) := do
  let c ← cscAlloc wrap (K + 1) (2 * K) (2 * K)
  let (c, g) ← loopM (ftovStep e2v) (c, 0) (rowMajor K 2)
  let p ← wr c.p (2 * K) (some g)
  pure { c with p := p }

/-- src/Nodes1DProvisioner.cpp lines 201-208: one stored entry of column `j`; the state is (f1, f2, connectionsCount). -/
def connStep (j : Nat) (s : List Nat × List Nat × Nat) (e : Nat × Nat) : Out (List Nat × List Nat × Nat) :=
  if e.1 ≠ j ∧ e.2 = 1 then do
    let f1 ← wr s.1 s.2.2 e.1
    let f2 ← wr s.2.1 s.2.2 j
    pure (f1, f2, s.2.2 + 1)
  else pure s

/-- src/Nodes1DProvisioner.cpp lines 201-208: column `j`. -/
def connCol (ftof : Csc Nat) (s : List Nat × List Nat × Nat) (j : Nat) : Out (List Nat × List Nat × Nat) :=
  match readCol ftof j with
  | none => .ub
  | some col => loopM (connStep j) s col

/-- src/Nodes1DProvisioner.cpp lines 194-209: `f1`, `f2` have `2K - 2` cells, initially 0. -/
def connections (K : Nat) (ftof : Csc Nat) : Out (List Nat × List Nat × Nat) :=
  loopM (connCol ftof) (List.replicate (2 * K - 2) 0, List.replicate (2 * K - 2) 0, 0) (List.range (2 * K))

/-- src/Nodes1DProvisioner.cpp lines 223-228: self-connection defaults. -/
def defaults (s : List Nat × List Nat) (kf : Nat × Nat) : Out (List Nat × List Nat) := do
  let a ← wr s.1 (kf.1 * 2 + kf.2) kf.1
  let b ← wr s.2 (kf.1 * 2 + kf.2) kf.2
  pure (a, b)

/-- src/Nodes1DProvisioner.cpp lines 215-218 and 230-237: connection number `i`. -/
def connect (f1 f2 : List Nat) (s : List Nat × List Nat) (i : Nat) : Out (List Nat × List Nat) := do
  let g ← rd f1 i
  let h ← rd f2 i
  let a ← wr s.1 (g / 2 * 2 + g % 2) (h / 2)
  let b ← wr s.2 (g / 2 * 2 + g % 2) (h % 2)
  pure (a, b)

/-- src/Nodes1DProvisioner.cpp lines 171-238 `buildConnectivityMatrices`: the new EToE and EToF. -/
def buildConnectivity (wrap : Bool) (K : Nat) (e2v e2e e2f : List Nat) : Out (List Nat × List Nat) := do
  let ftov ← buildFToV wrap K e2v
  let t ← transpose ftov
  let ftof ← multiply t ftov
  let (f1, f2, _) ← connections K ftof
  let s ← loopM defaults (e2e, e2f) (rowMajor K 2)
  loopM (connect f1 f2) s (List.range (2 * K - 2))

/-- src/Nodes1DProvisioner.cpp line 162: the face mask of an element with `np` nodes. -/
def fmask (np : Nat) : List Nat := [0, np - 1]

/-- src/Nodes1DProvisioner.cpp lines 164-168: the grid values at the face nodes, as a (2, K) table. -/
def buildFx {R : Type} (np K : Nat) (x : DMat R) (fx : List R) : Out (List R) :=
  loopM (fun t kf => do
    let m ← rd (fmask np) kf.2
    wr t (kf.2 * K + kf.1) (x.at' m kf.1)) fx (rowMajor K 2)

/-- src/Nodes1DProvisioner.cpp lines 129-135: `vmapM`; the state is (vmapM, count); `nodeIds(i, k) = i + np * k` (line 124). -/
def vmapMStep (np : Nat) (s : List Nat × Nat) (kf : Nat × Nat) : Out (List Nat × Nat) := do
  let m ← rd (fmask np) kf.2
  let v ← wr s.1 s.2 (m + np * kf.1)
  pure (v, s.2 + 1)

/-- src/Nodes1DProvisioner.cpp lines 137-154: `vmapP`; the state is (vmapP, count).  `sqrt(dx*dx)` is `|dx|` in exact arithmetic. -/
def vmapPStep {R : Type} [Field R] [LinearOrder R] (tol : R) (x : List R) (e2e e2f vm : List Nat) (s : List Nat × Nat) (kf : Nat × Nat) :
    Out (List Nat × Nat) := do
  let k2 ← rd e2e (kf.1 * 2 + kf.2)
  let f2 ← rd e2f (kf.1 * 2 + kf.2)
  let vidM ← rd vm (kf.1 * 2 + kf.2)
  let vidP ← rd vm (k2 * 2 + f2)
  let a ← rd x vidM
  let b ← rd x vidP
  if |a - b| < tol then do
    let v ← wr s.1 s.2 vidP
    pure (v, s.2 + 1)
  else pure (s.1, s.2 + 1)

/-- src/Nodes1DProvisioner.cpp lines 104-155 `buildMaps`: (vmapM, vmapP). -/
def buildMaps {R : Type} [Field R] [LinearOrder R] (tol : R) (np K : Nat) (xg : DMat R) (e2e e2f : List Nat) :
    Out (List Nat × List Nat) := do
  let x ← Blitz.reshapeMatTo1D xg (List.replicate (K * np) 0) false
  let (vm, _) ← loopM (vmapMStep np) (List.replicate (2 * K) 0, 0) (rowMajor K 2)
  let (vp, _) ← loopM (vmapPStep tol x e2e e2f vm) (List.replicate (2 * K) 0, 0) (rowMajor K 2)
  pure (vm, vp)

/-- src/Nodes1DProvisioner.cpp lines 91-102 `buildNormals`: the (2, K) table; the state is (nx, mult). -/
def buildNormals {R : Type} [Field R] (K : Nat) (nx : List R) : Out (List R) := do
  let (t, _) ← loopM (fun (s : List R × R) kf => do
    let t ← wr s.1 (kf.2 * K + kf.1) s.2
    pure (t, s.2 * -1)) (nx, -1) (rowMajor K 2)
  pure t

/-- The tables of the provisioner. -/
structure Tables (R : Type) where
  x : DMat R
  e2v : List Nat
  e2e : List Nat
  e2f : List Nat
  fx : List R
  vmapM : List Nat
  vmapP : List Nat
  nx : List R

/-- src/Nodes1DProvisioner.cpp lines 57-89 `buildNodes` with the reference nodes `r` (the result of `computeGaussLobottoPoints`, line 63);
the Vandermonde matrix, `Dr` and `Lift` (lines 65-67) are modelled elsewhere.  The old tables `o` only matter for their sizes. -/
def buildNodes {R : Type} [Field R] [LinearOrder R] (wrap : Bool) (tol xmin xmax : R) (K : Nat) (r : List R) (o : Tables R) :
    Out (Tables R) := do
  let x := grid xmin xmax K r
  let e2v ← buildE2V K o.e2v
  let (e2e, e2f) ← buildConnectivity wrap K e2v o.e2e o.e2f
  let fx ← buildFx r.length K x o.fx
  let (vm, vp) ← buildMaps tol r.length K x e2e e2f
  let nx ← buildNormals K o.nx
  pure { x := x, e2v := e2v, e2e := e2e, e2f := e2f, fx := fx, vmapM := vm, vmapP := vp, nx := nx }

/-- Constructor, lines 33-36: `mapI`, `mapO`, `vmapI`, `vmapO` for order `n` and `K` elements. -/
def mapIO (n K : Nat) : Int × Int × Int × Int := (0, 1 * 2 * K - 1, 0, (n + 1) * K - 1)

/-- src/Nodes1DProvisioner.cpp line 275: `J = Dr x`. -/
def jac {R : Type} [Field R] (dr x : DMat R) (i k : Nat) : R := ∑ q ∈ Finset.range x.rows, dr.at' i q * x.at' q k

/-- src/Nodes1DProvisioner.cpp line 276: `rx = 1 / J`. -/
def rx {R : Type} [Field R] (dr x : DMat R) (i k : Nat) : R := 1 / jac dr x i k

/-- src/Nodes1DProvisioner.cpp lines 278-280: `Fscale(f, :) = 1 / J(Fmask(f), :)`. -/
def fscale {R : Type} [Field R] (dr x : DMat R) (f k : Nat) : R := 1 / jac dr x ((fmask x.rows).getD f 0) k

end Blitzdg.Nodes1D
