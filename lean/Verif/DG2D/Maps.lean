import Verif.Basic
import Verif.Blitz.Model

/-!
Face-node maps of the two-dimensional provisioners: the boundary hash, the Gauss face maps and the trace maps
`vmapM`, `vmapP`, `mapP`, `mapB`, `vmapB`.
-/

namespace Blitzdg.DG2D

open Sparse Blitz

/-- `index_hashmap` (`unordered_map<index_type, vector<index_type>>`, include/Types.hpp): tag to list of face-node numbers, `none` when
the tag has no entry.  Iteration order is not modelled. -/
abbrev TagMap := Int → Option (List Nat)

/-- An empty map. -/
def TagMap.empty : TagMap := fun _ => none

/-- Append `n` to the list under `t`, creating the entry when absent: the `find`/`insert`/`push_back` of
src/TriangleNodesProvisioner.cpp lines 1049-1053 and `gbcMap[t].push_back(n)` of line 351. -/
def push (m : TagMap) (t : Int) (n : Nat) : TagMap := fun u => if u = t then some ((m t).getD [] ++ [n]) else m u

/-- `boundaryNodesMat(i,j) = ones(i)*bcType(j)`, flattened by columns (src/TriangleNodesProvisioner.cpp lines 1035-1042,
src/QuadNodesProvisioner.cpp lines 590-597).  Reading `bcType` outside its length is undefined behaviour. -/
def boundaryNodes (nfp nfaces : Nat) (bcType : List Int) : Out (List Int) :=
  if bcType.length < nfaces ∧ 0 < nfp then .ub
  else reshapeMatTo1D { rows := nfp, cols := nfaces, at' := fun _ j => 1 * bcType.getD j 0 } (List.replicate (nfp * nfaces) 0) false

/-- Loop body of `buildBCHash` (src/TriangleNodesProvisioner.cpp lines 1045-1056, src/QuadNodesProvisioner.cpp lines 600-611). -/
def hashStep (s : TagMap × Nat) (bct : Int) : TagMap × Nat :=
  (if bct ≠ 0 then push s.1 bct s.2 else s.1, s.2 + 1)

/-- `buildBCHash(bcType)` on a provisioner whose map currently is `m` (src/TriangleNodesProvisioner.cpp lines 1028-1057,
src/QuadNodesProvisioner.cpp lines 583-612); `nfaces` is NumFaces*NumElements, `nfp` is NumFacePoints. -/
def buildBCHash (nfp nfaces : Nat) (bcType : List Int) (m : TagMap) : Out TagMap := do
  let nodes ← boundaryNodes nfp nfaces bcType
  pure (nodes.foldl hashStep (m, 0)).1

/-! ### Gauss face maps -/

/-- The arrays filled by the loop: `mapP`, the boundary tag map and `mapB`. -/
structure GaussMaps where
  mapP : List Nat
  bc : TagMap
  mapB : List Nat

/-- `gbcMap` before the loop: an empty list for each of the eight tags of include/BCtypes.hpp lines 9-18
(src/TriangleNodesProvisioner.cpp lines 244-253). -/
def gaussBC0 : TagMap := fun t => if 1 ≤ t ∧ t ≤ 8 then some [] else none

/-- `mapM`: the numbering `i + Nfp*j` flattened by columns (src/TriangleNodesProvisioner.cpp lines 268-274). -/
def gaussMapM (nfp k : Nat) : Out (List Nat) :=
  reshapeMatTo1D { rows := nfp, cols := k, at' := fun i j => i + nfp * j } (List.replicate (nfp * k) 0) false

/-- One point of an interior face (src/TriangleNodesProvisioner.cpp lines 342-344, with `ids1` of line 285 and `ids2` of
lines 337-340). -/
def gaussInterior (ng nf : Nat) (mapM : List Nat) (f k f2 k2 : Nat) (s : GaussMaps) (ig : Nat) : Out GaussMaps := do
  let v ← rd mapM (ng * (f2 + 1) - ig - 1 + k2 * (ng * nf))
  let mp ← wr s.mapP (f * ng + ig + k * (ng * nf)) v
  pure { s with mapP := mp }

/-- One point of a boundary face (src/TriangleNodesProvisioner.cpp lines 346-352). -/
def gaussBoundary (ng nf : Nat) (bcType : List Int) (mapM : List Nat) (f k : Nat) (s : GaussMaps) (ig : Nat) : Out GaussMaps := do
  let b ← rd mapM (f * ng + ig + k * (ng * nf))
  let mp ← wr s.mapP (f * ng + ig + k * (ng * nf)) b
  let t ← rd bcType (nf * k + f)
  pure { mapP := mp, bc := push s.bc t b, mapB := s.mapB ++ [b] }

/-- Face `f` of element `k` (src/TriangleNodesProvisioner.cpp lines 334-354). -/
def gaussFace (ng nf : Nat) (E F : List Nat) (bcType : List Int) (mapM : List Nat) (s : GaussMaps) (p : Nat × Nat) : Out GaussMaps := do
  let k2 ← rd E (nf * p.2 + p.1)
  let f2 ← rd F (nf * p.2 + p.1)
  if p.2 ≠ k2 then loopM (gaussInterior ng nf mapM p.1 p.2 f2 k2) s (List.range ng)
  else loopM (gaussBoundary ng nf bcType mapM p.1 p.2) s (List.range ng)

/-- The index maps of `buildGaussFaceNodes(NGauss)` (src/TriangleNodesProvisioner.cpp lines 244-274 and the loops of lines 276-356;
faces outside, elements inside).  The geometry of the same function is modelled in `Geom.lean`. -/
def gaussMaps (ng nf k : Nat) (E F : List Nat) (bcType : List Int) : Out (List Nat × GaussMaps) := do
  let mapM ← gaussMapM (ng * nf) k
  let r ← loopM (gaussFace ng nf E F bcType mapM) { mapP := List.replicate (ng * nf * k) 0, bc := gaussBC0, mapB := [] } (rowMajor nf k)
  pure (mapM, r)

/-! ### Trace maps -/

/-- `vmapM3(n,f,k) = nodeIds(Fmask(n,f), k)` with `nodeIds = i + Np*k` (src/TriangleNodesProvisioner.cpp lines 922, 930-936;
src/QuadNodesProvisioner.cpp lines 477, 485-491). -/
def vmapM3 (np : Nat) (fmask : Nat → Nat → Nat) (n f k : Nat) : Nat := fmask n f + np * k

/-- Search of the node of face `f2` of element `k2` next to volume node `vidM` (src/TriangleNodesProvisioner.cpp lines 957-968,
src/QuadNodesProvisioner.cpp lines 512-523), starting from the zeros of line 928.  `near a b` stands for
`distanceLessThanEps(x(a), y(a), x(b), y(b), refd*NodeTol)` on the face at hand; coordinates themselves are not modelled here. -/
def searchNode (np nfp nf : Nat) (fmask : Nat → Nat → Nat) (near : Nat → Nat → Bool) (f2 k2 vidM : Nat) : Nat × Nat :=
  (List.range nfp).foldl
    (fun s nP => if near vidM (vmapM3 np fmask nP f2 k2) then (vmapM3 np fmask nP f2 k2, nP + f2 * nfp + k2 * nf * nfp) else s) (0, 0)

/-- The maps produced by `buildMaps`. -/
structure TraceMaps where
  vmapM : List Nat
  vmapP : List Nat
  mapP : List Nat
  mapB : List Nat
  vmapB : List Nat

/-- Iteration order of the flattening loop (src/TriangleNodesProvisioner.cpp lines 975-984, src/QuadNodesProvisioner.cpp lines 530-539):
elements, then faces, then nodes.  An entry is `(n, f, k)`. -/
def faceNodes (nfp nf k : Nat) : List (Nat × Nat × Nat) :=
  (List.range k).flatMap fun e => (List.range nf).flatMap fun f => (List.range nfp).map fun n => (n, f, e)

/-- Entry `(n, f, k)` of `vmapP3` and `mapP3` (src/TriangleNodesProvisioner.cpp lines 939-971, src/QuadNodesProvisioner.cpp lines 494-526).
Each entry is computed once, independently of the others, so the order of the loops is not modelled.  A neighbour outside the
arrays is undefined behaviour.  `near g` is the nearness test with the reference length of face `g = nf*k + f`. -/
def pairNode (np nfp nf k : Nat) (fmask : Nat → Nat → Nat) (E F : List Nat) (near : Nat → Nat → Nat → Bool) (x : Nat × Nat × Nat) :
    Out (Nat × Nat) := do
  let k2 ← rd E (nf * x.2.2 + x.2.1)
  let f2 ← rd F (nf * x.2.2 + x.2.1)
  if k2 < k ∧ f2 < nf then
    pure (searchNode np nfp nf fmask (near (nf * x.2.2 + x.2.1)) f2 k2 (vmapM3 np fmask x.1 x.2.1 x.2.2))
  else .ub

/-- Positions where the two trace maps agree, in increasing order (src/TriangleNodesProvisioner.cpp lines 988-995,
src/QuadNodesProvisioner.cpp lines 543-550). -/
def boundaryOf (vmM vmP : List Nat) : List Nat := (List.range vmM.length).filter fun i => vmP.getD i 0 = vmM.getD i 0

/-- `buildMaps` up to the boundary lists (src/TriangleNodesProvisioner.cpp lines 895-1005, src/QuadNodesProvisioner.cpp lines 450-560). -/
def buildMaps (np nfp nf k : Nat) (fmask : Nat → Nat → Nat) (E F : List Nat) (near : Nat → Nat → Nat → Bool) : Out TraceMaps := do
  let pairs ← loopM (fun acc x => do let r ← pairNode np nfp nf k fmask E F near x; pure (acc ++ [r])) [] (faceNodes nfp nf k)
  let vmM := (faceNodes nfp nf k).map fun x => vmapM3 np fmask x.1 x.2.1 x.2.2
  let vmP := pairs.map Prod.fst
  let mB := boundaryOf vmM vmP
  pure { vmapM := vmM, vmapP := vmP, mapP := pairs.map Prod.snd, mapB := mB, vmapB := mB.map fun i => vmM.getD i 0 }

end Blitzdg.DG2D
