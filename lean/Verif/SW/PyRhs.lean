import Verif.SW.Disc

/-!
The right-hand side of the Python shallow water solver with a tracer: swhelpers/rhs.py `sw2dComputeRHS` and swhelpers/flux.py.  Exact real arithmetic.  A division by zero gives `nan` or
`inf` in the code and 0 here; no claim is made about such states.  The name `np.float` of line 262 exists in NumPy before version 1.24 only.
-/

namespace Blitzdg.SW

open Blitzdg.Sparse (DMat)
open Blitzdg.DG2D

/-- Depth, momenta and amount of tracer at one point. -/
structure Q4 where
  h : ℝ
  hu : ℝ
  hv : ℝ
  hN : ℝ

/-- A vector of four components, one for each equation. -/
structure V4 where
  c1 : ℝ
  c2 : ℝ
  c3 : ℝ
  c4 : ℝ

/-- `F1, F2, F3, F4` of swhelpers/flux.py lines 1-24 `sw2dComputeFluxes`, at one point. -/
noncomputable def pyF (grav : ℝ) (q : Q4) : V4 :=
  let u := q.hu / q.h
  ⟨q.hu, q.hu * u + 0.5 * grav * q.h * q.h, q.hv * u, q.hN * u⟩

/-- `G1, G2, G3, G4` of the same lines. -/
noncomputable def pyG (grav : ℝ) (q : Q4) : V4 :=
  let v := q.hv / q.h
  ⟨q.hv, q.hu * v, q.hv * v + 0.5 * grav * q.h * q.h, q.hN * v⟩

/-- `spdM`, `spdP` (swhelpers/rhs.py lines 249-256) at one point. -/
noncomputable def pySpeed (grav : ℝ) (q : Q4) : ℝ :=
  let u := q.hu / q.h
  let v := q.hv / q.h
  √(u * u + v * v) + √(grav * q.h)

/-- `dFlux1` to `dFlux4` (swhelpers/rhs.py lines 266-269 with 240-243) at one face node. -/
noncomputable def pyJump (grav nx ny lam : ℝ) (m p : Q4) : V4 where
  c1 := 0.5 * (((pyF grav m).c1 - (pyF grav p).c1) * nx + ((pyG grav m).c1 - (pyG grav p).c1) * ny - lam * (m.h - p.h))
  c2 := 0.5 * (((pyF grav m).c2 - (pyF grav p).c2) * nx + ((pyG grav m).c2 - (pyG grav p).c2) * ny - lam * (m.hu - p.hu))
  c3 := 0.5 * (((pyF grav m).c3 - (pyF grav p).c3) * nx + ((pyG grav m).c3 - (pyG grav p).c3) * ny - lam * (m.hv - p.hv))
  c4 := 0.5 * (((pyF grav m).c4 - (pyF grav p).c4) * nx + ((pyG grav m).c4 - (pyG grav p).c4) * ny - lam * (m.hN - p.hN))

/-- `a.flatten('F')`. -/
def flatF (a : DMat ℝ) : List ℝ := (List.range (a.rows * a.cols)).map fun c => a.at' (c % a.rows) (c / a.rows)

/-- `np.reshape(l, (m, n), order='F')` of a list of the right length, one component. -/
def reshapeF (m n : ℕ) (l : List ℝ) : DMat ℝ := ⟨m, n, fun i k => l.getD (i + m * k) 0⟩

/-- `a[idx]` with an array of non-negative indices: an index out of range raises `IndexError`. -/
def pick (a : List ℝ) : List ℕ → Out (List ℝ)
  | [] => .ok []
  | i :: l =>
    match a[i]? with
    | none => .throws
    | some v => do
      let r ← pick a l
      pure (v :: r)

/-- `hM`, `huM`, `hvM`, `hNM` or the same with `P` (swhelpers/rhs.py lines 204-219, 229-233): values at the face nodes, momenta formed again from depth and velocity. -/
noncomputable def sideOf (q : Fields) (hN : DMat ℝ) (vmap : List ℕ) : Out (List Q4) := do
  let h ← pick (flatF q.h) vmap
  let hu ← pick (flatF q.hu) vmap
  let hv ← pick (flatF q.hv) vmap
  let n ← pick (flatF hN) vmap
  pure ((List.range vmap.length).map fun c =>
    let u := hu.getD c 0 / h.getD c 0
    let v := hv.getD c 0 / h.getD c 0
    ⟨h.getD c 0, h.getD c 0 * u, h.getD c 0 * v, n.getD c 0⟩)

/-- The two assignments to `huP[mapW]`, `hvP[mapW]` (swhelpers/rhs.py lines 221-222 and 236-237) for one entry of `mapW`.  Their right-hand sides read arrays of the inner side only, so taking the
entries one after the other makes no difference. -/
noncomputable def pyWall (nx ny : List ℝ) (m : List Q4) (p : List Q4) (w : ℕ) : Out (List Q4) :=
  match m[w]?, p[w]?, nx[w]?, ny[w]? with
  | some a, some b, some x, some y =>
    .ok (p.set w { b with hu := a.hu - 2 * x * (a.hu * x + a.hv * y), hv := a.hv - 2 * y * (a.hu * x + a.hv * y) })
  | _, _, _, _ => .throws

/-- A point without water. -/
def Q4.none : Q4 := ⟨0, 0, 0, 0⟩

/-- `spdMax` of line 258 of swhelpers/rhs.py, at face node `c`. -/
noncomputable def nodeSpeed (grav : ℝ) (m p : List Q4) (c : ℕ) : ℝ := max (pySpeed grav (m.getD c Q4.none)) (pySpeed grav (p.getD c Q4.none))

/-- `spdMax` after line 263 (lines 261-263): reshaped to one column per face, replaced by the maximum of the column, flattened. -/
noncomputable def pyFaceMax (nfp : ℕ) (s : ℕ → ℝ) (c : ℕ) : ℝ := (List.range nfp).foldl (fun a i => max a (s (nfp * (c / nfp) + i))) (s (nfp * (c / nfp)))

/-- swhelpers/rhs.py lines 178-311 `sw2dComputeRHS`.  Index arrays of any other length than the number of face nodes fail at the latest in `np.reshape`.  Argument `H` enters `eta` only, which is not used. -/
noncomputable def Grid.rhsPy (g : Grid) (grav f CD : ℝ) (zx zy : DMat ℝ) (vmapM vmapP : List ℕ) (q : Fields) (hN : DMat ℝ) : Out (Fields × DMat ℝ) := do
  let nx := flatF g.nx
  let ny := flatF g.ny
  let mapW ← tagNodes g.bc 3
  let m ← sideOf q hN vmapM
  let p ← sideOf q hN vmapP
  if m.length ≠ g.nf ∨ p.length ≠ g.nf then .throws
  else do
    let p ← loopM (pyWall nx ny m) p mapW
    let lam := pyFaceMax (g.N + 1) (nodeSpeed grav m p)
    let dF := (List.range g.nf).map fun c => pyJump grav (nx.getD c 0) (ny.getD c 0) (lam c) (m.getD c Q4.none) (p.getD c Q4.none)
    let d1 := reshapeF (3 * (g.N + 1)) g.K (dF.map V4.c1)
    let d2 := reshapeF (3 * (g.N + 1)) g.K (dF.map V4.c2)
    let d3 := reshapeF (3 * (g.N + 1)) g.K (dF.map V4.c3)
    let d4 := reshapeF (3 * (g.N + 1)) g.K (dF.map V4.c4)
    let at4 : ℕ → ℕ → Q4 := fun j k => ⟨q.h.at' j k, q.hu.at' j k, q.hv.at' j k, hN.at' j k⟩
    pure (
      { h := ⟨g.np, g.K, fun i k => g.divergence (fun j k => (pyF grav (at4 j k)).c1) (fun j k => (pyG grav (at4 j k)).c1) i k + g.surface d1 i k⟩
        hu := ⟨g.np, g.K, fun i k => g.divergence (fun j k => (pyF grav (at4 j k)).c2) (fun j k => (pyG grav (at4 j k)).c2) i k + g.surface d2 i k
          + (sourcePy CD f (q.at' i k)).1 - grav * q.h.at' i k * zx.at' i k⟩
        hv := ⟨g.np, g.K, fun i k => g.divergence (fun j k => (pyF grav (at4 j k)).c3) (fun j k => (pyG grav (at4 j k)).c3) i k + g.surface d3 i k
          + (sourcePy CD f (q.at' i k)).2 - grav * q.h.at' i k * zy.at' i k⟩ },
      ⟨g.np, g.K, fun i k => g.divergence (fun j k => (pyF grav (at4 j k)).c4) (fun j k => (pyG grav (at4 j k)).c4) i k + g.surface d4 i k⟩)

end Blitzdg.SW
