import Verif.SW.Step

/-! Set-up of src/sw2d: depth file, bed slopes, open boundary, sponge layer, and the main loop.  Exact real arithmetic; output to files is left out. -/

namespace Blitzdg.SW

open Blitzdg.Sparse (DMat colMajor)
open Blitzdg.Blitz (reshapeMatTo1D mset)
open Blitzdg.DG2D

/-- Copying the values of the file into the array (src/sw2d/main.cpp lines 499-502): `depthData(count) = val` for every row of the file. -/
def fillDepth (vals : List ℝ) (n : ℕ) : Out (List ℝ) := do
  let (d, _) ← loopM (fun s v => do
      let d ← wr s.1 s.2 v
      pure (d, s.2 + 1)) (zeros n, 0) vals
  pure d

/-- src/sw2d/main.cpp lines 486-515 `readDepthData` on the values in the file (the reader is the subject of C01 - C05): column after column, at least 150. -/
noncomputable def readDepth (vals : List ℝ) (np K : ℕ) : Out (DMat ℝ) := do
  let d ← fillDepth vals (np * K)
  let (H, _) ← loopM (fun s nk => do
      let v ← rd d s.2
      pure (mset s.1 nk.1 nk.2 (if v < 150 then 150 else v), s.2 + 1)) (zeroMat np K, 0) (colMajor np K)
  pure H

variable (g : Grid)

/-- Bed slopes before filtering (src/sw2d/main.cpp lines 129-130). -/
noncomputable def Grid.slopeX (H : DMat ℝ) (i k : ℕ) : ℝ :=
  metric (g.deriv i k) 0 0 * ∑ j ∈ Finset.range g.np, g.o.d.Dr.at' i j * H.at' j k + metric (g.deriv i k) 1 0 * ∑ j ∈ Finset.range g.np, g.o.d.Ds.at' i j * H.at' j k
noncomputable def Grid.slopeY (H : DMat ℝ) (i k : ℕ) : ℝ :=
  metric (g.deriv i k) 0 1 * ∑ j ∈ Finset.range g.np, g.o.d.Dr.at' i j * H.at' j k + metric (g.deriv i k) 1 1 * ∑ j ∈ Finset.range g.np, g.o.d.Ds.at' i j * H.at' j k

/-- The bed of src/sw2d/main.cpp lines 129-133: slopes filtered in place. -/
noncomputable def Grid.bed (F : Matrix (Fin g.np) (Fin g.np) ℝ) (H : DMat ℝ) : Bed where
  H := H
  Hx := ⟨g.np, g.K, filterInPlace F (g.slopeX H)⟩
  Hy := ⟨g.np, g.K, filterInPlace F (g.slopeY H)⟩

/-- `if (c) bcType(i) = BCTag::Out`. -/
def tagIf (c : Bool) (bt : List Int) (i : ℕ) : Out (List Int) := if c then wr bt i 2 else .ok bt

/-- One pass of the loop of src/sw2d/main.cpp lines 166-177; `obc` tells the vertices listed in `obcNodes`. -/
def retagStep (ev : List ℕ) (obc : ℕ → Bool) (bt : List Int) (k : ℕ) : Out (List Int) := do
  let v1 ← rd ev (3 * k)
  let v2 ← rd ev (3 * k + 1)
  let v3 ← rd ev (3 * k + 2)
  let bt ← tagIf (obc v1 && obc v2) bt (3 * k)
  let bt ← tagIf (obc v2 && obc v3) bt (3 * k + 1)
  tagIf (obc v3 && obc v1) bt (3 * k + 2)

/-- src/sw2d/main.cpp lines 166-177. -/
def retag (ev : List ℕ) (obc : ℕ → Bool) (K : ℕ) (bt : List Int) : Out (List Int) := loopM (retagStep ev obc) bt (List.range K)

/-- src/sw2d/main.cpp lines 124, 166-179: the tag map is rebuilt with the changed tags.  `buildBCHash` appends to the map the constructor has filled, and `dg` refers to the same map. -/
def Grid.reopen (m : Mesh) (obc : ℕ → Bool) : Out Grid := do
  let bt ← retag m.ev obc m.K m.bcType
  let bc ← buildBCHash (g.N + 1) (3 * g.K) bt g.bc
  pure { g with bc := bc }

/-- The inner loop of src/sw2d/main.cpp lines 538-543: distance to the closest open boundary node within the radius, from `1e12`. -/
noncomputable def nearestOpen (xV yV : List ℝ) (vmapM mapO : List ℕ) (R x0 y0 : ℝ) : Out ℝ :=
  loopM (fun d c => do
    let o ← rd vmapM c
    let a ← rd xV o
    let b ← rd yV o
    pure (if hypot (x0 - a) (y0 - b) < R ∧ hypot (x0 - a) (y0 - b) < d then hypot (x0 - a) (y0 - b) else d)) 1e12 mapO

/-- src/sw2d/main.cpp lines 517-553 `buildSpongeCoeff` on the zero array of line 183.  `xVec`, `yVec` have one entry per *face* node and receive one per *volume* node. -/
noncomputable def Grid.buildSponge (S R : ℝ) : Out (DMat ℝ) := do
  let mapO ← tagNodes g.bc 2
  let xV ← reshapeMatTo1D ⟨g.np, g.K, fun i k => gridX (g.tri k) g.n i⟩ (zeros g.nf) false
  let yV ← reshapeMatTo1D ⟨g.np, g.K, fun i k => gridY (g.tri k) g.n i⟩ (zeros g.nf) false
  loopM (fun c nk => do
    let d ← nearestOpen xV yV g.maps.vmapM mapO R (gridX (g.tri nk.2) g.n nk.1) (gridY (g.tri nk.2) g.n nk.1)
    pure (if d < 1e12 then mset c nk.1 nk.2 (S * (1 - d / R)) else c)) (zeroMat g.np g.K) (colMajor g.np g.K)

/-- Variables of the loop of src/sw2d/main.cpp lines 193-244: array memory and clock. -/
structure SimFull where
  σ : Store
  t : ℝ

/-- `normMax(eta)` with `eta = h - H`. -/
noncomputable def Grid.etaOf (H : DMat ℝ) (q : Fields) : ℝ := listMax ((List.range (g.np * g.K)).map fun c => |q.h.at' (c / g.K) (c % g.K) - H.at' (c / g.K) (c % g.K)|)

/-- One pass (lines 194-243): `eta` is computed at the top of the loop from the fields before the step, and tested at the bottom. -/
noncomputable def Grid.passFull (ph : Phys) (CFL : ℝ) (b : Bed) (c : DMat ℝ) (a : ℕ) (s : SimFull) : Out SimFull := do
  let eta := g.etaOf b.H (s.σ a)
  let dt ← g.dtFull ph.g CFL (s.σ a)
  let σ ← stepSw2d (g.rhsFull ph b s.t) dt c a s.σ
  if |eta| > 1e8 then .throws
  else pure ⟨σ, s.t + dt⟩

end Blitzdg.SW
