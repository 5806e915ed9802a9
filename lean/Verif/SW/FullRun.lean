import Verif.SW.Open
import Verif.SW.SimpleRun

/-!
The program src/sw2d from its start to its end: lines 44-249 of src/sw2d/main.cpp.  Exact real arithmetic: `nan` does not occur, and a division by zero gives 0 here; no claim is made about states without water.
`count` is a natural number (an `int` there).  Printing is left out.  The mesh file is represented by the mesh and the grid built from it, the depth file by the values in it, and the list of open boundary vertices is arbitrary.
The source as it stands does not compile (`triangleNodesProvisioner` is not declared); modelled is the program with the declaration of src/sw2d-simple.
-/

namespace Blitzdg.SW

open Blitzdg.Sparse (DMat)
open Blitzdg.DG2D

variable (g : Grid)

/-- Parameters of src/sw2d/main.cpp lines 49-53 and src/sw2d/SW2d.hpp line 16. -/
noncomputable def physFull : Phys := ⟨9.81, 2.5e-3, 1.0070e-4⟩

/-- A call `writeFieldsToFiles(fields, number)`: the number, and names and contents of the fields in the order of the map. -/
abbrev Written := ℕ × List (String × DMat ℝ)

/-- Bed and fields when the loop is entered (src/sw2d/main.cpp lines 109-110, 129-150): `eta = 0`, `h = H + eta`, `u = v = 0`, `hu = h*u`, `hv = h*v`. -/
noncomputable def Grid.startFull (F : Matrix (Fin g.np) (Fin g.np) ℝ) (vals : List ℝ) : Out (Bed × Fields) := do
  let H ← readDepth vals g.np g.K
  let eta := zeroMat g.np g.K
  let u := zeroMat g.np g.K
  let v := zeroMat g.np g.K
  let h : DMat ℝ := ⟨g.np, g.K, fun i k => H.at' i k + eta.at' i k⟩
  pure (g.bed F H, ⟨h, ⟨g.np, g.K, fun i k => h.at' i k * u.at' i k⟩, ⟨g.np, g.K, fun i k => h.at' i k * v.at' i k⟩⟩)

/-- The fields of `timeDepFields` at the start (src/sw2d/main.cpp lines 145-159). -/
def Grid.firstFields : List (String × DMat ℝ) := [("eta", zeroMat g.np g.K), ("u", zeroMat g.np g.K), ("v", zeroMat g.np g.K)]

/-- The fields of `staticFields` (src/sw2d/main.cpp lines 185-191). -/
noncomputable def Grid.staticFields (b : Bed) (c : DMat ℝ) : List (String × DMat ℝ) :=
  [("H", b.H), ("Hx", b.Hx), ("Hy", b.Hy), ("Sponge", c), ("x", ⟨g.np, g.K, fun i k => gridX (g.tri k) g.n i⟩), ("y", ⟨g.np, g.K, fun i k => gridY (g.tri k) g.n i⟩)]

/-- The fields of `timeDepFields` in the loop (src/sw2d/main.cpp lines 195, 203-208). -/
noncomputable def Grid.loopFields (H : DMat ℝ) (q : Fields) : List (String × DMat ℝ) :=
  [("eta", ⟨g.np, g.K, fun i k => q.h.at' i k - H.at' i k⟩), ("u", ⟨g.np, g.K, fun i k => q.hu.at' i k / q.h.at' i k⟩), ("v", ⟨g.np, g.K, fun i k => q.hv.at' i k / q.h.at' i k⟩)]

/-- Variables of the loop with `count`, and the calls of the outputter made so far. -/
structure FullRun where
  s : SimFull
  count : ℕ
  calls : List Written

/-- `if ((count % n.outputInterval) == 0) { ... }` (src/sw2d/main.cpp lines 199-211); `fields_n` lives at 0. -/
noncomputable def Grid.outputFull (b : Bed) (r : FullRun) : FullRun :=
  if r.count % 20 = 0 then { r with calls := r.calls ++ [(r.count, g.loopFields b.H (r.s.σ 0))] } else r

/-- At most `n` passes of `while (t < p.finalTime)` (src/sw2d/main.cpp lines 194-244).  The step size is computed before the output.  An exception leaves the program; the files written before stay. -/
noncomputable def Grid.loopFull (ph : Phys) (CFL : ℝ) (b : Bed) (c : DMat ℝ) (T : ℝ) : ℕ → FullRun → FullRun × Left
  | 0, r => (r, .goingOn)
  | n + 1, r =>
    if r.s.t < T then
      match g.dtFull ph.g CFL (r.s.σ 0) with
      | .throws => (r, .threw)
      | .ub => (r, .undefined)
      | .ok _ =>
        let r := g.outputFull b r
        match g.passFull ph CFL b c 0 r.s with
        | .ok s => Grid.loopFull ph CFL b c T n ⟨s, r.count + 1, r.calls⟩
        | .throws => (r, .threw)
        | .ub => (r, .undefined)
    else (r, .finished)

/-- Open boundary and sponge layer (src/sw2d/main.cpp lines 161-183). -/
noncomputable def Grid.openAndSponge (m : Mesh) (obc : ℕ → Bool) : Out (Grid × DMat ℝ) := do
  let g' ← g.reopen m obc
  let c ← g'.buildSponge 10000 1000
  pure (g', c)

/-- src/sw2d/main.cpp lines 44-244, at most `n` passes, for any list of open boundary vertices. -/
noncomputable def Grid.mainFull (m : Mesh) (obc : ℕ → Bool) (vals : List ℝ) (n : ℕ) : Out (FullRun × Left) := do
  let F ← g.filter (0.90 * g.N) 4
  let F ← asMatrix F
  let (b, q) ← g.startFull F vals
  let r : FullRun := ⟨⟨fun _ => q, 0⟩, 0, [(0, g.firstFields)]⟩
  match g.openAndSponge m obc with
  | .throws => pure (r, .threw)
  | .ub => pure (r, .undefined)
  | .ok (g', c) => pure (g'.loopFull physFull 0.25 b c (24 * 3600) n { r with calls := r.calls ++ [(0, g.staticFields b c)] })

end Blitzdg.SW
