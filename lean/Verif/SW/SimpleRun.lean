import Verif.SW.StepProps

/-!
The program src/sw2d-simple from its start to its end: lines 38-174 of src/sw2d-simple/main.cpp.  Exact real arithmetic: `nan` does not occur, and a division by zero gives 0 here; no claim is made about states without water.
`count` is a natural number (an `int` there).  Printing is left out.  The mesh file is represented by the grid built from it.
-/

namespace Blitzdg.SW

open Blitzdg.Sparse (DMat)
open Blitzdg.DG2D

variable (g : Grid)

/-- Fields, clock and first step when the loop is entered (src/sw2d-simple/main.cpp lines 41, 85-109): `H = 10`, `eta = exp(-10*(x*x) -10*(y*y))`, `u = v = 0`, `h = H + eta`, `hu = h*u`, `hv = h*v`. -/
noncomputable def Grid.startSimple (grav CFL : ℝ) : Out Sim := do
  let H : DMat ℝ := ⟨g.np, g.K, fun _ _ => 10⟩
  let eta : DMat ℝ := ⟨g.np, g.K, fun i k => Real.exp (-10 * (gridX (g.tri k) g.n i * gridX (g.tri k) g.n i) - 10 * (gridY (g.tri k) g.n i * gridY (g.tri k) g.n i))⟩
  let u : DMat ℝ := ⟨g.np, g.K, fun _ _ => 0⟩
  let v : DMat ℝ := ⟨g.np, g.K, fun _ _ => 0⟩
  let h : DMat ℝ := ⟨g.np, g.K, fun i k => H.at' i k + eta.at' i k⟩
  let q : Fields := ⟨h, ⟨g.np, g.K, fun i k => h.at' i k * u.at' i k⟩, ⟨g.np, g.K, fun i k => h.at' i k * v.at' i k⟩⟩
  let dt ← g.dtSimple grav CFL q
  pure ⟨q, 0, dt⟩

/-- Variables of the loop with `count`, and the calls `writeFieldsToFiles({{"eta", eta}}, count)` made so far. -/
structure SimpleRun where
  s : Sim
  count : ℕ
  files : List (ℕ × DMat ℝ)

/-- How the loop stands: left because the final time is reached, left by an exception, undefined behaviour, or still going on. -/
inductive Left
  | finished
  | threw
  | undefined
  | goingOn

/-- `if ((count % 10) == 0) { eta = h-H; ... outputter.writeFieldsToFiles(fields, count); }` (src/sw2d-simple/main.cpp lines 122-130). -/
noncomputable def Grid.outputSimple (H : ℝ) (r : SimpleRun) : SimpleRun :=
  if r.count % 10 = 0 then { r with files := r.files ++ [(r.count, ⟨g.np, g.K, fun i k => r.s.q.h.at' i k - H⟩)] } else r

/-- At most `n` passes of `while (t < finalTime)` (src/sw2d-simple/main.cpp lines 121-172).  An exception leaves the program; the files written before stay. -/
noncomputable def Grid.loopSimple (grav CFL H T : ℝ) (F : Matrix (Fin g.np) (Fin g.np) ℝ) : ℕ → SimpleRun → SimpleRun × Left
  | 0, r => (r, .goingOn)
  | n + 1, r =>
    if r.s.t < T then
      let r := g.outputSimple H r
      match g.stepSimple grav CFL H F r.s with
      | .ok s => Grid.loopSimple grav CFL H T F n ⟨s, r.count + 1, r.files⟩
      | .throws => (r, .threw)
      | .ub => (r, .undefined)
    else (r, .finished)

/-- The filter as a matrix; an entry that was never written is read. -/
noncomputable def asMatrix {n : ℕ} (F : Fin n → Fin n → Option ℝ) : Out (Matrix (Fin n) (Fin n) ℝ) :=
  open Classical in if ∀ i j, (F i j).isSome then .ok fun i j => (F i j).getD 0 else .ub

/-- src/sw2d-simple/main.cpp lines 38-172, at most `n` passes: `buildFilter(0.9*N, N)`, the start, the loop. -/
noncomputable def Grid.mainSimple (n : ℕ) : Out (SimpleRun × Left) := do
  let F ← g.filter (0.9 * g.N) g.N
  let F ← asMatrix F
  let s ← g.startSimple 9.81 0.65
  pure (g.loopSimple 9.81 0.65 10 1000 F n ⟨s, 0, []⟩)

end Blitzdg.SW
