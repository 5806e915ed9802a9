import Verif.Drivers.AdvecRun

/-!
Model of the whole program src/burgers1d/main.cpp: set-up, time loop with the low-storage Runge-Kutta scheme, files, final error.  Exact arithmetic; the test for "not a number" never holds; `count` is a natural number (an `int` there).
-/

namespace Blitzdg.Drivers

open Blitzdg.Sparse (DMat)
open Blitzdg.Nodes1D (Tables Lapack)

/-- How the time loop was left: by its condition, by an exception, by undefined behaviour, or not at all within the passes allowed. -/
inductive How
  | finished
  | threw
  | undefined
  | goingOn

/-- The variables of the time loop and the files written so far, with their contents. (src/burgers1d/main.cpp lines 38, 63-66, 77-82) -/
structure BurgersState where
  u : DMat ℝ
  res : DMat ℝ
  t : ℝ
  count : ℕ
  files : List (Output.Str × DMat ℝ)

/-- The constants of a run. (src/burgers1d/main.cpp lines 31-44) -/
structure BurgersData where
  xmin : ℝ
  xmax : ℝ
  alpha : ℝ
  nu : ℝ
  c : ℝ
  finalTime : ℝ
  N : ℕ
  K : ℕ
  CFL : ℝ

/-- src/burgers1d/main.cpp lines 31-44. -/
noncomputable def burgersData : BurgersData where
  xmin := -5
  xmax := 5
  alpha := 1
  nu := 0.1
  c := 0.5
  finalTime := 0.1
  N := 6
  K := 40
  CFL := 0.75

/-- Every tenth state is written. (src/burgers1d/main.cpp lines 85-88) -/
def burgersOutput (s : BurgersState) : BurgersState :=
  { s with files := if s.count % 10 = 0 then s.files ++ [(Output.generateFileName ".dat".toList "u".toList s.count, s.u)] else s.files }

/-- `while (t < finalTime)`, at most as many passes as the last number but one says. (src/burgers1d/main.cpp lines 84-109; all five stages are given the time at the start of the pass) -/
noncomputable def burgersLoop (p : Prov) (d : BurgersData) (dt : ℝ) : ℕ → BurgersState → BurgersState × How
  | 0, s => (s, .goingOn)
  | n + 1, s =>
    if s.t < d.finalTime then
      let s := burgersOutput s
      match rkStep (burgersRHS p p.t.x s.t d.c d.alpha d.nu) dt (s.u, s.res) with
      | .ok (u, res) => if maxAbs u > 1e8 then ({ s with u := u, res := res }, .threw) else burgersLoop p d dt n ⟨u, res, s.t + dt, s.count + 1, s.files⟩
      | .throws => (s, .threw)
      | .ub => (s, .undefined)
    else (s, .finished)

/-- The step size. (src/burgers1d/main.cpp lines 59-61) -/
noncomputable def burgersDt (p : Prov) (d : BurgersData) : ℝ :=
  let dx := p.t.x.at' 1 0 - p.t.x.at' 0 0
  d.CFL * min (dx / |d.c|) (dx * dx / √d.nu)

/-- `burgers1d::Burgers2` on the grid. (src/burgers1d/main.cpp lines 123-125) -/
noncomputable def burgersField (p : Prov) (d : BurgersData) (t : ℝ) : DMat ℝ := p.sample fun x => burgers2 x t d.alpha d.nu d.c

/-- What is left of a run: the variables of the loop, how it was left, and the error printed at the end. -/
structure BurgersReport where
  s : BurgersState
  how : How
  err : Option ℝ

/-- The program after the provisioner is built. (src/burgers1d/main.cpp lines 57-117) -/
noncomputable def burgersProgram (p : Prov) (d : BurgersData) (fuel : ℕ) : Out BurgersReport :=
  if p.N = 0 ∨ p.K = 0 then .ub else
    let r := burgersLoop p d (burgersDt p d) fuel ⟨burgersField p d 0, zeroMat (p.N + 1) p.K, 0, 0, [("x.dat".toList, p.t.x)]⟩
    match r.2 with
    | .finished => .ok ⟨r.1, .finished, some (maxAbs (lin 1 r.1.u (-1) (burgersField p d r.1.t)))⟩
    | how => .ok ⟨r.1, how, none⟩

/-- The whole program. (src/burgers1d/main.cpp lines 28-117) -/
noncomputable def burgersMain (la : Lapack) (wrap : Bool) (eps tol : ℝ) (r0 : List ℝ) (Vinv0 : DMat ℝ) (t0 : Tables ℝ) (d : BurgersData) (fuel : ℕ) : Out BurgersReport := do
  let p ← buildProv la wrap eps tol d.xmin d.xmax d.N d.K r0 Vinv0 t0
  burgersProgram p d fuel

end Blitzdg.Drivers
