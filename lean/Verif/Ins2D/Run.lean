import Verif.Ins2D.Model
import Verif.Ins2D.Namelist
import Verif.Quads.Disc
import Verif.Poisson.Model
import Verif.SW.SimpleRun

/-!
The program src/ins2d from its start to its end: lines 52-265 of src/ins2d/main.cpp.  Exact real arithmetic: `isnan` is false, and a division by zero gives 0 here.  `count` is a natural number (an `int` there).  Printing is left out.
The reader of mesh files, the conversions of numbers, the factorisation of the Poisson matrix and the contents of memory that is never written are parameters.
-/

namespace Blitzdg.Ins2D

open Blitzdg.Sparse (DMat Csc)
open Blitzdg.Nodes1D (Lapack)
open Blitzdg.DG2D
open Blitzdg.Quads
open Blitzdg.Csv (Str)
open Blitzdg.SW (Mesh listMax filterInPlace Left asMatrix zeroMat)

variable (g : QGrid)

/-- What `computeRHS` reads from a quadrilateral provisioner (src/ins2d/main.cpp lines 274-297). -/
noncomputable def elemOf : Elem where
  np := g.np
  K := g.K
  nf := 4
  nfp := g.N + 1
  Dr := g.o.d.Dr.at'
  Ds := g.o.d.Ds.at'
  rx := fun i k => metric (g.deriv i k) 0 0
  ry := fun i k => metric (g.deriv i k) 0 1
  sx := fun i k => metric (g.deriv i k) 1 0
  sy := fun i k => metric (g.deriv i k) 1 1
  nx := g.nx
  ny := g.ny
  fscale := g.fscale
  lift := g.o.lift.at'
  vmapM := g.maps.vmapM
  vmapP := g.maps.vmapP
  bc := g.bc

/-- `get_DGContext` of a quadrilateral provisioner (src/QuadNodesProvisioner.cpp lines 840-872) and its mesh, as read by the Poisson matrix. -/
noncomputable def contextOf (m : Mesh) : Poisson.Ctx where
  N := g.N
  Np := g.np
  K := g.K
  nf := 4
  nfp := g.N + 1
  r := g.n.r
  s := g.n.s
  fm := g.n.mask
  Vinv := g.o.Vinv.at'
  Dr := g.o.d.Dr.at'
  Ds := g.o.d.Ds.at'
  rx := fun i k => metric (g.deriv i k) 0 0
  ry := fun i k => metric (g.deriv i k) 0 1
  sx := fun i k => metric (g.deriv i k) 1 0
  sy := fun i k => metric (g.deriv i k) 1 1
  J := fun i k => jac (g.deriv i k)
  nx := g.nx.at'
  ny := g.ny.at'
  fscale := g.fscale
  vmapM := g.maps.vmapM
  vmapP := g.maps.vmapP
  E := m.E
  F := m.F
  bc := m.bcType

/-- Density and velocities at the start (src/ins2d/main.cpp lines 136-140): `rho = 1 + drho*(-tanh(5*(y+.005*x+.075))+1)/2` with `drho = 0.003`. -/
noncomputable def firstFlow : Flow where
  rho := ⟨g.np, g.K, fun i k => 1 + 0.003 * (-Real.tanh (5 * (nodeY (g.quad k) g.n i + 0.005 * nodeX (g.quad k) g.n i + 0.075)) + 1) / 2⟩
  u := zeroMat g.np g.K
  v := zeroMat g.np g.K

/-- `blitz::max(v) - blitz::min(v)` over all nodes. -/
noncomputable def spread (w : ℕ → ℕ → ℝ) : ℝ :=
  listMax ((List.range (g.np * g.K)).map fun c => w (c / g.K) (c % g.K)) + listMax ((List.range (g.np * g.K)).map fun c => -w (c / g.K) (c % g.K))

/-- `H` (src/ins2d/main.cpp line 160). -/
noncomputable def height : ℝ := |spread g fun i k => nodeY (g.quad k) g.n i|

/-- `buoyancy_freq` (src/ins2d/main.cpp line 164; line 249 computes the same, as `rhoVec` is not refreshed). -/
noncomputable def frequency (grav : ℝ) : ℝ := √(grav * spread g (firstFlow g).rho.at' / height g)

/-- `Fsc = blitz::abs(fsVec)*spdM` (src/ins2d/main.cpp lines 194, 247) for the velocities `u`, `v`; the two vectors are written out entry by entry. -/
noncomputable def faceRates (q : Flow) : List ℝ := (List.range g.nf).map fun c =>
  let n := g.maps.vmapM.getD c 0
  |g.fscale (c % (4 * (g.N + 1))) (c / (4 * (g.N + 1)))| * √(q.u.at' (n % g.np) (n / g.np) * q.u.at' (n % g.np) (n / g.np) + q.v.at' (n % g.np) (n / g.np) * q.v.at' (n % g.np) (n / g.np))

/-- The three rates filtered in place (src/ins2d/main.cpp lines 219-221, 230-232). -/
noncomputable def Flow.filtered {n : ℕ} (F : Matrix (Fin n) (Fin n) ℝ) (q : Flow) : Flow where
  rho := { q.rho with at' := filterInPlace F q.rho.at' }
  u := { q.u with at' := filterInPlace F q.u.at' }
  v := { q.v with at' := filterInPlace F q.v.at' }

/-- `normMax(rho)`. -/
noncomputable def rhoMax (q : Flow) : ℝ := listMax ((List.range (g.np * g.K)).map fun c => |q.rho.at' (c / g.K) (c % g.K)|)

/-- Numbers read from the namelist (src/ins2d/main.cpp lines 90-98). -/
structure Numbers where
  grav : ℝ
  finalTime : ℝ
  initialTime : ℝ
  order : ℤ
  CFL : ℝ
  cutOff : ℝ
  filtOrder : ℝ

/-- The numbers in the order in which they are read; the order of the polynomials is an integer. -/
noncomputable def numbersOf (xs : List ℝ) : Numbers :=
  ⟨xs.getD 0 0, xs.getD 1 0, xs.getD 2 0, ⌊xs.getD 3 0⌋, xs.getD 4 0, xs.getD 5 0, xs.getD 6 0⟩

/-- Conversion of a `double` to an `int`. -/
noncomputable def truncate (x : ℝ) : ℤ := if 0 ≤ x then ⌊x⌋ else ⌈x⌉

/-- Variables of the loop with `count`, and the calls `writeFieldsToFiles({{"rho", rho}}, count)` made so far. -/
structure InsRun where
  s : Sim
  count : ℕ
  files : List (ℕ × DMat ℝ)

/-- One pass without the output (src/ins2d/main.cpp lines 217-257).  `mem` is what the memory of the array `vorticity` contains, for each pass and argument. -/
noncomputable def insPass (p : Numbers) (F : Matrix (Fin g.np) (Fin g.np) ℝ) (vort : Flow → ℕ → ℕ → ℝ) (s : Sim) : Out Sim :=
  open Classical in
  pass (fun q => do
      let r ← (elemOf g).rhs p.grav (vort q) q
      pure (r.filtered F)) (fun q => |rhoMax g q| > 1e8) (fun q => dtLoop p.CFL g.N |frequency g p.grav * height g| (faceRates g q)) s

/-- `if ((count % 10) == 0) { ... }` (src/ins2d/main.cpp lines 208-215). -/
def insOutput (r : InsRun) : InsRun := if r.count % 10 = 0 then { r with files := r.files ++ [(r.count, r.s.q.rho)] } else r

/-- At most `n` passes of `while (t < finalTime)` (src/ins2d/main.cpp lines 207-259). -/
noncomputable def insLoop (p : Numbers) (F : Matrix (Fin g.np) (Fin g.np) ℝ) (mem : ℕ → Flow → ℕ → ℕ → ℝ) : ℕ → InsRun → InsRun × Left
  | 0, r => (r, .goingOn)
  | n + 1, r =>
    if r.s.t < p.finalTime then
      let r := insOutput r
      match insPass g p F (mem r.count) r.s with
      | .ok s => insLoop p F mem n ⟨s, r.count + 1, r.files⟩
      | .throws => (r, .threw)
      | .ub => (r, .undefined)
    else (r, .finished)

/-- What a run comes to: the message on how to call the program, or the loop. -/
inductive Ended
  | usage
  | looped (r : InsRun) (how : Left)

/-- The state in which the loop is entered (src/ins2d/main.cpp lines 134-205). -/
noncomputable def insStart (p : Numbers) : InsRun :=
  ⟨⟨firstFlow g, p.initialTime, dtInit p.CFL g.N |frequency g p.grav * height g| (frequency g p.grav) (faceRates g (firstFlow g))⟩, 0, []⟩

/-- The program with the construction of the Poisson matrix as a parameter: src/ins2d/main.cpp lines 52-259.  A negative order asks for arrays of negative extent: undefined.  `factorize` is `solver.factorize(OP)`. -/
noncomputable def programWith (build : QGrid → Mesh → Out (Csc ℝ × Csc ℝ)) (factorize : Csc ℝ → Out Unit) (la : Lapack) (eps tol : ℝ) (num : Str → Str → Option ℝ) (readMesh : Str → Out Mesh)
    (mem : ℕ → Flow → ℕ → ℕ → ℝ) (n argc : ℕ) (file : Option Str) : Out Ended :=
  if argc ≠ 2 then .ok .usage
  else do
    let (xs, name) ← start num file
    let p := numbersOf xs
    let m ← readMesh name
    if p.order < 0 then .ub
    else do
      let g ← buildQGrid la eps tol p.order.toNat m
      let F ← g.filter (p.cutOff * p.order) (truncate p.filtOrder)
      let held ← build g m
      let _ ← factorize (Poisson.Held.getOP ⟨held.1, held.2⟩)
      let F ← asMatrix F
      let r := insLoop g p F mem n (insStart g p)
      pure (.looped r.1 r.2)

/-- The program as it is: `Poisson2DSparseMatrix borderedPoisson(ctx, meshManager, bordered)` with `bordered = 1` (src/ins2d/main.cpp lines 169-172, src/Poisson2DSparseMatrix.cpp lines 22-29). -/
noncomputable def program (factorize : Csc ℝ → Out Unit) (la : Lapack) := programWith (fun g m => (contextOf g m).build la true) factorize la

end Blitzdg.Ins2D
