import Verif.SW.Disc
import Verif.DG2D.Modes
import Verif.Dense.Props

/-!
Time stepping of the two shallow water programs.  Exact real arithmetic; output to files is left out.

Blitz evaluates an array assignment element by element, rows outermost, into its left-hand side, without a temporary; copying an array object shares its memory.
-/

namespace Blitzdg.SW

open Blitzdg.Sparse (DMat)
open Blitzdg.Blitz (reshapeMatTo1D)
open Blitzdg.Dense (toMat)
open Blitzdg.DG2D

variable (g : Grid)

/-- `buildFilter(Nc, s)` of the provisioner (src/TriangleNodesProvisioner.cpp lines 515-547) with the stored Vandermonde matrix and its inverse. -/
noncomputable def Grid.filter (Nc : ℝ) (s : ℤ) : Out (Fin g.np → Fin g.np → Option ℝ) := buildFilter g.N Nc s (toMat g.o.V g.np g.np) (toMat g.o.Vinv g.np g.np)

/-- Assigning row `i` of `A = sum(F(ii,kk)*A(kk,jj), kk)`: the right-hand side reads the present contents of `A`. -/
noncomputable def filterRow {n : ℕ} (F : Matrix (Fin n) (Fin n) ℝ) (u : ℕ → ℕ → ℝ) (i : Fin n) : ℕ → ℕ → ℝ :=
  fun a k => if a = i then ∑ j : Fin n, F i j * u j k else u a k

/-- `RHS1 = sum(Filt(ii,kk)*RHS1(kk,jj), kk)` (src/sw2d-simple/main.cpp lines 134-136, 145-147; src/sw2d/main.cpp lines 132-133): row after row into the array being read. -/
noncomputable def filterInPlace {n : ℕ} (F : Matrix (Fin n) (Fin n) ℝ) (u : ℕ → ℕ → ℝ) : ℕ → ℕ → ℝ := (List.finRange n).foldl (filterRow F) u

/-- Three filtered fields. -/
noncomputable def Fields.filtered {n : ℕ} (F : Matrix (Fin n) (Fin n) ℝ) (q : Fields) : Fields where
  h := { q.h with at' := filterInPlace F q.h.at' }
  hu := { q.hu with at' := filterInPlace F q.hu.at' }
  hv := { q.hv with at' := filterInPlace F q.hv.at' }

/-- `q + c*r`, as in `h1 = h + 0.5*dt*RHS1`. -/
def Fields.axpy (c : ℝ) (r q : Fields) : Fields where
  h := { q.h with at' := fun i k => q.h.at' i k + c * r.h.at' i k }
  hu := { q.hu with at' := fun i k => q.hu.at' i k + c * r.hu.at' i k }
  hv := { q.hv with at' := fun i k => q.hv.at' i k + c * r.hv.at' i k }

/-- `dt = CFL/((N+1)*(N+1)*0.5*Fsc_max)` with `Fsc_max = max(abs(fsVec)*spdM)` (src/sw2d-simple/main.cpp lines 98-110, 158-167). -/
noncomputable def Grid.dtSimple (grav CFL : ℝ) (q : Fields) : Out ℝ := do
  let fs ← reshapeMatTo1D ⟨3 * (g.N + 1), g.K, g.fscale⟩ (zeros g.nf) false
  let (sM, _) ← g.traces ⟨g.np, g.K, fun i k => speed grav (q.at' i k)⟩
  pure (CFL / ((g.N + 1) * (g.N + 1) * 0.5 * listMax ((List.range g.nf).map fun c => |fs.getD c 0| * sM.getD c 0)))

/-- `sw2d::computeTimeStep` (src/sw2d/main.cpp lines 253-277): speeds from the traces of `u`, `v`, `h`, no absolute value. -/
noncomputable def Grid.dtFull (grav CFL : ℝ) (q : Fields) : Out ℝ := do
  let fs ← reshapeMatTo1D ⟨3 * (g.N + 1), g.K, g.fscale⟩ (zeros g.nf) false
  let (uM, _) ← g.traces ⟨g.np, g.K, fun i k => q.hu.at' i k / q.h.at' i k⟩
  let (vM, _) ← g.traces ⟨g.np, g.K, fun i k => q.hv.at' i k / q.h.at' i k⟩
  let (hM, _) ← g.traces q.h
  pure (CFL / ((g.N + 1) * (g.N + 1) * 0.5 * listMax ((List.range g.nf).map fun c =>
    fs.getD c 0 * (√(uM.getD c 0 * uM.getD c 0 + vM.getD c 0 * vM.getD c 0) + √(grav * hM.getD c 0)))))

/-- Variables of the loop of src/sw2d-simple/main.cpp lines 121-172. -/
structure Sim where
  q : Fields
  t : ℝ
  dt : ℝ

/-- `normMax(eta)` with `eta = h - H` (src/sw2d-simple/main.cpp lines 153-155). -/
noncomputable def Grid.etaMax (H : ℝ) (q : Fields) : ℝ :=
  listMax ((List.range (g.np * g.K)).map fun c => |q.h.at' (c / g.K) (c % g.K) - H|)

/-- One pass of the loop of src/sw2d-simple/main.cpp (lines 121-172): two filtered evaluations of the right-hand side, the check for blow-up, the next step size, and only then `t += dt`. -/
noncomputable def Grid.stepSimple (grav CFL H : ℝ) (F : Matrix (Fin g.np) (Fin g.np) ℝ) (s : Sim) : Out Sim := do
  let r ← g.rhsSimple grav s.q
  let q1 := Fields.axpy (0.5 * s.dt) (r.filtered F) s.q
  let r ← g.rhsSimple grav q1
  let q := Fields.axpy s.dt (r.filtered F) s.q
  if |g.etaMax H q| > 1e8 then .throws
  else do
    let dt ← g.dtSimple grav CFL q
    pure ⟨q, s.t + dt, dt⟩

/-- `n` passes. -/
noncomputable def Grid.runSimple (grav CFL H : ℝ) (F : Matrix (Fin g.np) (Fin g.np) ℝ) : ℕ → Sim → Out Sim
  | 0, s => .ok s
  | n + 1, s => do
    let s' ← Grid.runSimple grav CFL H F n s
    g.stepSimple grav CFL H F s'

/-- `hu /= (1.0 + spongeCoeff*hu*hu)` (src/sw2d/main.cpp lines 223-224, 235-236). -/
noncomputable def sponge (c m : ℝ) : ℝ := m / (1 + c * m * m)

/-- The sponge applied to both momenta. -/
noncomputable def Fields.sponged (c : DMat ℝ) (q : Fields) : Fields where
  h := q.h
  hu := { q.hu with at' := fun i k => sponge (c.at' i k) (q.hu.at' i k) }
  hv := { q.hv with at' := fun i k => sponge (c.at' i k) (q.hv.at' i k) }

/-- `0.5*(a + b + dt*r)` (src/sw2d/main.cpp lines 231-233). -/
noncomputable def Fields.combine (dt : ℝ) (r b a : Fields) : Fields where
  h := { a.h with at' := fun i k => 0.5 * (a.h.at' i k + b.h.at' i k + dt * r.h.at' i k) }
  hu := { a.hu with at' := fun i k => 0.5 * (a.hu.at' i k + b.hu.at' i k + dt * r.hu.at' i k) }
  hv := { a.hv with at' := fun i k => 0.5 * (a.hv.at' i k + b.hv.at' i k + dt * r.hv.at' i k) }

/-- Array memory: which fields are stored where. -/
abbrev Store := ℕ → Fields

/-- Storing into one place. -/
def Store.set (σ : Store) (a : ℕ) (q : Fields) : Store := fun b => if b = a then q else σ b

/-- One pass of the loop of src/sw2d/main.cpp (lines 211-236) for a given right-hand side and step size, where `fields_n` lives at `a` and `fields_np1` at `b`. -/
noncomputable def stepFull (rhs : Fields → Out Fields) (dt : ℝ) (c : DMat ℝ) (a b : ℕ) (σ : Store) : Out Store := do
  let r ← rhs (σ a)
  let σ := σ.set b ((Fields.axpy dt r (σ a)).sponged c)
  let r ← rhs (σ b)
  pure (σ.set a ((Fields.combine dt r (σ b) (σ a)).sponged c))

/-- `sw2d::fields fields_np1 = fields_n;` (src/sw2d/main.cpp line 101): the copies of the arrays refer to the memory of `fields_n`. -/
def copyFields (a : ℕ) : ℕ := a

/-- The loop body of src/sw2d/main.cpp as written. -/
noncomputable def stepSw2d (rhs : Fields → Out Fields) (dt : ℝ) (c : DMat ℝ) (a : ℕ) (σ : Store) : Out Store := stepFull rhs dt c a (copyFields a) σ

end Blitzdg.SW
