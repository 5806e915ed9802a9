import Verif.Poisson.Props
import Verif.Py.Model

/-!
Model of the implicit heat solver heat2d.py, in exact arithmetic on a triangle grid.

`scipy.sparse.csc_matrix((vals, (rows, cols)))` adds up values given for the same place; `scipy.sparse.linalg.splu` is a contract.  Boundary tags and data (lines 21-46, 99-110) are parameters, output is
left out.
-/

namespace Blitzdg.Heat

open Matrix
open Blitzdg.Sparse (DMat Csc cooVal)
open Blitzdg.Nodes1D (Lapack)
open Blitzdg.Poisson (Ctx mat)
open Blitzdg.Py (sparseNumpy)

/-- `scipy.sparse.linalg.splu`: a factorisation is used through its `solve` method only. -/
abbrev Splu := (n : ℕ) → Matrix (Fin n) (Fin n) ℝ → Out ((Fin n → ℝ) → Fin n → ℝ)

/-- Contract: `solve` solves the linear system; a singular matrix raises `RuntimeError`. -/
def Splu.Ok (S : Splu) : Prop := ∀ n (A : Matrix (Fin n) (Fin n) ℝ),
  ((∀ u, A *ᵥ u = 0 → u = 0) → ∃ f, S n A = .ok f ∧ ∀ b, A *ᵥ f b = b) ∧ ((∃ u ≠ 0, A *ᵥ u = 0) → S n A = .throws)

/-- `dt = CFL / np.max(((N+1)**2)*0.5*(np.abs(Fscale)**2)*kappa)` (line 64); `fs` are the entries of `ctx.Fscale`. -/
noncomputable def stepSize (CFL kappa : ℝ) (N : ℕ) (fs : List ℝ) : ℝ :=
  CFL / (fs.map fun f => ((N : ℝ) + 1) ^ 2 * 0.5 * |f| ^ 2 * kappa).foldl max 0

/-- `vals = kappa*dt*(vals)` (line 128). -/
def scaleRows (c : ℝ) (rows : List (ℕ × ℕ × ℝ)) : List (ℕ × ℕ × ℝ) := rows.map fun e => (e.1, e.2.1, c * e.2.2)

/-- `MMsp + scaledLap` (lines 121-134). -/
def implicit (dof : ℕ) (MM OP : List (ℕ × ℕ × ℝ)) (c : ℝ) : Matrix (Fin dof) (Fin dof) ℝ := mat dof (cooVal MM) + mat dof (cooVal (scaleRows c OP))

/-- `bcRhs.flatten('F')` (line 142). -/
def flatF (dof : ℕ) (b : DMat ℝ) : Fin dof → ℝ := fun a => b.at' ((a : ℕ) % b.rows) ((a : ℕ) / b.rows)

/-- The first `j` passes of the loop (lines 148-168). -/
def passes {n : ℕ} (solve : (Fin n → ℝ) → Fin n → ℝ) (M : Matrix (Fin n) (Fin n) ℝ) (b : Fin n → ℝ) : ℕ → (Fin n → ℝ) → Fin n → ℝ
  | 0, p => p
  | j + 1, p => solve (M *ᵥ passes solve M b j p + b)

/-- heat2d.py lines 96-168: the state after `j` passes, from any initial state (the script starts with zero). -/
noncomputable def heat (S : Splu) (la : Lapack) (c : Ctx) (kappa dt : ℝ) (ubc qbc : DMat ℝ) (p0 : Fin (c.Np * c.K) → ℝ) (j : ℕ) : Out (Fin (c.Np * c.K) → ℝ) := do
  let (op, mm) ← c.build la false
  let b ← c.buildBcRhs la ubc qbc
  let MM ← sparseNumpy mm
  let OP ← sparseNumpy op
  let solve ← S (c.Np * c.K) (implicit (c.Np * c.K) MM OP (kappa * dt))
  pure (passes solve (mat _ (cooVal MM)) (flatF _ b) j p0)

/-- `soln/np.max(np.abs(soln))`, the field written every tenth pass (line 163). -/
noncomputable def written {n : ℕ} (p : Fin n → ℝ) : Fin n → ℝ := fun a => p a / (List.ofFn fun b => |p b|).foldl max 0

end Blitzdg.Heat
