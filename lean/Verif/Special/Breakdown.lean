import Verif.Special.Val
import Verif.Time.LSERK4

/-!
The tests by which the programs notice that a run has broken down, and the updates of the fields, on values that may be infinite or NaN.  A field is the list of its entries, or a function on the nodes.
-/

namespace Blitzdg.Breakdown

open Val (num nan)
open Blitzdg.Time (rk4a rk4b numStages)

/-- `normMax` (include/LinAlgHelpers.hpp lines 87-90); `lo` is the lowest double. -/
noncomputable def normMax (lo : ℝ) (l : List Val) : Val := Val.maxRed lo (l.map Val.abs)

/-- `u_max > 1e8 || std::isnan(u_max)` (src/advec1d/main.cpp lines 104-105, src/burgers1d/main.cpp lines 100-101). -/
def stops1D (lo : ℝ) (u : List Val) : Prop := Val.lt (num 1e8) (normMax lo u) ∨ normMax lo u = nan

/-- `std::abs(eta_max) > 1e8 || std::isnan(eta_max)` (src/sw2d-simple/main.cpp lines 155-156, src/ins2d/main.cpp lines 238-239). -/
def stops2D (lo : ℝ) (u : List Val) : Prop := Val.lt (num 1e8) (Val.abs (normMax lo u)) ∨ normMax lo u = nan

/-- `std::abs(eta_max) > 1e8 || std::isnan(sum(fields_n.eta))` (src/sw2d/main.cpp lines 238-239). -/
def stopsFull (lo : ℝ) (u : List Val) : Prop := Val.lt (num 1e8) (Val.abs (normMax lo u)) ∨ Val.sumRed u = nan

/-- `h_max > 1e8 or np.isnan(h_max)` with `h_max = np.max(np.abs(h))` (sw2d.py lines 246-247, sw2d_curved.py lines 284-285, sw2dquads.py lines 202-203, advec1d.py lines 90-91). -/
def stopsPy (u : List Val) : Prop := Val.lt (num 1e8) (Val.npMax (u.map Val.abs)) ∨ Val.npMax (u.map Val.abs) = nan

/-- A field on numbered nodes. -/
abbrev Field := ℕ → Val

/-- Its entries. -/
def entries (n : ℕ) (u : Field) : List Val := (List.range n).map u

/-- One stage of the Runge-Kutta scheme on `(u, resRK)` (src/advec1d/main.cpp lines 92-102, src/burgers1d/main.cpp lines 88-98); `f` is the right-hand side, whatever it is. -/
noncomputable def stage (f : Field → Field) (dt : ℝ) (s : Field × Field) (i : ℕ) : Field × Field :=
  let res : Field := fun j => num ((rk4a.getD i 0 : ℚ) : ℝ) * s.2 j + num dt * f s.1 j
  (fun j => s.1 j + num ((rk4b.getD i 0 : ℚ) : ℝ) * res j, res)

/-- One pass of the loop (src/advec1d/main.cpp lines 92-111, src/burgers1d/main.cpp lines 88-107): `none` is the exception.  `n` is the number of nodes. -/
noncomputable def pass1D (lo : ℝ) (n : ℕ) (f : Field → Field) (dt : ℝ) (s : Field × Field) : Option (Field × Field) :=
  let s' := (List.range numStages).foldl (stage f dt) s
  open Classical in if stops1D lo (entries n s'.1) then none else some s'

/-- Passes one after the other, the right-hand side being one of the pass (src/advec1d/main.cpp lines 86-111, src/burgers1d/main.cpp lines 82-107). -/
noncomputable def run1D (lo : ℝ) (n : ℕ) (f : ℕ → Field → Field) (dt : ℝ) : ℕ → Field × Field → Option (Field × Field)
  | 0, s => some s
  | k + 1, s => (run1D lo n f dt k s).bind (pass1D lo n (f k) dt)

/-- The reported error `normMax(u - uexact)` (src/burgers1d/main.cpp lines 109-112, src/advec1d/main.cpp lines 113-119). -/
noncomputable def reported (lo : ℝ) (n : ℕ) (u : Field) (exact : ℕ → ℝ) : Val := normMax lo (entries n fun j => u j + num (-exact j))

/-- One pass of the loop of src/sw2d-simple/main.cpp (lines 132-157) or src/ins2d/main.cpp (lines 215-240) for the tested field: `h += dt*RHS1`, then the test on `h - H` (in ins2d on the density itself, `H = 0`); the rate, whatever it is, is
given with the step size. -/
noncomputable def pass2D (lo : ℝ) (n : ℕ) (H : ℝ) (rate : Field → Val × Field) (h : Field) : Option Field :=
  let h' : Field := fun j => h j + (rate h).1 * (rate h).2 j
  open Classical in if stops2D lo (entries n fun j => h' j + num (-H)) then none else some h'

/-- Passes one after the other. -/
noncomputable def run2D (lo : ℝ) (n : ℕ) (H : ℝ) (rate : ℕ → Field → Val × Field) : ℕ → Field → Option Field
  | 0, h => some h
  | k + 1, h => (run2D lo n H rate k h).bind (pass2D lo n H (rate k))

/-- One pass of the loop of src/sw2d/main.cpp (lines 192-243) for the depth: `eta = h - H` at the start of the pass, `h = 0.5*(h + h1 + dt*RHS)` with `h1 = h + dt*RHS`, and the test on `eta`. -/
noncomputable def passFull (lo : ℝ) (n : ℕ) (H : Field) (rate : Field → Val × Field × Field) (h : Field) : Option Field :=
  let eta : Field := fun j => h j + num (-1) * H j
  let r := rate h
  let h1 : Field := fun j => h j + r.1 * r.2.1 j
  let h' : Field := fun j => num 0.5 * (h j + h1 j + r.1 * r.2.2 j)
  open Classical in if stopsFull lo (entries n eta) then none else some h'

/-- One pass of the loops of the Python programs for the depth (sw2d.py lines 239-249, sw2d_curved.py lines 271-286, sw2dquads.py lines 198-206). -/
noncomputable def passPy (n : ℕ) (rate : Field → Val × Field) (h : Field) : Option Field :=
  let h' : Field := fun j => h j + (rate h).1 * (rate h).2 j
  open Classical in if stopsPy (entries n h') then none else some h'

end Blitzdg.Breakdown
