import Verif.Basic
import Mathlib.Analysis.SpecialFunctions.Exp
import Mathlib.Analysis.SpecialFunctions.Log.Basic
import Mathlib.LinearAlgebra.Matrix.NonsingularInverse

/-!
Modal loops of the two-dimensional nodes provisioners: the numbering of the modes in the Vandermonde
matrices and in the exponential filter, and the filter matrix itself.

Simplifications: a column of the Vandermonde matrix is one value of an arbitrary type; reals are exact,
with `none` standing for NaN (the only non-finite value the filter code can produce from finite input).
-/

namespace Blitzdg.DG2D

/-- The iteration order of `for i in 0..N, for j in 0..N-i` (src/TriangleNodesProvisioner.cpp lines 426-427,
443-444, 531-532; src/QuadNodesProvisioner.cpp lines 186-187 in `buildFilter`). -/
def triPairs (N : Nat) : List (Nat × Nat) :=
  (List.range (N + 1)).flatMap fun i => (List.range (N - i + 1)).map fun j => (i, j)

/-- The iteration order of `for i in 0..N, for j in 0..N` (src/QuadNodesProvisioner.cpp lines 81-82, 97-98). -/
def quadPairs (N : Nat) : List (Nat × Nat) :=
  (List.range (N + 1)).flatMap fun i => (List.range (N + 1)).map fun j => (i, j)

/-- Loop body `A(.., count) = f(i, j); ++count` (src/TriangleNodesProvisioner.cpp lines 428-431, 446-450, 533-539).
Writing outside the allocated columns is undefined behaviour. -/
def modeStep {α : Type} (f : Nat → Nat → α) (s : Nat × List α) (p : Nat × Nat) : Out (Nat × List α) := do
  let cols ← wr s.2 s.1 (f p.1 p.2)
  pure (s.1 + 1, cols)

/-- The whole modal loop, started at `count = 0` on an array of columns `buf`
(src/TriangleNodesProvisioner.cpp lines 418-434, 436-454; src/QuadNodesProvisioner.cpp lines 79-89, 96-111). -/
def modeLoop {α : Type} (pairs : List (Nat × Nat)) (f : Nat → Nat → α) (buf : List α) : Out (Nat × List α) :=
  loopM (modeStep f) (0, buf) pairs

/-- Sum of doubles one of which may be NaN. -/
def nadd (a b : Option ℝ) : Option ℝ := a.bind fun x => b.map fun y => x + y

/-- Product of doubles one of which may be NaN (also `NaN * 0` is NaN). -/
def nmul (a b : Option ℝ) : Option ℝ := a.bind fun x => b.map fun y => x * y

/-- `blitz::sum` over an index. -/
def nsum (l : List (Option ℝ)) : Option ℝ := l.foldr nadd (some 0)

/-- `alpha = -log(epsilon)` with the double epsilon 2^-52 (src/TriangleNodesProvisioner.cpp line 520). -/
noncomputable def filterAlpha : ℝ := -Real.log ((2 : ℝ) ^ (-52 : ℤ))

/-- `std::exp(-alpha*std::pow(k,s))` where `k = num/den` (src/TriangleNodesProvisioner.cpp lines 534-535).
`0/0` is NaN, `pow(NaN, 0)` is 1, other powers of NaN are NaN, and `pow(0, s)` with `s < 0` is `+inf`, whose damping
factor is 0.  The code only reaches this with `0 ≤ num`, and `den = 0` only together with `num = 0`. -/
noncomputable def damping (num den : ℝ) (s : Int) : Option ℝ := by
  classical
  exact
    if den = 0 then (if s = 0 then some (Real.exp (-filterAlpha * 1)) else none)
    else if num / den = 0 ∧ s < 0 then some 0
    else some (Real.exp (-filterAlpha * (num / den) ^ s))

/-- Diagonal entry of the filter for a mode of total degree `n` (src/TriangleNodesProvisioner.cpp lines 533-538,
src/QuadNodesProvisioner.cpp lines 188-193). -/
noncomputable def filterCoef (N : Nat) (Nc : ℝ) (s : Int) (n : Nat) : Option ℝ := by
  classical
  exact if Nc ≤ (n : ℝ) then damping ((n : ℝ) - Nc) ((N : ℝ) - Nc) s else some 1

/-- `Fdiag` after the loop, as the list of its diagonal entries; it starts as zero
(src/TriangleNodesProvisioner.cpp lines 526-541, src/QuadNodesProvisioner.cpp lines 181-196).  Both provisioners run the
triangular loop; `np` is the number of local points. -/
noncomputable def filterDiag (np N : Nat) (Nc : ℝ) (s : Int) : Out (List (Option ℝ)) := do
  let r ← modeLoop (triPairs N) (fun i j => filterCoef N Nc s (i + j)) (List.replicate np (some 0))
  pure r.2

/-- Entry of the matrix `Fdiag`. -/
def diagAt (d : List (Option ℝ)) (i k : Nat) : Option ℝ := if i = k then d.getD i (some 0) else some 0

/-- `F = V (Fdiag Vinv)` evaluated with the two `blitz::sum`s of the code
(src/TriangleNodesProvisioner.cpp lines 543-546, src/QuadNodesProvisioner.cpp lines 198-201). -/
def filterMat {n : Nat} (d : List (Option ℝ)) (V Vinv : Matrix (Fin n) (Fin n) ℝ) : Fin n → Fin n → Option ℝ :=
  let tmp : Fin n → Fin n → Option ℝ := fun i j =>
    nsum ((List.finRange n).map fun (k : Fin n) => nmul (diagAt d i k) (some (Vinv k j)))
  fun i j => nsum ((List.finRange n).map fun (k : Fin n) => nmul (some (V i k)) (tmp k j))

/-- `buildFilter(Nc, s)` (src/TriangleNodesProvisioner.cpp lines 515-547, src/QuadNodesProvisioner.cpp lines 170-202). -/
noncomputable def buildFilter {np : Nat} (N : Nat) (Nc : ℝ) (s : Int) (V Vinv : Matrix (Fin np) (Fin np) ℝ) :
    Out (Fin np → Fin np → Option ℝ) := do
  let d ← filterDiag np N Nc s
  pure (filterMat d V Vinv)

end Blitzdg.DG2D
