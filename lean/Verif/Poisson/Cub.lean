import Verif.Poisson.Assemble
import Verif.Ctx.Gauss

/-!
The Poisson operator built from a Gauss face context and a cubature context: src/Poisson2DSparseMatrix.cpp lines 32-35 and 37-317.  Exact real arithmetic.

Array assignments are evaluated element by element over the extent of their left-hand side, rows outermost, without a temporary.
-/

namespace Blitzdg.Poisson

open Blitzdg.Sparse (DMat Triplet Csc mk0 cscOfTriplet)
open Blitzdg.DG2D
open Blitzdg.Ctx (GaussFace Cubature diagOf)

/-- `normFro` of a vector with `n` entries (include/LinAlgHelpers.hpp lines 71-74). -/
noncomputable def normFro (n : ℕ) (a : ℕ → ℝ) : ℝ := √(∑ i ∈ Finset.range n, a i * a i)

/-- `normMax` of an `m × n` matrix (include/LinAlgHelpers.hpp lines 87-90), `m, n ≥ 1`. -/
noncomputable def normMax (m n : ℕ) (a : ℕ → ℕ → ℝ) : ℝ := (Sparse.rowMajor m n).foldl (fun b ij => max b |a ij.1 ij.2|) 0

/-- `gVP = gVP(Range(n-1, 0, -1), Range::all())` (line 145): row after row, reading the array being written. -/
def reverseInPlace (n : ℕ) (a : ℕ → ℕ → ℝ) : ℕ → ℕ → ℝ := (List.range n).foldl (fun a i => fun i' j => if i' = i then a (n - 1 - i) j else a i' j) a

/-- `blitz::sum(A(ii, kk)*B(kk, jj), kk)` with `n` terms. -/
def msum (n : ℕ) (A B : ℕ → ℕ → ℝ) (i j : ℕ) : ℝ := ∑ k ∈ Finset.range n, A i k * B k j

/-- `blitz::sum(A(kk, ii)*B(kk, jj), kk)` with `n` terms. -/
def tsum (n : ℕ) (A B : ℕ → ℕ → ℝ) (i j : ℕ) : ℝ := ∑ k ∈ Finset.range n, A k i * B k j

/-- Derivatives of the map at point `i` (lines 97-101, 163-167, 199-203). -/
def derivAt (np : ℕ) (Dr Ds : ℕ → ℕ → ℝ) (x y : ℕ → ℝ) (i : ℕ) : Deriv where
  xr := ∑ j ∈ Finset.range np, Dr i j * x j
  xs := ∑ j ∈ Finset.range np, Ds i j * x j
  yr := ∑ j ∈ Finset.range np, Dr i j * y j
  ys := ∑ j ∈ Finset.range np, Ds i j * y j

/-- `rx = ys/J` and so on, with a Jacobian given separately (lines 105-108, 176-179, 211-214). -/
noncomputable def metricBy (d : Deriv) (J : ℝ) (a b : ℕ) : ℝ :=
  if a = 0 then (if b = 0 then d.ys / J else -d.xs / J) else if b = 0 then -d.yr / J else d.xr / J

/-- `gDx(i, j) = rx(i)*gDr(i, j) + sx(i)*gDs(i, j)` (`b = 0`) and `gDy` (`b = 1`); lines 114-119, 184-189, 219-224. -/
noncomputable def cart (d : ℕ → Deriv) (J : ℕ → ℝ) (Dr Ds : ℕ → ℕ → ℝ) (b i j : ℕ) : ℝ := metricBy (d i) (J i) 0 b * Dr i j + metricBy (d i) (J i) 1 b * Ds i j

variable (c : Ctx) (x y : ℕ → ℕ → ℝ)

/-- `cDx`, `cDy` (lines 84-119). -/
noncomputable def Ctx.cubCart (cc : Cubature) (k b i j : ℕ) : ℝ :=
  let iDr := msum c.Np cc.V.at' c.Dr
  let iDs := msum c.Np cc.V.at' c.Ds
  let d := derivAt c.Np iDr iDs (fun j => x j k) (fun j => y j k)
  cart d (fun i => jac (d i)) iDr iDs b i j

/-- The volume part of `OP11` (lines 121-128); `cW` is the diagonal matrix of lines 72-78. -/
noncomputable def Ctx.cubStiff (cc : Cubature) (k i j : ℕ) : ℝ :=
  let cW := (diagOf cc.n fun i => cc.W.at' i k).at'
  msum cc.n (tsum cc.n (c.cubCart x y cc k 0) cW) (c.cubCart x y cc k 0) i j + msum cc.n (tsum cc.n (c.cubCart x y cc k 1) cW) (c.cubCart x y cc k 1) i j

/-- Locals of one pass of the loop over the faces. -/
structure GFace where
  k2 : ℕ
  gVM : ℕ → ℕ → ℝ
  gVP : ℕ → ℕ → ℝ
  gw : ℕ → ℝ
  gDnM : ℕ → ℕ → ℝ
  gDnP : ℕ → ℕ → ℝ
  tau : ℝ

/-- Lines 130-262.  `gDr`, `gDs` have `NGauss` rows: the first `NGauss` rows of `gInterp*Dr`, whatever the face (lines 156-157); `J2` is computed from the derivatives on the own element (line 206);
`eps` is the machine epsilon.  Indices outside the arrays are undefined behaviour. -/
noncomputable def Ctx.gface (eps : ℝ) (gc : GaussFace) (k f : ℕ) : Out GFace := do
  let k2 ← rd c.E (c.nf * k + f)
  let f2 ← rd c.F (c.nf * k + f)
  if k2 < c.K ∧ f2 < c.nf then
    let NG := gc.n
    let gDr := msum c.Np gc.interp.at' c.Dr
    let gDs := msum c.Np gc.interp.at' c.Ds
    let d1 := derivAt c.Np gDr gDs (fun j => x j k) (fun j => y j k)
    let d2 := derivAt c.Np gDr gDs (fun j => x j k2) (fun j => y j k2)
    let J1 := fun i => jac (d1 i)
    let D1 := cart d1 J1 gDr gDs
    let D2 := cart d2 J1 gDr gDs
    if normFro NG J1 < 10 * eps then .throws
    else if normMax NG c.Np (D1 0) < 10 * eps ∨ normMax NG c.Np (D1 1) < 10 * eps then .throws
    else if normMax NG c.Np (D2 0) < 10 * eps ∨ normMax NG c.Np (D2 1) < 10 * eps then .throws
    else
      let gnx := fun i => gc.nx.at' (i + f * NG) k
      let gny := fun i => gc.ny.at' (i + f * NG) k
      pure { k2 := k2
             gVM := fun i j => gc.interp.at' (f * NG + i) j
             gVP := reverseInPlace NG fun i j => gc.interp.at' (f2 * NG + i) j
             gw := fun i => gc.W.at' (i + f * NG) k
             gDnM := fun i j => gnx i * D1 0 i j + gny i * D1 1 i j
             gDnP := fun i j => gnx i * D2 0 i j + gny i * D2 1 i j
             tau := (100 * 100 * 2 * (c.N + 1) * (c.N + 1) : ℕ) * max (c.fscale (f * c.nfp) k) (c.fscale (f2 * c.nfp) k2) }
  else .ub

/-- `weighted_gVM`, `weighted_gVP` (lines 264-269). -/
def GFace.wVM (F : GFace) (i j : ℕ) : ℝ := F.gw i * F.gVM i j
def GFace.wVP (F : GFace) (i j : ℕ) : ℝ := F.gw i * F.gVP i j

/-- What a Dirichlet face adds to `OP11` (lines 274-276). -/
def GFace.dirichlet (NG : ℕ) (F : GFace) (i j : ℕ) : ℝ := -tsum NG F.gDnM F.wVM i j - tsum NG F.gVM F.wVM i j + F.tau * tsum NG F.gVM F.wVM i j

/-- What an interior face adds to `OP11` (lines 283-285). -/
noncomputable def GFace.own (NG : ℕ) (F : GFace) (i j : ℕ) : ℝ := -(0.5 * tsum NG F.wVM F.gDnM i j) - 0.5 * tsum NG F.gDnM F.wVM i j + 0.5 * F.tau * tsum NG F.wVM F.gVM i j

/-- `OP12` (lines 288-291).  The sum of line 289 has no index argument, so it runs over all three indices and gives one number. -/
noncomputable def GFace.cross (np NG : ℕ) (F : GFace) (i j : ℕ) : ℝ :=
  -0.5 * F.tau * (∑ a ∈ Finset.range np, ∑ b ∈ Finset.range np, ∑ k ∈ Finset.range NG, F.wVM k a * F.gVP k b) - 0.5 * tsum NG F.wVM F.gDnP i j + 0.5 * tsum NG F.gDnM F.wVP i j

/-- One face (lines 130-301). -/
noncomputable def Ctx.gfaceStep (eps : ℝ) (gc : GaussFace) (k : ℕ) (st : (ℕ → ℕ → ℝ) × Triplet ℝ) (f : ℕ) : Out ((ℕ → ℕ → ℝ) × Triplet ℝ) := do
  let F ← c.gface x y eps gc k f
  let tag ← rd c.bc (c.nf * k + f)
  if tag = 6 then pure (fun i j => st.1 i j + F.dirichlet gc.n i j, st.2)
  else if tag = 7 ∨ tag = 3 then pure st
  else
    let t ← insertBlock c.Np k F.k2 (F.cross c.Np gc.n) st.2
    pure (fun i j => st.1 i j + F.own gc.n i j, t)

/-- One element (lines 57-312). -/
noncomputable def Ctx.cubElemStep (eps : ℝ) (gc : GaussFace) (cc : Cubature) (t : Triplet ℝ × Triplet ℝ) (k : ℕ) : Out (Triplet ℝ × Triplet ℝ) := do
  let (A, op) ← loopM (c.gfaceStep x y eps gc k) (c.cubStiff x y cc k, t.1) (List.range c.nf)
  insertBoth c.Np k A (cc.MM k).at' (op, t.2)

/-- src/Poisson2DSparseMatrix.cpp lines 37-317: `OP_` and `MM_`. -/
noncomputable def Ctx.cubBuild (eps : ℝ) (gc : GaussFace) (cc : Cubature) : Out (Csc ℝ × Csc ℝ) := do
  let mm ← allocTriplet (c.Np * c.K) (c.Np * c.Np * c.K)
  let op ← allocTriplet (c.Np * c.K) ((1 + c.nf) * c.Np * c.Np * c.K)
  let t ← loopM (c.cubElemStep x y eps gc cc) (op, mm) (List.range c.K)
  let op ← cscOfTriplet t.1
  let mm ← cscOfTriplet t.2
  pure (op, mm)

/-- The constructor with two contexts (lines 32-35) on a triangle grid. -/
noncomputable def cubOperator (eps : ℝ) (g : SW.Grid) (m : SW.Mesh) (gc : GaussFace) (cc : Cubature) : Out (Csc ℝ × Csc ℝ) :=
  (ctxOf g m).cubBuild (fun i k => SW.gridX (g.tri k) g.n i) (fun i k => SW.gridY (g.tri k) g.n i) eps gc cc

end Blitzdg.Poisson
