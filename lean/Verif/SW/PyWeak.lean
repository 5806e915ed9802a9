import Verif.SW.PyRhs
import Verif.Ctx.Gauss

/-!
The right-hand side of the Python shallow water solver in weak form: swhelpers/rhs.py `sw2dComputeRHS_curved`, called by sw2d_curved.py.  Exact real arithmetic.  A division by zero gives `nan` or
`inf` in the code and 0 here; no claim is made about such states.  `np.float` of line 99 exists in NumPy before version 1.24 only.  The arrays `h`, `hu`, `hv`, `hN`, `zx`, `zy`, `J`, `CD` are
taken to have the shape of the grid; other shapes raise ValueError or are broadcast.
-/

namespace Blitzdg.SW

open Blitzdg.Sparse (DMat)
open Blitzdg.DG2D
open Blitzdg.Ctx (Cubature GaussFace)

/-- Entry `(i, k)` of `np.dot(A, u)`, `A` having one column for each node (swhelpers/rhs.py lines 8-11, 57-69). -/
noncomputable def Grid.dotAt (g : Grid) (A u : DMat ℝ) (i k : ℕ) : ℝ := ∑ j ∈ Finset.range g.np, A.at' i j * u.at' j k

/-- `cub_h`, `cub_hu`, `cub_hv`, `cub_hN` at point `i` of element `k` (swhelpers/rhs.py lines 8-11). -/
noncomputable def Grid.cubState (g : Grid) (c : Cubature) (q : Fields) (hN : DMat ℝ) (i k : ℕ) : Q4 := ⟨g.dotAt c.V q.h i k, g.dotAt c.V q.hu i k, g.dotAt c.V q.hv i k, g.dotAt c.V hN i k⟩

/-- `a.flatten('F')` of an array with one row for each Gauss point of an element (swhelpers/rhs.py lines 51-52, 57, 61, 65, 69). -/
def Grid.flatG (g : Grid) (ga : GaussFace) (a : ℕ → ℕ → ℝ) : List ℝ := flatF ⟨3 * ga.n, g.K, a⟩

/-- `hM, huM, hvM, hNM` or the same with `P` (swhelpers/rhs.py lines 57-71). -/
noncomputable def Grid.gaussSide (g : Grid) (ga : GaussFace) (q : Fields) (hN : DMat ℝ) (gmap : List ℕ) : Out (List Q4) := do
  let h ← pick (g.flatG ga (g.dotAt ga.interp q.h)) gmap
  let hu ← pick (g.flatG ga (g.dotAt ga.interp q.hu)) gmap
  let hv ← pick (g.flatG ga (g.dotAt ga.interp q.hv)) gmap
  let n ← pick (g.flatG ga (g.dotAt ga.interp hN)) gmap
  pure ((List.range gmap.length).map fun c => ⟨h.getD c 0, hu.getD c 0, hv.getD c 0, n.getD c 0⟩)

/-- `fluxh`, `fluxhu`, `fluxhv`, `fluxhN` (swhelpers/rhs.py lines 127-130 with 102-105) at one point. -/
noncomputable def pyFlux (grav nx ny lam : ℝ) (m p : Q4) : V4 where
  c1 := 0.5 * (((pyF grav m).c1 + (pyF grav p).c1) * nx + ((pyG grav m).c1 + (pyG grav p).c1) * ny + lam * (m.h - p.h))
  c2 := 0.5 * (((pyF grav m).c2 + (pyF grav p).c2) * nx + ((pyG grav m).c2 + (pyG grav p).c2) * ny + lam * (m.hu - p.hu))
  c3 := 0.5 * (((pyF grav m).c3 + (pyF grav p).c3) * nx + ((pyG grav m).c3 + (pyG grav p).c3) * ny + lam * (m.hv - p.hv))
  c4 := 0.5 * (((pyF grav m).c4 + (pyF grav p).c4) * nx + ((pyG grav m).c4 + (pyG grav p).c4) * ny + lam * (m.hN - p.hN))

/-- `ddr + dds` (swhelpers/rhs.py lines 20-45) for one of the four equations: `F`, `G` are the fluxes at the cubature points. -/
noncomputable def volTerm (c : Cubature) (F G : ℕ → ℕ → ℝ) (i k : ℕ) : ℝ :=
  (∑ p ∈ Finset.range c.n, c.Dr.at' p i * (c.W.at' p k * (c.rx.at' p k * F p k + c.ry.at' p k * G p k)))
    + ∑ p ∈ Finset.range c.n, c.Ds.at' p i * (c.W.at' p k * (c.sx.at' p k * F p k + c.sy.at' p k * G p k))

/-- `np.dot(interp, gauss_ctx.W*flux)` (swhelpers/rhs.py lines 132-136). -/
noncomputable def faceTerm (ga : GaussFace) (fl : DMat ℝ) (i k : ℕ) : ℝ := ∑ p ∈ Finset.range (3 * ga.n), ga.interp.at' p i * (ga.W.at' p k * fl.at' p k)

/-- `solve_triangular(a, b)` and `solve_triangular(a, b, trans='T')` of SciPy: size, matrix, whether transposed, right-hand side.  Raises `LinAlgError` for a singular matrix. -/
abbrev TriSolve := ℕ → DMat ℝ → Bool → (ℕ → ℝ) → Out (ℕ → ℝ)

/-- One pass of the loop of swhelpers/rhs.py lines 157-162 for one equation. -/
noncomputable def cholStep (ts : TriSolve) (g : Grid) (c : Cubature) (mm : ℕ → ℕ → ℝ) (R : DMat ℝ) (k : ℕ) : Out (DMat ℝ) :=
  if g.K ≤ k then .throws
  else do
    let y ← ts g.np (c.chol k) true fun i => mm i k
    let z ← ts g.np (c.chol k) false y
    pure { R with at' := fun i k' => if k' = k then z i else R.at' i k' }

/-- swhelpers/rhs.py lines 149-162 for one equation: `np.dot(V V^T, MMRHS/J)` in all elements, replaced in the curved ones by two triangular solves.  The order in which Python runs through the set
does not matter, as each pass writes its own column; the code takes the four equations in turn within each pass. -/
noncomputable def massSolve (ts : TriSolve) (g : Grid) (c : Cubature) (J : DMat ℝ) (curved : List ℕ) (mm : ℕ → ℕ → ℝ) : Out (DMat ℝ) :=
  loopM (cholStep ts g c mm) ⟨g.np, g.K, fun i k => ∑ j ∈ Finset.range g.np, (∑ l ∈ Finset.range g.np, g.o.V.at' i l * g.o.V.at' j l) * (mm j k / J.at' j k)⟩ curved.dedup

/-- swhelpers/rhs.py lines 6-176 `sw2dComputeRHS_curved`.  Index arrays of any other length than the number of Gauss points fail in `np.reshape`.  Arguments `H` and `cub_zx`, `cub_zy` do not enter
the result.  The velocities in the speeds are those before the reflection at walls. -/
noncomputable def Grid.rhsWeak (ts : TriSolve) (g : Grid) (c : Cubature) (ga : GaussFace) (grav f : ℝ) (CD zx zy J : DMat ℝ) (curved gmapM gmapP : List ℕ) (q : Fields) (hN : DMat ℝ) :
    Out (Fields × DMat ℝ) := do
  let mapW ← tagNodes ga.bc 3
  let nx := g.flatG ga ga.nx.at'
  let ny := g.flatG ga ga.ny.at'
  let m ← g.gaussSide ga q hN gmapM
  let p0 ← g.gaussSide ga q hN gmapP
  if m.length ≠ 3 * ga.n * g.K ∨ p0.length ≠ 3 * ga.n * g.K then .throws
  else do
    let p ← loopM (pyWall nx ny m) p0 mapW
    let lam := pyFaceMax ga.n (nodeSpeed grav m p0)
    let fl := (List.range (3 * ga.n * g.K)).map fun c => pyFlux grav (nx.getD c 0) (ny.getD c 0) (lam c) (m.getD c Q4.none) (p.getD c Q4.none)
    let F := fun i k => pyF grav (g.cubState c q hN i k)
    let G := fun i k => pyG grav (g.cubState c q hN i k)
    let r1 ← massSolve ts g c J curved fun i k => volTerm c (fun i k => (F i k).c1) (fun i k => (G i k).c1) i k - faceTerm ga (reshapeF (3 * ga.n) g.K (fl.map V4.c1)) i k
    let r2 ← massSolve ts g c J curved fun i k => volTerm c (fun i k => (F i k).c2) (fun i k => (G i k).c2) i k - faceTerm ga (reshapeF (3 * ga.n) g.K (fl.map V4.c2)) i k
    let r3 ← massSolve ts g c J curved fun i k => volTerm c (fun i k => (F i k).c3) (fun i k => (G i k).c3) i k - faceTerm ga (reshapeF (3 * ga.n) g.K (fl.map V4.c3)) i k
    let r4 ← massSolve ts g c J curved fun i k => volTerm c (fun i k => (F i k).c4) (fun i k => (G i k).c4) i k - faceTerm ga (reshapeF (3 * ga.n) g.K (fl.map V4.c4)) i k
    pure (
      { h := r1
        hu := { r2 with at' := fun i k => r2.at' i k + (sourcePy (CD.at' i k) f (q.at' i k)).1 - grav * q.h.at' i k * zx.at' i k }
        hv := { r3 with at' := fun i k => r3.at' i k + (sourcePy (CD.at' i k) f (q.at' i k)).2 - grav * q.h.at' i k * zy.at' i k } },
      r4)

/-- `J` of sw2d_curved.py lines 111-116, with the coordinates of the grid. -/
noncomputable def Grid.pyJ (g : Grid) : DMat ℝ :=
  ⟨g.np, g.K, fun i k => (g.deriv i k).xr * (g.deriv i k).ys - (g.deriv i k).xs * (g.deriv i k).yr⟩

end Blitzdg.SW
