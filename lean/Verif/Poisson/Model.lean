import Verif.SW.Disc
import Verif.Sparse.Csc

/-!
The DG Poisson operator on triangles and quadrilaterals: src/Poisson2DSparseMatrix.cpp `buildPoissonOperator` (lines 590-848), `buildBcRhs` (lines 319-487) and
`buildSEMPoissonOperator` (lines 493-588).  Exact real arithmetic.

Simplifications: the parameter `skipDG` is `0`, the only value passed (line 25); `100*100*2*(N+1)*(N+1)` is a natural number (an `int` in the code); entries of `Fmask` are node numbers;
arrays the code fills before reading start at zero; the unused objects `nodes1d`, `entries`, `standardFaces`, `edge4` are left out.
-/

namespace Blitzdg.Poisson

open Blitzdg.Sparse (DMat Triplet Csc mk0 insert rowMajor cscOfTriplet)
open Blitzdg.Nodes1D (Lapack vandermonde trans)
open Blitzdg.Blitz (mset reshapeMatTo1D)
open Blitzdg.DG2D
open Blitzdg.SW (Grid Mesh zeros)

/-- What the assembly reads from `DGContext2D` and `MeshManager` (src/Poisson2DSparseMatrix.cpp lines 591-623, 638-639). -/
structure Ctx where
  N : ℕ
  Np : ℕ
  K : ℕ
  nf : ℕ
  nfp : ℕ
  r : List ℝ
  s : List ℝ
  fm : ℕ → ℕ → ℕ
  Vinv : ℕ → ℕ → ℝ
  Dr : ℕ → ℕ → ℝ
  Ds : ℕ → ℕ → ℝ
  rx : ℕ → ℕ → ℝ
  ry : ℕ → ℕ → ℝ
  sx : ℕ → ℕ → ℝ
  sy : ℕ → ℕ → ℝ
  J : ℕ → ℕ → ℝ
  nx : ℕ → ℕ → ℝ
  ny : ℕ → ℕ → ℝ
  fscale : ℕ → ℕ → ℝ
  vmapM : List ℕ
  vmapP : List ℕ
  E : List ℕ
  F : List ℕ
  bc : List Int

/-- The context of a triangle provisioner (src/TriangleNodesProvisioner.cpp lines 1364-1396) and its mesh. -/
noncomputable def ctxOf (g : Grid) (m : Mesh) : Ctx where
  N := g.N
  Np := g.np
  K := g.K
  nf := 3
  nfp := g.N + 1
  r := g.n.r
  s := g.n.s
  fm := g.n.mask
  Vinv := g.o.Vinv.at'
  Dr := g.o.d.Dr.at'
  Ds := g.o.d.Ds.at'
  rx := fun i k => metric (g.deriv i k) 0 0
  ry := fun i k => metric (g.deriv i k) 0 1
  sx := fun i k => metric (g.deriv i k) 1 0
  sy := fun i k => metric (g.deriv i k) 1 1
  J := fun i k => jac (g.deriv i k)
  nx := g.nx.at'
  ny := g.ny.at'
  fscale := g.fscale
  vmapM := g.maps.vmapM
  vmapP := g.maps.vmapP
  E := m.E
  F := m.F
  bc := m.bcType

variable (c : Ctx)

/-- `MassMatrix = sum(Vinv(kk,ii)*Vinv(kk,jj), kk)` (line 621). -/
def Ctx.mass (i j : ℕ) : ℝ := ∑ k ∈ Finset.range c.Np, c.Vinv k i * c.Vinv k j

/-- `massEdge(Fmask(i, f), Fmask(j, f), f) = myTemp(i, j)` (lines 666-670 and likewise 678-682, 690-694). -/
def fillEdge (nfp : ℕ) (fm : ℕ → ℕ) (T M : DMat ℝ) : DMat ℝ :=
  (rowMajor nfp nfp).foldl (fun M ij => mset M (fm ij.1) (fm ij.2) (T.at' ij.1 ij.2)) M

/-- One slice of `massEdge` (lines 659-670 for `f = 0`, 672-682 for `f = 1`, 684-694 for `f = 2`; the same in lines 369-404): coordinates along the face, `computeVandermondeMatrix`
(include/VandermondeBuilders.hpp lines 36-63, which throws when the matrix is singular), `Vinv'*Vinv`, scatter.  Coordinate `r` on faces 0 and 1, `s` on face 2, whatever the element. -/
noncomputable def Ctx.edgeMass (la : Lapack) (f : ℕ) : Out (DMat ℝ) := do
  let t := faceCoords c.nfp c.fm triOnS c.r c.s f
  let Vi ← invertInto la (vandermonde t t.length) t.length t.length
  pure (fillEdge c.nfp (fun i => c.fm i f) (mul (trans Vi) Vi) (fresh c.Np c.Np))

/-- `massEdge` (lines 625-694).  The slice of a fourth face stays zero. -/
noncomputable def Ctx.massEdge (la : Lapack) : Out (ℕ → DMat ℝ) := do
  let M0 ← c.edgeMass la 0
  let M1 ← c.edgeMass la 1
  let M2 ← c.edgeMass la 2
  pure fun f => if f = 0 then M0 else if f = 1 then M1 else if f = 2 then M2 else fresh c.Np c.Np

/-- `Dx = rx(0, k)*Dr + sx(0, k)*Ds` and `Dy` (lines 717-718, 755-756, 417-418, 448-449). -/
def Ctx.dx (k i j : ℕ) : ℝ := c.rx 0 k * c.Dr i j + c.sx 0 k * c.Ds i j
def Ctx.dy (k i j : ℕ) : ℝ := c.ry 0 k * c.Dr i j + c.sy 0 k * c.Ds i j

/-- `n` consecutive entries of an index array, from position `a`. -/
def slice (l : List ℕ) (a n : ℕ) : Out (List ℕ) := if a + n ≤ l.length then .ok ((l.drop a).take n) else .ub

/-- Locals of one pass of the loop over the faces. -/
structure Face where
  k2 : ℕ
  Fm1 : List ℕ
  Fm2 : List ℕ
  mmE : ℕ → ℕ → ℝ
  Dn1 : ℕ → ℕ → ℝ
  Dn2 : ℕ → ℕ → ℝ
  tau : ℝ

/-- Lines 731-765 (and 421-462): neighbour, nodes on both sides, normal, face Jacobian, penalty, normal derivatives, face mass.  `Fm1(1)` is read whatever the number of face points. -/
noncomputable def Ctx.face (ME : ℕ → DMat ℝ) (k f : ℕ) : Out Face := do
  let k2 ← rd c.E (c.nf * k + f)
  let f2 ← rd c.F (c.nf * k + f)
  let vidM ← slice c.vmapM (c.nfp * c.nf * k + f * c.nfp) c.nfp
  let vidP ← slice c.vmapP (c.nfp * c.nf * k + f * c.nfp) c.nfp
  let Fm1 := vidM.map (· % c.Np)
  let Fm2 := vidP.map (· % c.Np)
  let i1 ← rd Fm1 1
  if k2 < c.K ∧ f2 < c.nf then
    let lnx := c.nx (f * c.nfp) k
    let lny := c.ny (f * c.nfp) k
    let lsJ := c.fscale (f * c.nfp) k * c.J i1 k
    let hinv := max (c.fscale (f * c.nfp) k) (c.fscale (f2 * c.nfp) k2)
    .ok { k2 := k2
          Fm1 := Fm1
          Fm2 := Fm2
          mmE := fun i j => lsJ * (ME f).at' i j
          Dn1 := fun i j => lnx * c.dx k i j + lny * c.dy k i j
          Dn2 := fun i j => lnx * c.dx k2 i j + lny * c.dy k2 i j
          tau := (100 * 100 * 2 * (c.N + 1) * (c.N + 1) : ℕ) * hinv }
  else .ub

/-- `A(i, j) += x`. -/
def madd (A : DMat ℝ) (i j : ℕ) (x : ℝ) : DMat ℝ := mset A i j (A.at' i j + x)

/-- `gtau*mmE - sum(mmE(ii,kk)*Dn1(kk,jj), kk) - sum(Dn1(kk,ii)*mmE(kk,jj), kk)` (lines 771 and 778). -/
def Face.own (n : ℕ) (F : Face) (i j : ℕ) : ℝ :=
  F.tau * F.mmE i j - ∑ k ∈ Finset.range n, F.mmE i k * F.Dn1 k j - ∑ k ∈ Finset.range n, F.Dn1 k i * F.mmE k j

/-- `prod1 = sum(mmE_Fm1Fm1(ii, kk)*Dn2_Fm2(kk, jj), kk)` (lines 795-806). -/
def Face.prod1 (F : Face) (nfp j i : ℕ) : ℝ := ∑ k ∈ Finset.range nfp, F.mmE (F.Fm1.getD j 0) (F.Fm1.getD k 0) * F.Dn2 (F.Fm2.getD k 0) i

/-- `prod2 = sum(-Dn1(kk, ii)*mmE_Fm1(kk, jj), kk)` (line 807). -/
def Face.prod2 (F : Face) (np i j : ℕ) : ℝ := ∑ k ∈ Finset.range np, -F.Dn1 k i * F.mmE k (F.Fm1.getD j 0)

/-- `OP12` (lines 780-814). -/
noncomputable def Face.cross (np nfp : ℕ) (F : Face) : DMat ℝ :=
  let A := (rowMajor np nfp).foldl (fun A ij => madd A ij.1 (F.Fm2.getD ij.2 0) (-(0.5 * (F.tau * F.mmE ij.1 (F.Fm1.getD ij.2 0))))) (fresh np np)
  (rowMajor np nfp).foldl (fun A ij =>
    madd (madd A (F.Fm1.getD ij.2 0) ij.1 (-0.5 * F.prod1 nfp ij.2 ij.1)) ij.1 (F.Fm2.getD ij.2 0) (-0.5 * F.prod2 np ij.1 ij.2)) A

/-- `OP.insert(rows1(i, j), cols2(i, j), B(i, j))` for all `i`, `j` (lines 816-820): rows of element `k`, columns of element `k2`. -/
def insertBlock (np k k2 : ℕ) (B : ℕ → ℕ → ℝ) (t : Triplet ℝ) : Out (Triplet ℝ) :=
  loopM (fun t ij => insert 0 t ((ij.1 + np * k : ℕ) : Int) ((ij.2 + np * k2 : ℕ) : Int) (B ij.1 ij.2)) t (rowMajor np np)

/-- One face (lines 730-824): `OP11` and the triplet are updated according to the boundary tag (6 Dirichlet, 7 Neuman, 3 Wall; include/BCtypes.hpp). -/
noncomputable def Ctx.faceStep (ME : ℕ → DMat ℝ) (k : ℕ) (st : (ℕ → ℕ → ℝ) × Triplet ℝ) (f : ℕ) : Out ((ℕ → ℕ → ℝ) × Triplet ℝ) := do
  let F ← c.face ME k f
  let tag ← rd c.bc (c.nf * k + f)
  if tag = 6 then pure (fun i j => st.1 i j + F.own c.Np i j, st.2)
  else if tag = 7 ∨ tag = 3 then pure st
  else
    let t ← insertBlock c.Np k F.k2 (F.cross c.Np c.nfp).at' st.2
    pure (fun i j => st.1 i j + 0.5 * F.own c.Np i j, t)

/-- Volume part of `OP11` (lines 720-727). -/
def Ctx.stiff (k i j : ℕ) : ℝ :=
  ((∑ b ∈ Finset.range c.Np, (∑ a ∈ Finset.range c.Np, c.dx k a i * c.mass a b) * c.dx k b j)
    + ∑ b ∈ Finset.range c.Np, (∑ a ∈ Finset.range c.Np, c.dy k a i * c.mass a b) * c.dy k b j) * c.J 0 k

/-- Lines 826-832: the diagonal blocks go into both matrices, entry by entry. -/
def insertBoth (np k : ℕ) (A M : ℕ → ℕ → ℝ) (t : Triplet ℝ × Triplet ℝ) : Out (Triplet ℝ × Triplet ℝ) :=
  loopM (fun t ij => do
    let op ← insert 0 t.1 ((ij.1 + np * k : ℕ) : Int) ((ij.2 + np * k : ℕ) : Int) (A ij.1 ij.2)
    let mm ← insert 0 t.2 ((ij.1 + np * k : ℕ) : Int) ((ij.2 + np * k : ℕ) : Int) (M ij.1 ij.2)
    pure (op, mm)) t (rowMajor np np)

/-- One element (lines 710-835). -/
noncomputable def Ctx.elemStep (ME : ℕ → DMat ℝ) (t : Triplet ℝ × Triplet ℝ) (k : ℕ) : Out (Triplet ℝ × Triplet ℝ) := do
  let (A, op) ← loopM (c.faceStep ME k) (c.stiff k, t.1) (List.range c.nf)
  insertBoth c.Np k A (fun i j => c.J 0 k * c.mass i j) (op, t.2)

/-- `SparseTriplet(rows, rows, nz)` (lines 702-703): the sizes are `int` products, undefined when they overflow. -/
def allocTriplet (rows nz : ℕ) : Out (Triplet ℝ) := if nz ≤ intMax ∧ rows ≤ intMax then .ok (mk0 0 rows rows nz) else .ub

/-- The border of ones (lines 837-843). -/
def border (dof : ℕ) (t : Triplet ℝ) : Out (Triplet ℝ) :=
  loopM (fun t k => do
    let t ← insert 0 t (dof : Int) ((k : ℕ) : Int) 1
    insert 0 t ((k : ℕ) : Int) (dof : Int) 1) t (List.range dof)

/-- The two triplets, before compression (lines 590-843). -/
noncomputable def Ctx.assemble (la : Lapack) (bordered : Bool) : Out (Triplet ℝ × Triplet ℝ) :=
  if c.nf = 3 ∨ c.nf = 4 then do
    let ME ← c.massEdge la
    let inc := if bordered then 1 else 0
    let mm ← allocTriplet (c.Np * c.K) (c.Np * c.Np * c.K)
    let op ← allocTriplet (c.Np * c.K + inc) ((1 + c.nf) * c.Np * c.Np * c.K + inc * 2 * (c.Np * c.K))
    let t ← loopM (c.elemStep ME) (op, mm) (List.range c.K)
    let op ← if bordered then border (c.Np * c.K) t.1 else .ok t.1
    pure (op, t.2)
  else .throws

/-- src/Poisson2DSparseMatrix.cpp lines 590-848 `buildPoissonOperator`: `OP_` and `MM_`. -/
noncomputable def Ctx.build (la : Lapack) (bordered : Bool) : Out (Csc ℝ × Csc ℝ) := do
  let t ← c.assemble la bordered
  let op ← cscOfTriplet t.1
  let mm ← cscOfTriplet t.2
  pure (op, mm)

/-- The two matrices a `Poisson2DSparseMatrix` holds, and the getters of include/Poisson2DSparseMatrix.hpp lines 35-36. -/
structure Held where
  OP_ : Csc ℝ
  MM_ : Csc ℝ

/-- include/Poisson2DSparseMatrix.hpp line 35. -/
def Held.getMM (h : Held) : Csc ℝ := h.OP_
/-- include/Poisson2DSparseMatrix.hpp line 36. -/
def Held.getOP (h : Held) : Csc ℝ := h.MM_

/-- `(gtau*mmE(:,Fm1) - Dn1'*mmE(:,Fm1))*ubcf1` (lines 472-476). -/
def Face.dirichlet (np nfp : ℕ) (F : Face) (u : ℕ → ℝ) (i : ℕ) : ℝ :=
  ∑ j ∈ Finset.range nfp, (-(∑ k ∈ Finset.range np, F.Dn1 k i * F.mmE k (F.Fm1.getD j 0)) + F.tau * F.mmE i (F.Fm1.getD j 0)) * u j

/-- `mmE(:,Fm1)*qbcf1` (line 480). -/
def Face.neumann (nfp : ℕ) (F : Face) (q : ℕ → ℝ) (i : ℕ) : ℝ := ∑ j ∈ Finset.range nfp, F.mmE i (F.Fm1.getD j 0) * q j

/-- One face of `buildBcRhs` (lines 420-484) on the column of the current element. -/
noncomputable def Ctx.rhsStep (ME : ℕ → DMat ℝ) (ubc qbc : List ℝ) (k : ℕ) (b : ℕ → ℝ) (f : ℕ) : Out (ℕ → ℝ) := do
  let F ← c.face ME k f
  let off := c.nfp * c.nf * k + f * c.nfp
  if off + c.nfp ≤ ubc.length ∧ off + c.nfp ≤ qbc.length then
    let tag ← rd c.bc (c.nf * k + f)
    if tag = 6 then pure fun i => b i + F.dirichlet c.Np c.nfp (fun j => ubc.getD (off + j) 0) i
    else if tag = 7 ∨ tag = 3 then pure fun i => b i + F.neumann c.nfp (fun j => qbc.getD (off + j) 0) i
    else pure b
  else .ub

/-- src/Poisson2DSparseMatrix.cpp lines 319-487 `buildBcRhs`: `ubc` and `qbc` are flattened column by column into arrays of `Nfp*Nfaces*K` and `Np*Nfaces*K` entries (lines 406-410). -/
noncomputable def Ctx.buildBcRhs (la : Lapack) (ubc qbc : DMat ℝ) : Out (DMat ℝ) := do
  let ME ← c.massEdge la
  let u ← reshapeMatTo1D ubc (zeros (c.nfp * c.nf * c.K)) false
  let q ← reshapeMatTo1D qbc (zeros (c.Np * c.nf * c.K)) false
  loopM (fun b k => do
    let col ← loopM (c.rhsStep ME u q k) (fun i => b.at' i k) (List.range c.nf)
    pure { b with at' := fun i j => if j = k then col i else b.at' i j }) (fresh c.Np c.K) (List.range c.K)

end Blitzdg.Poisson
