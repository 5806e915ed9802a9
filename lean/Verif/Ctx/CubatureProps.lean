import Verif.Ctx.Model
import Verif.Ctx.Phys
import Verif.Cub.Props
import Verif.Dense.CholProps
import Verif.SW.MassProps

/-! C93: the cubature context of a triangle grid. -/

namespace Blitzdg.Ctx

open MvPolynomial
open Blitzdg.Sparse (DMat)
open Blitzdg.Nodes1D (Lapack uncaught trans)
open Blitzdg.Dense
open Blitzdg.DG2D
open Blitzdg.SW

/-! ### Specification -/

/-- Value of `u` at node `j` of element `k`. -/
noncomputable def atNode (g : Grid) (u : P2) (k j : ℕ) : ℝ := ev (gridX (g.tri k) g.n j) (gridY (g.tri k) g.n j) u

/-- Value of `u` at cubature point `i` of element `k`. -/
noncomputable def atPoint (c : Cubature) (u : P2) (k i : ℕ) : ℝ := ev (c.x.at' i k) (c.y.at' i k) u

/-- Integral of `u` over the triangle `T` (counter-clockwise corners): the integral over the reference triangle times the Jacobian of the map. -/
noncomputable def over (T : Tri) (u : P2) : ℝ := cross T / 4 * integ triInt (pull T u)

/-- Size of a polynomial on an element: the sum of the absolute values of its coefficients in the reference coordinates. -/
noncomputable def size (T : Tri) (u : P2) : ℝ := ∑ m ∈ (pull T u).support, |(pull T u).coeff m|

/-- What a cubature context has to provide.  `u`, `v` are polynomials in the coordinates of the plane. -/
structure CubatureSpec (g : Grid) (NCubature : ℕ) (c : Cubature) : Prop where
  /-- The points lie inside their elements: at the images of the points of the rule, which lie inside the reference triangle ... -/
  place : ∀ i < c.n, ∀ k < g.K, c.x.at' i k = triCoord (g.tri k).xa (g.tri k).xb (g.tri k).xc (c.r.getD i 0) (c.s.getD i 0) ∧
    c.y.at' i k = triCoord (g.tri k).ya (g.tri k).yb (g.tri k).yc (c.r.getD i 0) (c.s.getD i 0)
  inside : ∀ i < c.n, -1 < c.r.getD i 0 ∧ -1 < c.s.getD i 0 ∧ c.r.getD i 0 + c.s.getD i 0 < 0
  /-- ... and have positive weights. -/
  pos : ∀ i < c.n, ∀ k < g.K, 0 < c.W.at' i k
  /-- `V` takes nodal values to values at the points. -/
  interp : ∀ u : P2, u.totalDegree ≤ g.N → ∀ i < c.n, ∀ k < g.K, ∑ j ∈ Finset.range g.np, c.V.at' i j * atNode g u k j = atPoint c u k i
  /-- The derivative matrices and the metric terms together take nodal values to derivatives at the points. -/
  gradx : ∀ u : P2, u.totalDegree ≤ g.N → ∀ i < c.n, ∀ k < g.K,
    ∑ j ∈ Finset.range g.np, (c.rx.at' i k * c.Dr.at' i j + c.sx.at' i k * c.Ds.at' i j) * atNode g u k j = atPoint c (pderiv 0 u) k i
  grady : ∀ u : P2, u.totalDegree ≤ g.N → ∀ i < c.n, ∀ k < g.K,
    ∑ j ∈ Finset.range g.np, (c.ry.at' i k * c.Dr.at' i j + c.sy.at' i k * c.Ds.at' i j) * atNode g u k j = atPoint c (pderiv 1 u) k i
  /-- The weights integrate polynomials up to degree `NCubature` over the element. -/
  quad : ∀ u : P2, u.totalDegree ≤ NCubature → ∀ k < g.K, |∑ i ∈ Finset.range c.n, c.W.at' i k * atPoint c u k i - over (g.tri k) u| ≤ 2e-14 * (cross (g.tri k) / 4 * size (g.tri k) u)
  /-- The mass matrix gives the cubature of products. -/
  mass : ∀ u v : P2, u.totalDegree ≤ g.N → v.totalDegree ≤ g.N → ∀ k < g.K,
    ∑ i ∈ Finset.range g.np, ∑ j ∈ Finset.range g.np, atNode g u k i * ((c.MM k).at' i j * atNode g v k j) = ∑ i ∈ Finset.range c.n, c.W.at' i k * (atPoint c u k i * atPoint c v k i)
  sym : ∀ k < g.K, ∀ i j, (c.MM k).at' i j = (c.MM k).at' j i
  /-- The stored factor is upper triangular and is a factor of the mass matrix. -/
  upper : ∀ k < g.K, ∀ i < g.np, ∀ j < i, (c.chol k).at' i j = 0
  factor : ∀ k < g.K, ∀ i < g.np, ∀ j < g.np, ∑ l ∈ Finset.range g.np, (c.chol k).at' l i * (c.chol k).at' l j = (c.MM k).at' i j

/-- What is asked of `dsgesv`: it solves systems with nonsingular matrices.  Nothing is said about singular ones. -/
structure GesvSolves (dsgesv : ℕ → ℕ → List ℝ → List ℝ → Int × List ℝ) : Prop where
  len : ∀ n m a b, a.length = n * n → b.length = n * m → (dsgesv n m a b).2.length = n * m
  solves : ∀ n m a b, a.length = n * n → b.length = n * m → 0 < n → IsUnit (colMat n n a) → (dsgesv n m a b).1 = 0 ∧ colMat n n a * colMat n m (dsgesv n m a b).2 = colMat n m b

theorem solves_of_ok {dsgesv : ℕ → ℕ → List ℝ → List ℝ → Int × List ℝ} (h : GesvOk dsgesv) : GesvSolves dsgesv :=
  ⟨h.len, fun n m a b la lb h0 hu => have := (h.complete n m a b la lb).2 ⟨h0, hu⟩; ⟨this, h.sound n m a b la lb this⟩⟩

/-! ### Pieces -/

theorem solve_weak {la : Lapack} (hla : GesvSolves la.dsgesv) (A B : DMat ℝ) (n m : ℕ) (h0 : 0 < n) (hA : A.rows = n ∧ A.cols = n) (hB : B.rows = n ∧ B.cols = m)
    (hu : IsUnit (toMat A n n)) : ∃ X, solveInto la A B n m = .ok X ∧ toMat A n n * toMat X n m = toMat B n m := by
  obtain ⟨a, ha, lena, ea⟩ := load A n n hA.1 hA.2
  obtain ⟨b, hb, lenb, eb⟩ := load B n m hB.1 hB.2
  obtain ⟨hi, hs⟩ := hla.solves n m a b lena lenb h0 (by rw [ea]; exact hu)
  obtain ⟨X', hx, r, c, ex⟩ := store (la.dsgesv n m a b).2 (fresh n m) n m rfl rfl (hla.len n m a b lena lenb)
  refine ⟨X', ?_, by rw [ex, ← ea, ← eb]; exact hs⟩
  unfold solveInto directSolve
  simp only [hA.1, hB.2, ha, hb, Out.bind_ok]
  rw [if_neg (by omega), if_neg (by omega), hx]
  rfl

theorem written_map {α : Type} (l : List α) (f : α → ℝ) : written (l.map fun q => some (f q)) = .ok (l.map f) := by
  induction l with
  | nil => rfl
  | cons a l ih => simp [written, ih]

theorem written_none {α : Type} (l : List α) (f : α → ℝ) : written ((l.map fun q => some (f q)) ++ [none]) = .ub := by
  induction l with
  | nil => rfl
  | cons a l ih => simp [written, ih]

/-- When the points can be read the rule is one of the good ones. -/
theorem rule_ok {NC : ℤ} {n : ℕ} {r s w : List ℝ} (hn : Cub.numPoints NC = .ok n) (hr : (Cub.rCoord NC >>= written) = .ok r) (hs : (Cub.sCoord NC >>= written) = .ok s)
    (hw : (Cub.weights NC >>= written) = .ok w) :
    ∃ pts, Cub.Works NC pts ∧ n = pts.length ∧ r = pts.map (fun q => q.1) ∧ s = pts.map (fun q => q.2.1) ∧ w = pts.map (fun q => q.2.2) := by
  by_cases h1 : 1 ≤ NC ∧ NC ≤ 28
  swap
  · have := (Cub.C58_range NC (by omega)).1
    rw [this] at hn
    cases hn
  by_cases h2 : NC = 3 ∨ NC = 4
  · obtain ⟨five, -, -, h, -⟩ := Cub.C58_corrupt NC h2
    rw [h, Out.bind_ok, written_none] at hr
    cases hr
  · obtain ⟨pts, h⟩ := Cub.C58_rules_partial NC h1.1 h1.2 (by omega) (by omega)
    refine ⟨pts, h, ?_, ?_, ?_, ?_⟩
    · rw [h.count] at hn
      injection hn with hn
      exact hn.symm
    · rw [h.r, Out.bind_ok, written_map] at hr
      injection hr with hr
      exact hr.symm
    · rw [h.s, Out.bind_ok, written_map] at hs
      injection hs with hs
      exact hs.symm
    · rw [h.w, Out.bind_ok, written_map] at hw
      injection hw with hw
      exact hw.symm

theorem getD_map {α : Type} (l : List α) (f : α → ℝ) (i : ℕ) (h : i < l.length) : (l.map f).getD i 0 = f l[i] := by
  rw [List.getD_eq_getElem _ _ (by simpa using h), List.getElem_map]

theorem sum_list {α : Type} (l : List α) (f : α → ℝ) : (l.map f).sum = ∑ i ∈ Finset.range l.length, (l.map f).getD i 0 := by
  induction l with
  | nil => simp
  | cons a l ih =>
    rw [List.map_cons, List.sum_cons, ih, List.length_cons, Finset.sum_range_succ']
    simp [add_comm]

/-- Collecting results in a list. -/
theorem collect {α : Type} (f : ℕ → Out α) (K : ℕ) (l : List α) (h : loopM (fun l k => f k >>= fun U => pure (l ++ [U])) [] (List.range K) = .ok l) :
    l.length = K ∧ ∀ k < K, ∀ d, f k = .ok (l.getD k d) := by
  induction K generalizing l with
  | zero =>
    simp only [List.range_zero, loopM_nil, Out.ok.injEq] at h
    subst h
    simp
  | succ K ih =>
    rw [List.range_succ, loopM_append] at h
    obtain ⟨l', h1, h2⟩ := Out.bind_eq_ok.1 h
    obtain ⟨i1, i2⟩ := ih l' h1
    rw [loopM_cons] at h2
    obtain ⟨l'', h3, h4⟩ := Out.bind_eq_ok.1 h2
    obtain ⟨U, h5, h6⟩ := Out.bind_eq_ok.1 h3
    simp only [Out.pure_eq, Out.ok.injEq, loopM_nil] at h6 h4
    subst h4 h6
    refine ⟨by simp [i1], fun k hk d => ?_⟩
    by_cases hlt : k < K
    · rw [List.getD_append _ _ _ _ (by omega)]
      exact i2 k hlt d
    · obtain rfl : k = K := by omega
      rw [List.getD_append_right _ _ _ _ (by omega), i1]
      simpa using h5

theorem collect_ok {α : Type} (f : ℕ → Out α) (K : ℕ) (h : ∀ k < K, ∃ U, f k = .ok U) : ∃ l, loopM (fun l k => f k >>= fun U => pure (l ++ [U])) [] (List.range K) = .ok l := by
  induction K with
  | zero => exact ⟨[], rfl⟩
  | succ K ih =>
    obtain ⟨l, hl⟩ := ih fun k hk => h k (by omega)
    obtain ⟨U, hU⟩ := h K (by omega)
    exact ⟨l ++ [U], by rw [List.range_succ, loopM_append, hl, Out.bind_ok, loopM_cons, hU]; rfl⟩

variable {P : ℕ → ℕ} {x : List ℝ} {bt : List Int} {g : Grid} {la : Lapack} {dpotrf : ℕ → List ℝ → Int × List ℝ}

theorem atNode_eq (g : Grid) (u : P2) (k j : ℕ) : atNode g u k j = nodal g.n.r g.n.s (pull (g.tri k) u) j := by
  unfold atNode nodal gridX gridY
  rw [ev_pull]

theorem np_pos (g : Grid) : 0 < g.np := by
  unfold Grid.np
  have : 2 ≤ (g.N + 1) * (g.N + 2) := by nlinarith
  omega

theorem unit_V (hg : GridSpec P x bt g) : IsUnit (toMat g.o.V g.np g.np) := by
  rw [hg.vand]
  exact ⟨⟨_, _, mul_eq_one_comm.1 hg.unisolvent, hg.unisolvent⟩, rfl⟩

theorem shape_V (hg : GridSpec P x bt g) : g.o.V.rows = g.np ∧ g.o.V.cols = g.np := by
  rw [hg.vand]
  exact ⟨hg.nodes, triPairs_length _⟩

/-- The derivative matrices between the nodes and other points, once built, are exact. -/
theorem deriv_exact (hg : GridSpec P x bt g) (hla : GesvSolves la.dsgesv) (r s : List ℝ) (hreg : AllReg Regular r s) (Vc : DMat ℝ) (d : Diff)
    (h : diffMatrices la (modeMatrix (triPairs g.N) triModeR r s) (modeMatrix (triPairs g.N) triModeS r s) g.o.V Vc = .ok d) (p : P2) (hp : TriSpace g.N p) (i : ℕ) (hi : i < r.length) :
    ∑ j ∈ Finset.range g.np, d.Dr.at' i j * nodal g.n.r g.n.s p j = nodal r s (pderiv 0 p) i ∧
    ∑ j ∈ Finset.range g.np, d.Ds.at' i j * nodal g.n.r g.n.s p j = nodal r s (pderiv 1 p) i := by
  have hM := triModal g.N
  have sV := shape_V hg
  have hut : IsUnit (toMat (trans g.o.V) g.np g.np) := by rw [toMat_trans]; exact (Matrix.isUnit_transpose _).2 (unit_V hg)
  have sh : ∀ f, (trans (modeMatrix (triPairs g.N) f r s)).rows = g.np ∧ (trans (modeMatrix (triPairs g.N) f r s)).cols = r.length := fun f => ⟨triPairs_length _, rfl⟩
  obtain ⟨X1, h1, e1⟩ := solve_weak hla (trans g.o.V) (trans (modeMatrix (triPairs g.N) triModeR r s)) g.np r.length (np_pos g) ⟨sV.2, sV.1⟩ (sh _) hut
  obtain ⟨X2, h2, e2⟩ := solve_weak hla (trans g.o.V) (trans (modeMatrix (triPairs g.N) triModeS r s)) g.np r.length (np_pos g) ⟨sV.2, sV.1⟩ (sh _) hut
  have hd : d.Dr = trans X1 ∧ d.Ds = trans X2 := by
    unfold diffMatrices at h
    rw [sV.1] at h
    change (solveInto la (trans g.o.V) (trans (modeMatrix (triPairs g.N) triModeR r s)) g.np r.length >>= fun Drt =>
      solveInto la (trans g.o.V) (trans (modeMatrix (triPairs g.N) triModeS r s)) g.np r.length >>= fun Dst => _) = _ at h
    rw [h1, Out.bind_ok, h2, Out.bind_ok] at h
    obtain ⟨X3, -, h⟩ := Out.bind_eq_ok.1 h
    obtain ⟨X4, -, h⟩ := Out.bind_eq_ok.1 h
    simp only [Out.pure_eq, Out.ok.injEq] at h
    subst h
    exact ⟨rfl, rfl⟩
  rw [hd.1, hd.2]
  obtain ⟨c, rfl⟩ := hM.coeffs (n := g.np) (triPairs_length _) hp
  have hval : (fun j : Fin g.np => nodal g.n.r g.n.s (comb (triPairs g.N) triPoly c) j) = (toMat g.o.V g.np g.np).mulVec c := by
    funext j
    rw [hg.vand]
    exact (hM.nodal_comb hg.reg hg.nodes c j).1
  have happ : ∀ (f : ℕ × ℕ → ℝ → ℝ → ℝ) (X : DMat ℝ), toMat (trans g.o.V) g.np g.np * toMat X g.np r.length = toMat (trans (modeMatrix (triPairs g.N) f r s)) g.np r.length →
      ∑ j ∈ Finset.range g.np, (trans X).at' i j * nodal g.n.r g.n.s (comb (triPairs g.N) triPoly c) j = (toMat (modeMatrix (triPairs g.N) f r s) r.length g.np).mulVec c ⟨i, hi⟩ := by
    intro f X e
    have e' : toMat (trans X) r.length g.np * toMat g.o.V g.np g.np = toMat (modeMatrix (triPairs g.N) f r s) r.length g.np := by
      have := congrArg Matrix.transpose e
      rw [Matrix.transpose_mul, toMat_trans, Matrix.transpose_transpose, toMat_trans, Matrix.transpose_transpose] at this
      exact this
    rw [← e', ← Matrix.mulVec_mulVec, ← hval, Finset.sum_range]
    rfl
  obtain ⟨-, k2, k3⟩ := hM.nodal_comb hreg rfl c ⟨i, hi⟩
  exact ⟨(happ _ X1 e1).trans k2.symm, (happ _ X2 e2).trans k3.symm⟩

theorem coord_nodal (g : Grid) (a b c : ℝ) (j : ℕ) : triCoord a b c (g.n.r.getD j 0) (g.n.s.getD j 0) = nodal g.n.r g.n.s (coordPoly a b c) j := by
  unfold nodal; rw [ev_coordPoly]

theorem coord_space (hg : GridSpec P x bt g) (a b c : ℝ) : TriSpace g.N (coordPoly a b c) := (coordPoly_degree a b c).trans hg.posN

/-- The derivatives of the map at the points are those of the map. -/
theorem cubDeriv_eq (hg : GridSpec P x bt g) (d : Diff) (r s : List ℝ) (i : ℕ)
    (h : ∀ p, TriSpace g.N p → ∑ j ∈ Finset.range g.np, d.Dr.at' i j * nodal g.n.r g.n.s p j = nodal r s (pderiv 0 p) i ∧
      ∑ j ∈ Finset.range g.np, d.Ds.at' i j * nodal g.n.r g.n.s p j = nodal r s (pderiv 1 p) i) (k : ℕ) : cubDeriv g d i k = triDerivOf (g.tri k) := by
  have e1 := fun a b c => (h _ (coord_space hg a b c)).1
  have e2 := fun a b c => (h _ (coord_space hg a b c)).2
  unfold cubDeriv gridX gridY
  simp only [coord_nodal, e1, e2, (pderiv_coordPoly _ _ _).1, (pderiv_coordPoly _ _ _).2]
  simp [nodal, triDerivOf]

/-- **C93.** Whatever `buildCubatureVolumeMesh` returns on a built grid satisfies the specification.  Of the linear solver only its behaviour on nonsingular systems is used: the routine also
solves systems for weak derivative matrices, which are singular when there are more points than nodes, but uses nothing of their solutions. -/
theorem C93_cubature (hg : GridSpec P x bt g) (hla : GesvSolves la.dsgesv) (hpo : PotrfOk dpotrf) (NC : ℤ) (c : Cubature) (h : buildCubature la dpotrf g NC = .ok c) :
    CubatureSpec g NC.toNat c := by
  unfold buildCubature at h
  obtain ⟨n, hn, h⟩ := Out.bind_eq_ok.1 h
  obtain ⟨r, hr, h⟩ := Out.bind_eq_ok.1 h
  obtain ⟨s, hs, h⟩ := Out.bind_eq_ok.1 h
  obtain ⟨w, hw, h⟩ := Out.bind_eq_ok.1 h
  obtain ⟨d, hd, h⟩ := Out.bind_eq_ok.1 h
  obtain ⟨l, hl, h⟩ := Out.bind_eq_ok.1 h
  obtain ⟨pts, hwk, en, er, es, ew⟩ := rule_ok hn hr hs hw
  have hlr : r.length = n := by rw [er, en, List.length_map]
  have hin : ∀ i < n, Cub.Inside (r.getD i 0, s.getD i 0, w.getD i 0) := by
    intro i hi
    rw [er, es, ew, getD_map _ _ _ (by omega), getD_map _ _ _ (by omega), getD_map _ _ _ (by omega)]
    exact hwk.inside _ (List.getElem_mem _)
  have hreg : AllReg Regular r s := fun i hi => regular_of_mem (hin i (by omega)).1.le (hin i (by omega)).2.2.1.le
  have hD := fun i (hi : i < n) p hp => deriv_exact hg hla r s hreg _ d hd p hp i (by omega)
  have hder : ∀ i < n, ∀ k, cubDeriv g d i k = triDerivOf (g.tri k) := fun i hi k => cubDeriv_eq hg d r s i (hD i hi) k
  have hJ : ∀ i < n, ∀ k, jac (cubDeriv g d i k) = cross (g.tri k) / 4 := fun i hi k => by rw [hder i hi k, jac_triDerivOf]
  have hV : ∀ p, TriSpace g.N p → ∀ i < n, ∑ j ∈ Finset.range g.np, (withCols (triInterp g.N g.o.Vinv r s) g.np).at' i j * nodal g.n.r g.n.s p j = nodal r s p i := by
    intro p hp i hi
    have h1 := interp_exact (triModal g.N) g.n.r g.n.s r s ((triPairs_length _).trans hg.nodes.symm) hg.reg hreg g.o.Vinv (by rw [hg.nodes]; exact hg.unisolvent) p hp i (by omega)
    rw [hg.nodes] at h1
    exact h1
  set V := withCols (triInterp g.N g.o.Vinv r s) g.np with hVdef
  have sVr : V.rows = n := hlr
  have sVc : V.cols = g.np := rfl
  have hMM : ∀ k i j, (mul (trans V) (mul (diagOf n fun i => jac (cubDeriv g d i k) * w.getD i 0) V)).at' i j =
      ∑ a ∈ Finset.range n, V.at' a i * (jac (cubDeriv g d a k) * w.getD a 0 * V.at' a j) := by
    intro k i j
    unfold mul
    change ∑ a ∈ Finset.range V.rows, V.at' a i * (∑ b ∈ Finset.range n, (if a = b then jac (cubDeriv g d a k) * w.getD a 0 else 0) * V.at' b j) = _
    rw [sVr]
    refine Finset.sum_congr rfl fun a ha => ?_
    congr 1
    rw [Finset.sum_eq_single a]
    · rw [if_pos rfl]
    · intro b _ hb; rw [if_neg (Ne.symm hb), zero_mul]
    · intro hb; exact absurd ha hb
  obtain ⟨hlen, hchol⟩ := collect _ _ _ hl
  simp only [Out.pure_eq, Out.ok.injEq] at h
  subst h
  have hplace : ∀ i < n, ∀ k, ∑ j ∈ Finset.range g.np, V.at' i j * gridX (g.tri k) g.n j = triCoord (g.tri k).xa (g.tri k).xb (g.tri k).xc (r.getD i 0) (s.getD i 0) ∧
      ∑ j ∈ Finset.range g.np, V.at' i j * gridY (g.tri k) g.n j = triCoord (g.tri k).ya (g.tri k).yb (g.tri k).yc (r.getD i 0) (s.getD i 0) := by
    intro i hi k
    unfold gridX gridY
    simp only [coord_nodal, hV _ (coord_space hg _ _ _) i hi]
    unfold nodal
    rw [ev_coordPoly, ev_coordPoly]
    exact ⟨rfl, rfl⟩
  have hpt : ∀ u i, i < n → ∀ k, ev (∑ j ∈ Finset.range g.np, V.at' i j * gridX (g.tri k) g.n j) (∑ j ∈ Finset.range g.np, V.at' i j * gridY (g.tri k) g.n j) u =
      nodal r s (pull (g.tri k) u) i := by
    intro u i hi k
    rw [(hplace i hi k).1, (hplace i hi k).2, ← ev_pull]
    rfl
  have hsp : ∀ u : P2, u.totalDegree ≤ g.N → ∀ k, TriSpace g.N (pull (g.tri k) u) := fun u hu k => (pull_degree _ u).trans hu
  have hgrad : ∀ u : P2, u.totalDegree ≤ g.N → ∀ i < n, ∀ k < g.K, ∀ α β : ℝ,
      ∑ j ∈ Finset.range g.np, (α * d.Dr.at' i j + β * d.Ds.at' i j) * atNode g u k j = α * nodal r s (pderiv 0 (pull (g.tri k) u)) i + β * nodal r s (pderiv 1 (pull (g.tri k) u)) i := by
    intro u hu i hi k _ α β
    rw [← (hD i hi _ (hsp u hu k)).1, ← (hD i hi _ (hsp u hu k)).2, Finset.mul_sum, Finset.mul_sum, ← Finset.sum_add_distrib]
    refine Finset.sum_congr rfl fun j _ => ?_
    rw [atNode_eq]
    ring
  refine ⟨fun i hi k _ => hplace i hi k, fun i hi => ⟨(hin i hi).1, (hin i hi).2.1, (hin i hi).2.2.1⟩, ?_, ?_, ?_, ?_, ?_, ?_, ?_, ?_, ?_⟩
  · intro i hi k hk
    simp only at hi ⊢
    rw [hJ i hi k]
    have := hg.ccw k hk
    exact mul_pos (hin i hi).2.2.2 (by linarith)
  · intro u hu i hi k _
    unfold atPoint
    simp only [atNode_eq] at hi ⊢
    rw [hV _ (hsp u hu k) i hi, hpt u i hi k]
  · intro u hu i hi k hk
    unfold atPoint
    simp only at hi ⊢
    rw [hgrad u hu i hi k hk, hder i hi k, hpt _ i hi k]
    have := (grad_pull (g.tri k) (hg.ccw k hk).ne' u (r.getD i 0) (s.getD i 0)).1
    rw [← ev_pull] at this
    exact this
  · intro u hu i hi k hk
    unfold atPoint
    simp only at hi ⊢
    rw [hgrad u hu i hi k hk, hder i hi k, hpt _ i hi k]
    have := (grad_pull (g.tri k) (hg.ccw k hk).ne' u (r.getD i 0) (s.getD i 0)).2
    rw [← ev_pull] at this
    exact this
  · intro u hu k hk
    unfold atPoint over size
    simp only
    have hex := hwk.exact (pull (g.tri k) u) ((pull_degree _ u).trans hu)
    have hc : 0 < cross (g.tri k) / 4 := by have := hg.ccw k hk; linarith
    have e : ∑ i ∈ Finset.range n, w.getD i 0 * jac (cubDeriv g d i k) *
        ev (∑ j ∈ Finset.range g.np, V.at' i j * gridX (g.tri k) g.n j) (∑ j ∈ Finset.range g.np, V.at' i j * gridY (g.tri k) g.n j) u =
        cross (g.tri k) / 4 * (pts.map fun q => q.2.2 * ev q.1 q.2.1 (pull (g.tri k) u)).sum := by
      rw [sum_list, Finset.mul_sum, ← en]
      refine Finset.sum_congr rfl fun i hi => ?_
      have hi := Finset.mem_range.1 hi
      have hip : i < pts.length := en ▸ hi
      rw [hpt u i hi k, hJ i hi k, getD_map _ _ _ hip]
      unfold nodal
      rw [er, es, ew, getD_map _ _ _ hip, getD_map _ _ _ hip, getD_map _ _ _ hip]
      ring
    rw [e, ← mul_sub, abs_mul, abs_of_pos hc]
    calc _ ≤ cross (g.tri k) / 4 * (2e-14 * ∑ m ∈ (pull (g.tri k) u).support, |(pull (g.tri k) u).coeff m|) := mul_le_mul_of_nonneg_left hex hc.le
      _ = _ := by ring
  · intro u v hu hv k hk
    unfold atPoint
    simp only [hMM]
    have e : ∀ a < n, w.getD a 0 * jac (cubDeriv g d a k) * (ev (∑ j ∈ Finset.range g.np, V.at' a j * gridX (g.tri k) g.n j) (∑ j ∈ Finset.range g.np, V.at' a j * gridY (g.tri k) g.n j) u *
        ev (∑ j ∈ Finset.range g.np, V.at' a j * gridX (g.tri k) g.n j) (∑ j ∈ Finset.range g.np, V.at' a j * gridY (g.tri k) g.n j) v) =
        ∑ i ∈ Finset.range g.np, ∑ j ∈ Finset.range g.np, atNode g u k i * (V.at' a i * (jac (cubDeriv g d a k) * w.getD a 0 * V.at' a j) * atNode g v k j) := by
      intro a ha
      rw [hpt u a ha k, hpt v a ha k, ← hV _ (hsp u hu k) a ha, ← hV _ (hsp v hv k) a ha, Finset.sum_mul_sum, Finset.mul_sum]
      refine Finset.sum_congr rfl fun i _ => ?_
      rw [Finset.mul_sum]
      refine Finset.sum_congr rfl fun j _ => ?_
      rw [atNode_eq, atNode_eq]
      ring
    rw [Finset.sum_congr rfl fun a ha => e a (Finset.mem_range.1 ha)]
    refine Eq.trans ?_ Finset.sum_comm
    refine Finset.sum_congr rfl fun i _ => ?_
    refine Eq.trans ?_ Finset.sum_comm
    refine Finset.sum_congr rfl fun j _ => ?_
    rw [Finset.sum_mul, Finset.mul_sum]
  · intro k _ i j
    simp only [hMM]
    refine Finset.sum_congr rfl fun a _ => ?_
    ring
  all_goals
    intro k hk
    have hc := hchol k hk (fresh 0 0)
    obtain ⟨z, hz, hc⟩ := Out.bind_eq_ok.1 hc
    rcases C37_cholesky dpotrf hpo (mul (trans V) (mul (diagOf n fun i => jac (cubDeriv g d i k) * w.getD i 0) V)) (fresh g.np g.np) g.np ⟨rfl, rfl⟩ ⟨rfl, rfl⟩ with h1 | ⟨r', h1, -, -, h2, -, h3⟩
    · rw [h1] at hz
      injection hz with hz
      subst hz
      cases hc
    rw [h1] at hz
    injection hz with hz
    subst hz
    simp only [uncaught, Out.ok.injEq] at hc
    simp only [← hc]
  · intro i hi j hj
    exact h2 ⟨i, hi⟩ ⟨j, by omega⟩ hj
  · intro i hi j hj
    have h4 := h3 (fun i j => by
      change (mul (trans V) (mul (diagOf n fun i => jac (cubDeriv g d i k) * w.getD i 0) V)).at' i j = (mul (trans V) (mul (diagOf n fun i => jac (cubDeriv g d i k) * w.getD i 0) V)).at' j i
      rw [hMM, hMM]
      refine Finset.sum_congr rfl fun a _ => ?_
      ring)
    have h5 := congrFun (congrFun h4 ⟨i, hi⟩) ⟨j, hj⟩
    rw [Matrix.mul_apply] at h5
    rw [Finset.sum_range]
    exact h5

/-! ### When it returns -/

/-- Only the zero polynomial of degree at most `N` vanishes at all points. -/
def Determines (N : ℕ) (pts : List (ℝ × ℝ × ℝ)) : Prop := ∀ p, TriSpace N p → (∀ q ∈ pts, ev q.1 q.2.1 p = 0) → p = 0

theorem read_rule {NC : ℤ} {pts : List (ℝ × ℝ × ℝ)} (h : Cub.Works NC pts) : Cub.numPoints NC = .ok pts.length ∧ (Cub.rCoord NC >>= written) = .ok (pts.map fun q => q.1) ∧
    (Cub.sCoord NC >>= written) = .ok (pts.map fun q => q.2.1) ∧ (Cub.weights NC >>= written) = .ok (pts.map fun q => q.2.2) := by
  rw [h.r, h.s, h.w, Out.bind_ok, Out.bind_ok, Out.bind_ok, written_map, written_map, written_map]
  exact ⟨h.count, rfl, rfl, rfl⟩

theorem works_reg {NC : ℤ} {pts : List (ℝ × ℝ × ℝ)} (h : Cub.Works NC pts) : AllReg Regular (pts.map fun q => q.1) (pts.map fun q => q.2.1) := by
  intro i hi
  rw [List.length_map] at hi
  rw [getD_map _ _ _ hi, getD_map _ _ _ hi]
  have := h.inside _ (List.getElem_mem hi)
  exact regular_of_mem this.1.le this.2.2.1.le

/-- The interpolation matrix to the points. -/
noncomputable def toPoints (g : Grid) (pts : List (ℝ × ℝ × ℝ)) : DMat ℝ := withCols (triInterp g.N g.o.Vinv (pts.map fun q => q.1) (pts.map fun q => q.2.1)) g.np

theorem toPoints_exact (hg : GridSpec P x bt g) {NC : ℤ} {pts : List (ℝ × ℝ × ℝ)} (h : Cub.Works NC pts) (p : P2) (hp : TriSpace g.N p) (i : ℕ) (hi : i < pts.length) :
    ∑ j ∈ Finset.range g.np, (toPoints g pts).at' i j * nodal g.n.r g.n.s p j = ev pts[i].1 pts[i].2.1 p := by
  have h1 := interp_exact (triModal g.N) g.n.r g.n.s _ _ ((triPairs_length _).trans hg.nodes.symm) hg.reg (works_reg h) g.o.Vinv (by rw [hg.nodes]; exact hg.unisolvent) p hp i
    (by rw [List.length_map]; exact hi)
  rw [hg.nodes] at h1
  refine h1.trans ?_
  unfold nodal
  rw [getD_map _ _ _ hi, getD_map _ _ _ hi]

/-- Every vector is the vector of nodal values of a polynomial. -/
theorem nodal_onto (hg : GridSpec P x bt g) (v : Fin g.np → ℝ) : ∃ p, TriSpace g.N p ∧ ∀ j : Fin g.np, nodal g.n.r g.n.s p j = v j := by
  have hM := triModal g.N
  have hi := mul_eq_one_comm.1 hg.unisolvent
  refine ⟨comb (triPairs g.N) triPoly ((toMat g.o.Vinv g.np g.np).mulVec v), hM.space_comb (triPairs_length _) _, fun j => ?_⟩
  have := (hM.nodal_comb hg.reg hg.nodes ((toMat g.o.Vinv g.np g.np).mulVec v) j).1
  rw [Matrix.mulVec_mulVec, hi, Matrix.one_mulVec] at this
  exact this

theorem toPoints_inj (hg : GridSpec P x bt g) {NC : ℤ} {pts : List (ℝ × ℝ × ℝ)} (h : Cub.Works NC pts) (hd : Determines g.N pts) (v : Fin g.np → ℝ)
    (hv : ∀ i < pts.length, ∑ j : Fin g.np, (toPoints g pts).at' i j * v j = 0) : v = 0 := by
  obtain ⟨p, hp, e⟩ := nodal_onto hg v
  have h0 : p = 0 := by
    apply hd p hp
    intro q hq
    obtain ⟨i, hi, rfl⟩ := List.mem_iff_getElem.1 hq
    rw [← toPoints_exact hg h p hp i hi, Finset.sum_range]
    simp only [e]
    exact hv i hi
  funext j
  rw [← e j, h0]
  simp [nodal]

/-- A solve with a square matrix and a right-hand side that fits, when the solver reports success. -/
theorem solve_reports {la : Lapack} (hla : GesvSolves la.dsgesv) (A B : DMat ℝ) (n m p : ℕ) (hA : A.rows = n ∧ A.cols = n) (hB : B.rows = m ∧ B.cols = n) (hm : m ≤ n) (hp : p = m)
    (hs : ∀ a b, a.length = n * n → b.length = n * n → colMat n n a = toMat A n n → (la.dsgesv n n a b).1 = 0) : ∃ X, solveInto la A B p n = .ok X := by
  subst hp
  obtain ⟨a, ha, lena, ea⟩ := load A n n hA.1 hA.2
  obtain ⟨b, hb, lenb, -⟩ := Blitz.C10_flatten B (List.replicate (n * n) 0) false (by rw [hB.1, hB.2, List.length_replicate]; exact Nat.mul_le_mul_right _ hm)
  rw [List.length_replicate] at lenb
  have hi := hs a b lena lenb ea
  obtain ⟨X, hx, -⟩ := Blitz.C10_unflatten (la.dsgesv n n a b).2 (fresh p n) false (by rw [hla.len n n a b lena lenb]; exact Nat.mul_le_mul_right _ hm)
  refine ⟨X, ?_⟩
  unfold solveInto directSolve
  simp only [hA.1, hB.2, ha, hb, Out.bind_ok]
  rw [if_neg (by omega), if_neg (by omega), hx]
  rfl

theorem points_diff (hg : GridSpec P x bt g) (hla : GesvSolves la.dsgesv) (pts : List (ℝ × ℝ × ℝ)) : ∃ X1 X2,
    diffMatrices la (modeMatrix (triPairs g.N) triModeR (pts.map fun q => q.1) (pts.map fun q => q.2.1)) (modeMatrix (triPairs g.N) triModeS (pts.map fun q => q.1) (pts.map fun q => q.2.1))
      g.o.V (toPoints g pts) =
    (solveInto la (trans (mul (toPoints g pts) (trans (toPoints g pts))))
      (trans (withCols (mul (toPoints g pts) (trans (modeMatrix (triPairs g.N) triModeR (pts.map fun q => q.1) (pts.map fun q => q.2.1)))) g.np)) g.np pts.length >>= fun Y1 =>
    solveInto la (trans (mul (toPoints g pts) (trans (toPoints g pts))))
      (trans (withCols (mul (toPoints g pts) (trans (modeMatrix (triPairs g.N) triModeS (pts.map fun q => q.1) (pts.map fun q => q.2.1)))) g.np)) g.np pts.length >>= fun Y2 =>
    .ok { Dr := trans X1, Ds := trans X2, Drw := trans Y1, Dsw := trans Y2 }) := by
  have sV := shape_V hg
  have hut : IsUnit (toMat (trans g.o.V) g.np g.np) := by rw [toMat_trans]; exact (Matrix.isUnit_transpose _).2 (unit_V hg)
  have hlen : (pts.map fun q => q.1).length = pts.length := List.length_map _
  have sh : ∀ f, (trans (modeMatrix (triPairs g.N) f (pts.map fun q => q.1) (pts.map fun q => q.2.1))).rows = g.np ∧
      (trans (modeMatrix (triPairs g.N) f (pts.map fun q => q.1) (pts.map fun q => q.2.1))).cols = pts.length := fun f => ⟨triPairs_length _, hlen⟩
  obtain ⟨X1, h1, -⟩ := solve_weak hla (trans g.o.V) (trans (modeMatrix (triPairs g.N) triModeR (pts.map fun q => q.1) (pts.map fun q => q.2.1))) g.np pts.length (np_pos g) ⟨sV.2, sV.1⟩ (sh _) hut
  obtain ⟨X2, h2, -⟩ := solve_weak hla (trans g.o.V) (trans (modeMatrix (triPairs g.N) triModeS (pts.map fun q => q.1) (pts.map fun q => q.2.1))) g.np pts.length (np_pos g) ⟨sV.2, sV.1⟩ (sh _) hut
  refine ⟨X1, X2, ?_⟩
  have hrows : (modeMatrix (triPairs g.N) triModeR (pts.map fun q => q.1) (pts.map fun q => q.2.1)).rows = pts.length := hlen
  unfold diffMatrices
  rw [sV.1, hrows, h1, Out.bind_ok, h2, Out.bind_ok]
  rfl

theorem gram_shape (g : Grid) (pts : List (ℝ × ℝ × ℝ)) : (trans (mul (toPoints g pts) (trans (toPoints g pts)))).rows = pts.length ∧
    (trans (mul (toPoints g pts) (trans (toPoints g pts)))).cols = pts.length := ⟨List.length_map _, List.length_map _⟩

theorem gram_eq (g : Grid) (pts : List (ℝ × ℝ × ℝ)) : toMat (trans (mul (toPoints g pts) (trans (toPoints g pts)))) pts.length pts.length =
    toMat (toPoints g pts) pts.length g.np * (toMat (toPoints g pts) pts.length g.np).transpose := by
  rw [toMat_trans, toMat_mul _ _ _ g.np _ rfl, toMat_trans, Matrix.transpose_mul, Matrix.transpose_transpose]

/-- The weak systems are nonsingular when there are as many points as nodes and the points determine the polynomials. -/
theorem gram_unit (hg : GridSpec P x bt g) {NC : ℤ} {pts : List (ℝ × ℝ × ℝ)} (h : Cub.Works NC pts) (hd : Determines g.N pts) (hn : pts.length = g.np) :
    IsUnit (toMat (trans (mul (toPoints g pts) (trans (toPoints g pts)))) pts.length pts.length) := by
  rw [gram_eq]
  generalize hT : toPoints g pts = T
  rw [hn]
  have hu : IsUnit (toMat T g.np g.np) := by
    rw [← Matrix.mulVec_injective_iff_isUnit]
    intro v v' e
    rw [← sub_eq_zero]
    apply toPoints_inj hg h hd
    intro i hi
    have := congrFun e ⟨i, hn ▸ hi⟩
    rw [← sub_eq_zero] at this
    rw [hT, ← this]
    unfold Matrix.mulVec dotProduct toMat
    rw [← Finset.sum_sub_distrib]
    refine Finset.sum_congr rfl fun j _ => ?_
    rw [Pi.sub_apply]
    ring
  exact hu.mul ((Matrix.isUnit_transpose _).2 hu)

/-- **C93, returns.** With a good rule of at least as many points as nodes, which determine the polynomials, the context is built, provided the solver does not report failure on the systems for
the weak derivatives; these are nonsingular exactly when there are as many points as nodes. -/
theorem C93_returns_partial (hg : GridSpec P x bt g) (hla : GesvSolves la.dsgesv) (hpo : PotrfFull dpotrf) (NC : ℤ) (pts : List (ℝ × ℝ × ℝ)) (hw : Cub.Works NC pts) (hd : Determines g.N pts)
    (hn : pts.length = g.np ∨ g.np < pts.length ∧ ∀ a b, a.length = pts.length * pts.length → b.length = pts.length * pts.length → (la.dsgesv pts.length pts.length a b).1 = 0) :
    ∃ c, buildCubature la dpotrf g NC = .ok c ∧ c.n = pts.length ∧ CubatureSpec g NC.toNat c := by
  obtain ⟨k1, k2, k3, k4⟩ := read_rule hw
  have hpos : 0 < pts.length := by
    have := np_pos g
    omega
  have hs : ∀ a b, a.length = pts.length * pts.length → b.length = pts.length * pts.length →
      colMat pts.length pts.length a = toMat (trans (mul (toPoints g pts) (trans (toPoints g pts)))) pts.length pts.length → (la.dsgesv pts.length pts.length a b).1 = 0 := by
    intro a b ha hb e
    rcases hn with hn | hn
    · exact (hla.solves _ _ a b ha hb hpos (by rw [e]; exact gram_unit hg hw hd hn)).1
    · exact hn.2 a b ha hb
  have hle : g.np ≤ pts.length := by omega
  obtain ⟨X1, X2, hD⟩ := points_diff hg hla pts
  have hsh : ∀ f, (trans (withCols (mul (toPoints g pts) (trans (modeMatrix (triPairs g.N) f (pts.map fun q => q.1) (pts.map fun q => q.2.1)))) g.np)).rows = g.np ∧
      (trans (withCols (mul (toPoints g pts) (trans (modeMatrix (triPairs g.N) f (pts.map fun q => q.1) (pts.map fun q => q.2.1)))) g.np)).cols = pts.length := fun f => ⟨rfl, List.length_map _⟩
  obtain ⟨Y1, hY1⟩ := solve_reports hla _ _ pts.length g.np g.np (gram_shape g pts) (hsh triModeR) hle rfl hs
  obtain ⟨Y2, hY2⟩ := solve_reports hla _ _ pts.length g.np g.np (gram_shape g pts) (hsh triModeS) hle rfl hs
  rw [hY1, Out.bind_ok, hY2, Out.bind_ok] at hD
  set d : Diff := { Dr := trans X1, Ds := trans X2, Drw := trans Y1, Dsw := trans Y2 } with hddef
  have hder := fun i (hi : i < pts.length) => cubDeriv_eq hg d _ _ i fun p hp => deriv_exact hg hla _ _ (works_reg hw) _ d hD p hp i (by rw [List.length_map]; exact hi)
  have hchol : ∀ k < g.K, ∃ U, (computeCholesky dpotrf (mul (trans (toPoints g pts)) (mul (diagOf pts.length fun i => jac (cubDeriv g d i k) * (pts.map fun q => q.2.2).getD i 0) (toPoints g pts)))
      (fresh g.np g.np) >>= uncaught) = .ok U := by
    intro k hk
    have hW : ∀ i (hi : i < pts.length), 0 < jac (cubDeriv g d i k) * (pts.map fun q => q.2.2).getD i 0 := by
      intro i hi
      rw [hder i hi k, jac_triDerivOf, getD_map _ _ _ hi]
      have := hg.ccw k hk
      exact mul_pos (by linarith) (hw.inside _ (List.getElem_mem hi)).2.2.2
    generalize hom : (fun i => jac (cubDeriv g d i k) * (pts.map fun q => q.2.2).getD i 0) = om
    have hom' : ∀ i < pts.length, 0 < om i := fun i hi => by rw [← hom]; exact hW i hi
    have hT : (toPoints g pts).rows = pts.length := List.length_map _
    have hMM : ∀ i j, (mul (trans (toPoints g pts)) (mul (diagOf pts.length om) (toPoints g pts))).at' i j =
        ∑ a ∈ Finset.range pts.length, (toPoints g pts).at' a i * (om a * (toPoints g pts).at' a j) := by
      intro i j
      unfold mul
      change ∑ a ∈ Finset.range (toPoints g pts).rows, (toPoints g pts).at' a i * (∑ b ∈ Finset.range pts.length, (if a = b then om a else 0) * (toPoints g pts).at' b j) = _
      rw [hT]
      refine Finset.sum_congr rfl fun a ha => ?_
      congr 1
      rw [Finset.sum_eq_single a]
      · rw [if_pos rfl]
      · intro b _ hb; rw [if_neg (Ne.symm hb), zero_mul]
      · intro hb; exact absurd ha hb
    obtain ⟨U, hU, -⟩ := C37_cholesky_posdef dpotrf hpo (mul (trans (toPoints g pts)) (mul (diagOf pts.length om) (toPoints g pts))) (fresh g.np g.np) g.np ⟨rfl, rfl⟩ ⟨rfl, rfl⟩ (by
      rw [Matrix.posDef_iff_dotProduct_mulVec]
      refine ⟨?_, fun v hv => ?_⟩
      · ext i j
        rw [Matrix.conjTranspose_apply, star_trivial]
        unfold toMat
        rw [hMM, hMM]
        refine Finset.sum_congr rfl fun a _ => ?_
        ring
      · have e : star v ⬝ᵥ (toMat (mul (trans (toPoints g pts)) (mul (diagOf pts.length om) (toPoints g pts))) g.np g.np).mulVec v =
            ∑ a ∈ Finset.range pts.length, om a * (∑ j : Fin g.np, (toPoints g pts).at' a j * v j) ^ 2 := by
          unfold dotProduct Matrix.mulVec toMat dotProduct
          simp only [hMM, star_trivial, Finset.sum_mul, Finset.mul_sum, pow_two]
          rw [Finset.sum_comm]
          conv_lhs =>
            enter [2, j]
            rw [Finset.sum_comm]
          rw [Finset.sum_comm]
          refine Finset.sum_congr rfl fun a _ => ?_
          rw [Finset.sum_comm]
          refine Finset.sum_congr rfl fun i _ => Finset.sum_congr rfl fun j _ => ?_
          ring
        rw [e]
        by_contra hcon
        apply hv
        apply toPoints_inj hg hw hd
        have h0 : ∑ a ∈ Finset.range pts.length, om a * (∑ j : Fin g.np, (toPoints g pts).at' a j * v j) ^ 2 = 0 := by
          refine le_antisymm (not_lt.1 hcon) (Finset.sum_nonneg fun a ha => mul_nonneg (hom' a (Finset.mem_range.1 ha)).le (sq_nonneg _))
        rw [Finset.sum_eq_zero_iff_of_nonneg fun a ha => mul_nonneg (hom' a (Finset.mem_range.1 ha)).le (sq_nonneg _)] at h0
        intro i hi
        have := h0 i (Finset.mem_range.2 hi)
        rcases mul_eq_zero.1 this with h | h
        · exact absurd h (hom' i hi).ne'
        · exact pow_eq_zero_iff (two_ne_zero) |>.1 h)
    exact ⟨U, by rw [hU]; rfl⟩
  obtain ⟨l, hl⟩ := collect_ok _ _ hchol
  have hbuilt : ∃ c, buildCubature la dpotrf g NC = .ok c ∧ c.n = pts.length := by
    refine ⟨?_, ?_, ?_⟩
    rotate_left
    · unfold buildCubature
      rw [k1, Out.bind_ok, k2, Out.bind_ok, k3, Out.bind_ok, k4, Out.bind_ok]
      refine (congrArg (· >>= _) hD).trans ?_
      rw [Out.bind_ok]
      refine (congrArg (· >>= _) hl).trans ?_
      rw [Out.bind_ok]
      rfl
    · rfl
  obtain ⟨c, hc, e⟩ := hbuilt
  exact ⟨c, hc, e, C93_cubature hg hla hpo.toPotrfOk NC c hc⟩

/-- **C93, too few points.** With fewer points than nodes the solve for the weak derivatives overruns its buffer. -/
theorem C93_few (hg : GridSpec P x bt g) (hla : GesvSolves la.dsgesv) (NC : ℤ) (pts : List (ℝ × ℝ × ℝ)) (hw : Cub.Works NC pts) (hn : pts.length < g.np) :
    buildCubature la dpotrf g NC = .ub := by
  obtain ⟨k1, k2, k3, k4⟩ := read_rule hw
  have hpos : 0 < pts.length := by
    by_contra h0
    have : pts = [] := List.length_eq_zero_iff.1 (by omega)
    have h2 := hw.exact 1 (by rw [totalDegree_one]; omega)
    rw [this] at h2
    have e1 : integ triInt (1 : P2) = 2 := by
      have := Cub.mono_int 0 0
      simp only [pow_zero, mul_one] at this
      unfold integ
      simp only [map_one]
      rw [this]
      norm_num [Cub.num, Cub.den]
    rw [e1] at h2
    have e2 : ∑ m ∈ (1 : P2).support, |(1 : P2).coeff m| = 1 := by
      rw [← C_1, ← monomial_zero', support_monomial, if_neg one_ne_zero]
      simp
    rw [e2] at h2
    norm_num at h2
  obtain ⟨X1, X2, hD⟩ := points_diff hg hla pts
  have hub : solveInto la (trans (mul (toPoints g pts) (trans (toPoints g pts))))
      (trans (withCols (mul (toPoints g pts) (trans (modeMatrix (triPairs g.N) triModeR (pts.map fun q => q.1) (pts.map fun q => q.2.1)))) g.np)) g.np pts.length = .ub := by
    have sh := gram_shape g pts
    obtain ⟨a, ha, -⟩ := load (trans (mul (toPoints g pts) (trans (toPoints g pts)))) pts.length pts.length sh.1 sh.2
    have hc : (trans (withCols (mul (toPoints g pts) (trans (modeMatrix (triPairs g.N) triModeR (pts.map fun q => q.1) (pts.map fun q => q.2.1)))) g.np)).cols = pts.length := List.length_map _
    have hb := Blitz.C10_flatten_ub (trans (withCols (mul (toPoints g pts) (trans (modeMatrix (triPairs g.N) triModeR (pts.map fun q => q.1) (pts.map fun q => q.2.1)))) g.np))
      (List.replicate (pts.length * pts.length) (0 : ℝ)) false (by
        rw [hc, List.length_replicate]
        exact (Nat.mul_lt_mul_right hpos).2 hn)
    unfold solveInto directSolve
    simp only [sh.1, hc, ha, hb, Out.bind_ok, Out.bind_ub]
  rw [hub, Out.bind_ub] at hD
  unfold buildCubature
  rw [k1, Out.bind_ok, k2, Out.bind_ok, k3, Out.bind_ok, k4, Out.bind_ok]
  exact (congrArg (· >>= _) hD).trans rfl

/-- **C93, more points than nodes.** The systems for the weak derivatives are then singular: with a solver that reports this the call throws.  (`buildCubatureVolumeMesh` works in practice because
rounding hides the singularity.) -/
theorem C93_singular (hg : GridSpec P x bt g) (hla : la.Ok) (NC : ℤ) (pts : List (ℝ × ℝ × ℝ)) (hw : Cub.Works NC pts) (hn : g.np < pts.length) :
    ¬ IsUnit (toMat (trans (mul (toPoints g pts) (trans (toPoints g pts)))) pts.length pts.length) ∧ buildCubature la dpotrf g NC = .throws := by
  obtain ⟨k1, k2, k3, k4⟩ := read_rule hw
  have hsing : ¬ IsUnit (toMat (trans (mul (toPoints g pts) (trans (toPoints g pts)))) pts.length pts.length) := by
    intro hu
    rw [gram_eq] at hu
    have h1 := Matrix.rank_of_isUnit _ hu
    rw [Fintype.card_fin] at h1
    have h2 := Matrix.rank_mul_le_left (toMat (toPoints g pts) pts.length g.np) (toMat (toPoints g pts) pts.length g.np).transpose
    have h3 := Matrix.rank_le_width (toMat (toPoints g pts) pts.length g.np)
    omega
  refine ⟨hsing, ?_⟩
  obtain ⟨X1, X2, hD⟩ := points_diff hg (solves_of_ok hla.gesv) pts
  have hth : solveInto la (trans (mul (toPoints g pts) (trans (toPoints g pts))))
      (trans (withCols (mul (toPoints g pts) (trans (modeMatrix (triPairs g.N) triModeR (pts.map fun q => q.1) (pts.map fun q => q.2.1)))) g.np)) g.np pts.length = .throws := by
    have sh := gram_shape g pts
    obtain ⟨a, ha, lena, ea⟩ := load (trans (mul (toPoints g pts) (trans (toPoints g pts)))) pts.length pts.length sh.1 sh.2
    have hc : (trans (withCols (mul (toPoints g pts) (trans (modeMatrix (triPairs g.N) triModeR (pts.map fun q => q.1) (pts.map fun q => q.2.1)))) g.np)).cols = pts.length := List.length_map _
    obtain ⟨b, hb, lenb, -⟩ := Blitz.C10_flatten (trans (withCols (mul (toPoints g pts) (trans (modeMatrix (triPairs g.N) triModeR (pts.map fun q => q.1) (pts.map fun q => q.2.1)))) g.np))
      (List.replicate (pts.length * pts.length) (0 : ℝ)) false (by
        rw [hc, List.length_replicate]
        exact Nat.mul_le_mul_right _ hn.le)
    rw [List.length_replicate] at lenb
    have hi : (la.dsgesv pts.length pts.length a b).1 ≠ 0 := by
      intro h0
      have := ((hla.gesv.complete _ _ a b lena lenb).1 h0).2
      rw [ea] at this
      exact hsing this
    unfold solveInto directSolve
    simp only [sh.1, hc, ha, hb, Out.bind_ok]
    by_cases h1 : (la.dsgesv pts.length pts.length a b).1 < 0
    · rw [if_pos h1]; rfl
    · rw [if_neg h1, if_pos (by omega)]; rfl
  rw [hth, Out.bind_throws] at hD
  unfold buildCubature
  rw [k1, Out.bind_ok, k2, Out.bind_ok, k3, Out.bind_ok, k4, Out.bind_ok]
  exact (congrArg (· >>= _) hD).trans rfl

/-! ### An instance -/

theorem affine (p : P2) (hp : p.totalDegree ≤ 1) : p = C (coeff 0 p) + C (coeff (Finsupp.single 0 1) p) * X 0 + C (coeff (Finsupp.single 1 1) p) * X 1 := by
  have h2 : ∀ m : Fin 2 →₀ ℕ, m ≠ 0 → m ≠ Finsupp.single 0 1 → m ≠ Finsupp.single 1 1 → coeff m p = 0 := by
    intro m h0 h1 h2
    apply coeff_eq_zero_of_totalDegree_lt
    refine lt_of_le_of_lt hp ?_
    have e : ∑ i ∈ m.support, m i = m 0 + m 1 := by
      have := Finsupp.sum_fintype m (fun _ => id) (by simp)
      rw [Fin.sum_univ_two] at this
      exact this
    rw [e]
    by_contra hcon
    have : (m 0 = 0 ∧ m 1 = 0) ∨ (m 0 = 1 ∧ m 1 = 0) ∨ (m 0 = 0 ∧ m 1 = 1) := by omega
    rcases this with ⟨a, b⟩ | ⟨a, b⟩ | ⟨a, b⟩
    · exact h0 (by ext i; fin_cases i <;> simp [a, b])
    · exact h1 (by ext i; fin_cases i <;> simp [a, b])
    · exact h2 (by ext i; fin_cases i <;> simp [a, b])
  have d01 : (Finsupp.single 0 1 : Fin 2 →₀ ℕ) ≠ Finsupp.single 1 1 := by
    intro h
    have := DFunLike.congr_fun h 0
    simp at this
  ext m
  rw [coeff_add, coeff_add, coeff_C, coeff_C_mul, coeff_C_mul, coeff_X, coeff_X]
  by_cases h0 : m = 0
  · subst h0
    simp
  by_cases h1 : m = Finsupp.single 0 1
  · subst h1
    simp [d01.symm]
    exact fun h => absurd h.symm h0
  by_cases h3 : m = Finsupp.single 1 1
  · subst h3
    simp [d01]
    exact fun h => absurd h.symm h0
  · rw [h2 m h0 h1 h3, if_neg (Ne.symm h0), if_neg (Ne.symm h1), if_neg (Ne.symm h3)]
    simp

/-- The square of two triangles, elements of degree one, the rule for degree two (three points). -/
example : ∃ g : Grid, g.K = 2 ∧ ∃ c, buildCubature Nodes1D.exactLapack exactPotrf g 2 = .ok c ∧ c.n = 3 ∧ CubatureSpec g 2 c := by
  obtain ⟨g, hg, -⟩ := square_grid
  obtain ⟨x, hs, hN, hK, -⟩ := hg.spec
  have hw : Cub.Works 2 ((Cub.triples Cub.vals1).map Cub.real) := Cub.works (rule := ⟨3, Cub.vals1⟩) rfl Cub.check1
  refine ⟨g, hK, C93_returns_partial hs (solves_of_ok Nodes1D.exactLapack_ok.gesv) exactPotrf_full 2 _ hw ?_ (Or.inl ?_)⟩
  · intro p hp hv
    rw [hN] at hp
    rw [affine p hp] at hv ⊢
    generalize coeff 0 p = a at *
    generalize coeff (Finsupp.single 0 1) p = b at *
    generalize coeff (Finsupp.single 1 1) p = c at *
    simp only [Cub.vals1, Cub.triples, Cub.real, List.map_cons, List.map_nil, List.mem_cons, List.not_mem_nil, or_false, forall_eq_or_imp, forall_eq] at hv
    simp only [map_add, map_mul, eval_C, eval_X, Matrix.cons_val_zero, Matrix.cons_val_one, Matrix.cons_val_fin_one] at hv
    norm_num at hv
    have h1 : b = 0 := by linarith [hv.1, hv.2.1, hv.2.2]
    have h2 : c = 0 := by linarith [hv.1, hv.2.1, hv.2.2]
    have h3 : a = 0 := by rw [h1, h2] at hv; linarith [hv.1]
    rw [h1, h2, h3]
    simp
  · unfold Grid.np
    rw [hN]
    rfl

/-- With the one-point rule the call is undefined on that grid, with the rule for degree five (seven points) and an exact solver it throws. -/
example : ∃ g : Grid, buildCubature Nodes1D.exactLapack exactPotrf g 1 = .ub ∧ buildCubature Nodes1D.exactLapack exactPotrf g 5 = .throws := by
  obtain ⟨g, hg, -⟩ := square_grid
  obtain ⟨x, hs, hN, hK, -⟩ := hg.spec
  have hnp : g.np = 3 := by unfold Grid.np; rw [hN]
  have h1 : Cub.Works 1 ((Cub.triples Cub.vals0).map Cub.real) := Cub.works (rule := ⟨1, Cub.vals0⟩) rfl Cub.check0
  have h5 : Cub.Works 5 ((Cub.triples Cub.vals4).map Cub.real) := Cub.works (rule := ⟨7, Cub.vals4⟩) rfl Cub.check4
  exact ⟨g, C93_few hs (solves_of_ok Nodes1D.exactLapack_ok.gesv) 1 _ h1 (by rw [hnp]; decide), (C93_singular hs Nodes1D.exactLapack_ok 5 _ h5 (by rw [hnp]; decide)).2⟩

end Blitzdg.Ctx
