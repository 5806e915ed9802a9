import Verif.Nodes1D.Ops
import Verif.Nodes1D.Props
import Verif.Jacobi.QuadProps
import Mathlib.LinearAlgebra.Lagrange

/-! Properties C47 (differentiation matrix), C71 (lift operator) of the one-dimensional provisioner; C63 without hypotheses on the operators. -/

namespace Blitzdg.Nodes1D

open Polynomial
open Blitzdg.Sparse (DMat)
open Blitzdg.Dense (Done directSolve computeInverse GesvOk GetriOk SyevdOk toMat C37_direct C37_inverse)
open Blitzdg.Jacobi (jacobiP gradJacobi gllPoints poly poly_eval poly_span C68_gradient C70_gauss_lobatto)

/-- The library contracts. -/
structure Lapack.Ok (la : Lapack) : Prop where
  gesv : GesvOk la.dsgesv
  getri : GetriOk la.dgetrf la.dgetri
  syevd : SyevdOk la.dsyevd

theorem leg_eval (n : ℕ) (x : ℝ) : (poly 0 0 n).eval x = jacobiP 0 0 n x := poly_eval (by norm_num) (by norm_num) (by norm_num) n x

theorem leg_span (m : ℕ) (f : ℝ[X]) (hf : f.natDegree ≤ m) : ∃ c : ℕ → ℝ, f = ∑ k ∈ Finset.range (m + 1), C (c k) * poly 0 0 k :=
  poly_span (by norm_num) (by norm_num) (by norm_num) m f hf

theorem leg_deriv (n : ℕ) (x : ℝ) : (derivative (poly 0 0 n)).eval x = gradJacobi 0 0 n x := by
  have h1 : HasDerivAt (jacobiP 0 0 n) (gradJacobi 0 0 n x) x := C68_gradient (by norm_num) (by norm_num) (by norm_num) n x
  have h2 := (poly 0 0 n).hasDerivAt x
  have hf : jacobiP 0 0 n = fun y => (poly 0 0 n).eval y := by funext y; exact (leg_eval n y).symm
  rw [hf] at h1
  exact h2.unique h1

/-- At distinct nodes the Vandermonde matrix is invertible. -/
theorem vandermonde_unit (N : ℕ) (r : List ℝ) (hd : ∀ i j : ℕ, i < j → j ≤ N → r.getD i 0 ≠ r.getD j 0) :
    IsUnit (toMat (vandermonde r (N + 1)) (N + 1) (N + 1)) := by
  classical
  have hinj : Set.InjOn (fun i => r.getD i 0) (Finset.range (N + 1) : Set ℕ) := by
    intro i hi j hj h
    simp only [Finset.coe_range, Set.mem_Iio] at hi hj
    rcases Nat.lt_trichotomy i j with h' | h' | h'
    · exact absurd h (hd i j h' (by omega))
    · exact h'
    · exact absurd h.symm (hd j i h' (by omega))
  have hb : ∀ j : Fin (N + 1), ∃ c : ℕ → ℝ, Lagrange.basis (Finset.range (N + 1)) (fun i => r.getD i 0) j = ∑ k ∈ Finset.range (N + 1), C (c k) * poly 0 0 k := by
    intro j
    apply leg_span
    have hm : (j : ℕ) ∈ Finset.range (N + 1) := Finset.mem_range.2 j.2
    have := Lagrange.degree_basis hinj hm
    rw [Finset.card_range] at this
    exact natDegree_le_of_degree_le (by rw [this]; simp)
  choose c hc using hb
  have hV : toMat (vandermonde r (N + 1)) (N + 1) (N + 1) * Matrix.of (fun (k j : Fin (N + 1)) => c j k) = 1 := by
    ext i j
    rw [Matrix.mul_apply, Matrix.one_apply]
    simp only [toMat, vandermonde, Matrix.of_apply]
    have h := congrArg (Polynomial.eval (r.getD i 0)) (hc j)
    rw [eval_finsetSum] at h
    simp only [eval_mul, eval_C, leg_eval] at h
    rw [Finset.sum_range] at h
    have hm : ∀ j : Fin (N + 1), (j : ℕ) ∈ Finset.range (N + 1) := fun j => Finset.mem_range.2 j.2
    rw [Finset.sum_congr rfl (fun k _ => mul_comm _ _), ← h]
    by_cases hij : i = j
    · subst hij
      rw [if_pos rfl]
      exact Lagrange.eval_basis_self hinj (hm i)
    · rw [if_neg hij]
      exact Lagrange.eval_basis_of_ne (v := fun i => r.getD i 0) (fun h => hij (Fin.ext h.symm)) (hm i)
  exact ⟨⟨_, _, hV, mul_eq_one_comm.1 hV⟩, rfl⟩

/-- What the operators of the provisioner must satisfy: the specification of C47 and C71 in terms of polynomials. -/
structure OpsSpec (N : ℕ) (o : Ops) : Prop where
  /-- `N + 1` nodes from -1 to 1. -/
  nodes : o.r.length = N + 1 ∧ o.r.getD 0 0 = -1 ∧ o.r.getD N 0 = 1 ∧ ∀ i j : ℕ, i < j → j ≤ N → o.r.getD i 0 < o.r.getD j 0
  /-- `Dr` turns nodal values of a polynomial into nodal values of its derivative. -/
  diff : ∀ p : ℝ[X], p.natDegree ≤ N → ∀ i ≤ N, ∑ j ∈ Finset.range (N + 1), o.Dr.at' i j * p.eval (o.r.getD j 0) = (derivative p).eval (o.r.getD i 0)
  /-- `V` turns modal coefficients (in an orthonormal basis, see C48) into nodal values, `Vinv` back. -/
  modal : ∀ c : ℕ → ℝ, (∀ i ≤ N, ∑ k ∈ Finset.range (N + 1), o.V.at' i k * c k = ∑ k ∈ Finset.range (N + 1), c k * jacobiP 0 0 k (o.r.getD i 0)) ∧
    ∀ k ≤ N, ∑ i ∈ Finset.range (N + 1), o.Vinv.at' k i * ∑ m ∈ Finset.range (N + 1), o.V.at' i m * c m = c k
  /-- Column `f` of `Lift` holds the nodal values of the polynomial whose inner product with any polynomial of degree at most `N` is the value of the latter at
  face `f` (at -1 for `f = 0`, at 1 for `f = 1`). -/
  lift : ∀ f < 2, ∃ q : ℝ[X], q.natDegree ≤ N ∧ (∀ i ≤ N, o.lift.at' i f = q.eval (o.r.getD i 0)) ∧
    ∀ p : ℝ[X], p.natDegree ≤ N → ∫ x in (-1 : ℝ)..1, q.eval x * p.eval x = p.eval (if f = 0 then -1 else 1)

theorem dr_exact (N : ℕ) (r : List ℝ) (Dr : DMat ℝ) (hD : ∀ i ≤ N, ∀ k ≤ N, ∑ j ∈ Finset.range (N + 1), Dr.at' i j * jacobiP 0 0 k (r.getD j 0) = gradJacobi 0 0 k (r.getD i 0))
    (p : ℝ[X]) (hp : p.natDegree ≤ N) (i : ℕ) (hi : i ≤ N) :
    ∑ j ∈ Finset.range (N + 1), Dr.at' i j * p.eval (r.getD j 0) = (derivative p).eval (r.getD i 0) := by
  obtain ⟨c, hc⟩ := leg_span N p hp
  have e1 : ∀ x, p.eval x = ∑ k ∈ Finset.range (N + 1), c k * jacobiP 0 0 k x := by
    intro x
    rw [hc, eval_finsetSum]
    exact Finset.sum_congr rfl fun k _ => by rw [eval_mul, eval_C, leg_eval]
  have e2 : (derivative p).eval (r.getD i 0) = ∑ k ∈ Finset.range (N + 1), c k * gradJacobi 0 0 k (r.getD i 0) := by
    rw [hc, derivative_sum, eval_finsetSum]
    exact Finset.sum_congr rfl fun k _ => by rw [derivative_C_mul, eval_mul, eval_C, leg_deriv]
  rw [e2]
  simp only [e1, Finset.mul_sum]
  rw [Finset.sum_comm]
  apply Finset.sum_congr rfl
  intro k hk
  rw [← hD i hi k (by have := Finset.mem_range.1 hk; omega), Finset.mul_sum]
  exact Finset.sum_congr rfl fun j _ => by ring

theorem wint00 (p : ℝ[X]) : Jacobi.wint 0 0 p = ∫ x in (-1 : ℝ)..1, p.eval x := by
  unfold Jacobi.wint Jacobi.weight
  congr 1; funext x; simp

theorem leg_orth (k l : ℕ) : Jacobi.wint 0 0 (poly 0 0 k * poly 0 0 l) = if k = l then 1 else 0 := by
  have h := Jacobi.C48_legendre k l
  rw [wint00, ← h]
  congr 1; funext x; rw [eval_mul, leg_eval, leg_eval]

theorem wint_sum (s : Finset ℕ) (f : ℕ → ℝ[X]) : Jacobi.wint 0 0 (∑ k ∈ s, f k) = ∑ k ∈ s, Jacobi.wint 0 0 (f k) := by
  induction s using Finset.induction_on with
  | empty => simp [Jacobi.wint]
  | insert k s hk ih => rw [Finset.sum_insert hk, Finset.sum_insert hk, Jacobi.wint_add, ih]

/-- The reproducing kernel: `∑ p_k(t) p_k` represents evaluation at `t`. -/
theorem kernel (N : ℕ) (t : ℝ) (p : ℝ[X]) (hp : p.natDegree ≤ N) :
    ∫ x in (-1 : ℝ)..1, (∑ k ∈ Finset.range (N + 1), C ((poly 0 0 k).eval t) * poly 0 0 k : ℝ[X]).eval x * p.eval x = p.eval t := by
  obtain ⟨c, hc⟩ := leg_span N p hp
  have h1 : ∫ x in (-1 : ℝ)..1, (∑ k ∈ Finset.range (N + 1), C ((poly 0 0 k).eval t) * poly 0 0 k : ℝ[X]).eval x * p.eval x
      = Jacobi.wint 0 0 ((∑ k ∈ Finset.range (N + 1), C ((poly 0 0 k).eval t) * poly 0 0 k) * p) := by
    rw [wint00]; congr 1; funext x; rw [eval_mul]
  have h2 : p.eval t = ∑ k ∈ Finset.range (N + 1), c k * (poly 0 0 k).eval t := by
    rw [hc, eval_finsetSum]
    exact Finset.sum_congr rfl fun k _ => by rw [eval_mul, eval_C]
  rw [h1, h2, hc, Finset.sum_mul_sum, wint_sum]
  apply Finset.sum_congr rfl
  intro k hk
  rw [wint_sum, Finset.sum_eq_single k]
  · have e : C ((poly 0 0 k).eval t) * poly 0 0 k * (C (c k) * poly 0 0 k) = C ((poly 0 0 k).eval t * c k) * (poly 0 0 k * poly 0 0 k) := by rw [C_mul]; ring
    rw [e, Jacobi.wint_smul, leg_orth, if_pos rfl]; ring
  · intro l _ hl
    have e : C ((poly 0 0 k).eval t) * poly 0 0 k * (C (c l) * poly 0 0 l) = C ((poly 0 0 k).eval t * c l) * (poly 0 0 k * poly 0 0 l) := by rw [C_mul]; ring
    rw [e, Jacobi.wint_smul, leg_orth, if_neg (Ne.symm hl), mul_zero]
  · intro h; exact absurd hk h

/-- **C47 and C71, one dimension.** For every order `N ≥ 1` (and whatever the arrays held before), either the eigenvalue routine failed and the construction throws, or
it succeeds - in particular no linear solve fails - and the operators satisfy `OpsSpec`.  (`eps`: machine epsilon, any number in (0, 0.1].) -/
theorem C47_operators (la : Lapack) (hla : la.Ok) (eps : ℝ) (h0 : 0 < eps) (h1 : eps ≤ 0.1) (N : ℕ) (hN : 1 ≤ N) (r0 : List ℝ) (hr0 : r0.length = N + 1)
    (Vinv0 : DMat ℝ) (hVi : Vinv0.rows = N + 1 ∧ Vinv0.cols = N + 1) :
    ((∃ x, gllPoints la.query la.dsyevd 0 0 eps N r0 = .ok (.threw x)) ∧ buildOps la eps N r0 Vinv0 = .throws) ∨
      ∃ o, buildOps la eps N r0 Vinv0 = .ok o ∧ OpsSpec N o := by
  have hg := C70_gauss_lobatto la.query la.dsyevd hla.syevd 0 eps h0 h1 N hN r0 hr0
  simp only [Nat.cast_zero] at hg
  unfold buildOps
  rcases hg with ⟨x, hx⟩ | ⟨r, hx, hl, hm1, hp1, hinc, -, -⟩
  · left
    exact ⟨⟨x, hx⟩, by rw [hx]; rfl⟩
  right
  rw [hx]
  simp only [Out.bind_ok, uncaught]
  set V := vandermonde r (N + 1) with hV
  have hVs : V.rows = N + 1 ∧ V.cols = N + 1 := ⟨hl, rfl⟩
  have hu : IsUnit (toMat V (N + 1) (N + 1)) := vandermonde_unit N r fun i j h1 h2 => (hinc i j h1 h2).ne
  rcases C37_inverse la.dgetrf la.dgetri hla.getri V Vinv0 (N + 1) hVs hVi with ⟨Vinv, hi, _, _, hvi, hiv⟩ | ⟨-, h⟩
  swap
  · exact absurd ⟨by omega, hu⟩ h
  rw [hi]
  simp only [Out.bind_ok]
  have ht : toMat (trans V) (N + 1) (N + 1) = (toMat V (N + 1) (N + 1)).transpose := rfl
  have htu : IsUnit (toMat (trans V) (N + 1) (N + 1)) := by rw [ht]; exact (Matrix.isUnit_transpose _).2 hu
  rcases C37_direct la.dsgesv hla.gesv (trans V) (trans (gradVandermonde r)) { rows := N + 1, cols := N + 1, at' := fun _ _ => 0 } (N + 1) (N + 1)
    ⟨rfl, hl⟩ ⟨hl, hl⟩ ⟨rfl, rfl⟩ with ⟨-, Dt, hd, _, _, hsolve⟩ | ⟨h, -⟩
  swap
  · exact absurd ⟨by omega, htu⟩ h
  refine ⟨{ r := r, V := V, Vinv := Vinv, Dr := trans Dt, lift := buildLift (N + 1) V }, ?_, ⟨hl, hm1, hp1, hinc⟩, ?_, ?_, ?_⟩
  · unfold buildDr
    rw [hd]
    rfl
  · -- differentiation
    apply dr_exact
    intro i hi k hk
    have h := congrFun (congrFun hsolve ⟨k, by omega⟩) ⟨i, by omega⟩
    rw [Matrix.mul_apply] at h
    simp only [toMat, trans, gradVandermonde, hV, vandermonde] at h
    rw [← h, Finset.sum_range]
    exact Finset.sum_congr rfl fun j _ => mul_comm _ _
  · intro c
    refine ⟨fun i hi => Finset.sum_congr rfl fun k _ => by rw [hV]; exact mul_comm _ _, fun k hk => ?_⟩
    have h := congrFun (congrArg (fun M => Matrix.mulVec M (fun m : Fin (N + 1) => c m)) hiv) ⟨k, by omega⟩
    rw [← Matrix.mulVec_mulVec, Matrix.one_mulVec] at h
    simp only [Matrix.mulVec, dotProduct, toMat] at h
    rw [← h, Finset.sum_range]
    exact Finset.sum_congr rfl fun i _ => by rw [Finset.sum_range]
  · intro f hf
    refine ⟨∑ k ∈ Finset.range (N + 1), C ((poly 0 0 k).eval (if f = 0 then -1 else 1)) * poly 0 0 k, ?_, ?_, fun p hp => kernel N _ p hp⟩
    · apply natDegree_sum_le_of_forall_le
      intro k hk
      refine (natDegree_C_mul_le _ _).trans ?_
      rw [(Jacobi.poly_degree (by norm_num) (by norm_num) (by norm_num) k).1]
      have := Finset.mem_range.1 hk; omega
    · intro i hi
      simp only [buildLift, hV, vandermonde]
      rw [eval_finsetSum]
      apply Finset.sum_congr rfl
      intro k _
      rw [eval_mul, eval_C, leg_eval, leg_eval, mul_comm]
      congr 1
      rcases (by omega : f = 0 ∨ f = 1) with rfl | rfl
      · rw [Finset.sum_eq_single 0]
        · rw [hm1]; simp [faceE]
        · intro l _ hl0
          simp [faceE, hl0]
        · intro h; exact absurd (Finset.mem_range.2 (by omega)) h
      · rw [Finset.sum_eq_single N]
        · rw [hp1]; simp [faceE]
        · intro l _ hlN
          simp [faceE, hlN]
        · intro h; exact absurd (Finset.mem_range.2 (by omega)) h

/-- In particular `Dr` annihilates constants and maps the nodes to ones. -/
theorem C47_constants (N : ℕ) (hN : 1 ≤ N) (o : Ops) (h : OpsSpec N o) (i : ℕ) (hi : i ≤ N) :
    ∑ j ∈ Finset.range (N + 1), o.Dr.at' i j = 0 ∧ ∑ j ∈ Finset.range (N + 1), o.Dr.at' i j * o.r.getD j 0 = 1 := by
  constructor
  · have := h.diff 1 (by simp) i hi
    simpa using this
  · have := h.diff X (by rw [natDegree_X]; exact hN) i hi
    simpa using this

/-- An exact LAPACK. -/
noncomputable def exactLapack : Lapack where
  dsgesv := Dense.exactGesv
  dgetrf := Dense.exactGetrf
  dgetri := Dense.exactGetri
  query := fun _ => 0
  dsyevd := Dense.exactSyevd

theorem exactLapack_ok : exactLapack.Ok := ⟨Dense.exactGesv_ok, Dense.exactGetri_ok, Dense.exactSyevd_ok⟩

/-- With an exact LAPACK the construction succeeds for every order. -/
theorem buildOps_returns (eps : ℝ) (h0 : 0 < eps) (h1 : eps ≤ 0.1) (N : ℕ) (hN : 1 ≤ N) (r0 : List ℝ) (hr0 : r0.length = N + 1)
    (Vinv0 : DMat ℝ) (hVi : Vinv0.rows = N + 1 ∧ Vinv0.cols = N + 1) : ∃ o, buildOps exactLapack eps N r0 Vinv0 = .ok o ∧ OpsSpec N o := by
  rcases C47_operators exactLapack exactLapack_ok eps h0 h1 N hN r0 hr0 Vinv0 hVi with ⟨⟨x, h⟩, -⟩ | h
  · obtain ⟨x', h'⟩ := Jacobi.gll_returns 0 eps h0 h1 N hN r0 hr0
    simp only [Nat.cast_zero] at h'
    have : gllPoints (fun _ => 0) Dense.exactSyevd 0 0 eps N r0 = .ok (.threw x) := h
    rw [h'] at this
    simp at this
  · exact h

/-- The hypotheses of `C47_operators` are met, e.g. by order 5 with stale output arrays. -/
example : ∃ o, buildOps exactLapack (1 / 2 ^ 52) 5 [7, 7, 7, 7, 7, 7] { rows := 6, cols := 6, at' := fun _ _ => 3 } = .ok o ∧ OpsSpec 5 o :=
  buildOps_returns _ (by norm_num) (by norm_num) 5 (by omega) _ rfl _ ⟨rfl, rfl⟩

/-- **C63, with the operators of the code.** After a successful construction, on the grid of `K` elements of `[xmin, xmax]` the Jacobian is half the element width at every
node, `rx` its reciprocal, and `Fscale` equals `rx` at both faces. -/
theorem C63_built (la : Lapack) (hla : la.Ok) (eps : ℝ) (h0 : 0 < eps) (h1 : eps ≤ 0.1) (N : ℕ) (hN : 1 ≤ N) (r0 : List ℝ) (hr0 : r0.length = N + 1)
    (Vinv0 : DMat ℝ) (hVi : Vinv0.rows = N + 1 ∧ Vinv0.cols = N + 1) (o : Ops) (ho : buildOps la eps N r0 Vinv0 = .ok o)
    (xmin xmax : ℝ) (hx : xmin ≠ xmax) (K : ℕ) (hK : 0 < K) (i k : ℕ) (hi : i ≤ N) :
    jac o.Dr (grid xmin xmax K o.r) i k = (xmax - xmin) / K / 2 ∧
    rx o.Dr (grid xmin xmax K o.r) i k * ((xmax - xmin) / K / 2) = 1 ∧
    fscale o.Dr (grid xmin xmax K o.r) 0 k = rx o.Dr (grid xmin xmax K o.r) 0 k ∧
    fscale o.Dr (grid xmin xmax K o.r) 1 k = rx o.Dr (grid xmin xmax K o.r) N k := by
  rcases C47_operators la hla eps h0 h1 N hN r0 hr0 Vinv0 hVi with ⟨-, h⟩ | ⟨o', h, hs⟩
  · rw [h] at ho; cases ho
  rw [h] at ho
  obtain rfl : o' = o := by injection ho
  have hl := hs.nodes.1
  have := C63_metric xmin xmax hx K hK o'.r o'.Dr
    (fun i hi => by rw [hl]; exact (C47_constants N hN o' hs i (by omega)).1)
    (fun i hi => by rw [hl]; exact (C47_constants N hN o' hs i (by omega)).2) i k (by omega)
  rw [hl] at this
  exact this

end Blitzdg.Nodes1D
