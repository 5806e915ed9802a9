import Verif.DG2D.Ops
import Verif.DG2D.OrthoProps
import Verif.Nodes1D.OpsProps

/-! Properties of the two-dimensional reference operators: C47 (strong and weak differentiation), C71 (lift), C46 (interpolation). -/

namespace Blitzdg.DG2D

open MvPolynomial
open Blitzdg.Sparse (DMat)
open Blitzdg.Dense (Done directSolve computeInverse GesvOk GetriOk SyevdOk toMat C37_direct C37_inverse)
open Blitzdg.Nodes1D (Lapack uncaught vandermonde trans leg_eval leg_span leg_orth wint00 vandermonde_unit)
open Blitzdg.Jacobi (poly)

/-! ### Specification -/

/-- Values of a polynomial at the nodes. -/
noncomputable def nodal (r s : List ℝ) (p : P2) (i : ℕ) : ℝ := ev (r.getD i 0) (s.getD i 0) p

/-- Integral of a polynomial. -/
noncomputable def integ (I : (ℝ → ℝ → ℝ) → ℝ) (p : P2) : ℝ := I fun r s => ev r s p

/-- What differentiation matrices must do: `Space` is the polynomial space of the element and `I` the integral over it. -/
structure DiffSpec (Space : P2 → Prop) (I : (ℝ → ℝ → ℝ) → ℝ) (r s : List ℝ) (d : Diff) : Prop where
  /-- `Dr` turns nodal values of a polynomial of the space into nodal values of its r-derivative ... -/
  dr : ∀ p, Space p → ∀ i < r.length, ∑ j ∈ Finset.range r.length, d.Dr.at' i j * nodal r s p j = nodal r s (pderiv 0 p) i
  /-- ... `Ds` of its s-derivative. -/
  ds : ∀ p, Space p → ∀ i < r.length, ∑ j ∈ Finset.range r.length, d.Ds.at' i j * nodal r s p j = nodal r s (pderiv 1 p) i
  /-- The weak derivative: `Drw` applied to `p` gives the `w` of the space with `∫ w t = ∫ p ∂t/∂r` for every `t` of the space. -/
  drw : ∀ p, Space p → ∃ w, Space w ∧ (∀ i < r.length, ∑ j ∈ Finset.range r.length, d.Drw.at' i j * nodal r s p j = nodal r s w i) ∧
    ∀ t, Space t → integ I (w * t) = integ I (p * pderiv 0 t)
  dsw : ∀ p, Space p → ∃ w, Space w ∧ (∀ i < r.length, ∑ j ∈ Finset.range r.length, d.Dsw.at' i j * nodal r s p j = nodal r s w i) ∧
    ∀ t, Space t → integ I (w * t) = integ I (p * pderiv 1 t)

/-- What the lift must do.  `γ f` parametrises face `f` over `[-1, 1]`, `t f j` is the parameter of its node `j`: applied to the values of a face polynomial `g`, columns
`f (N+1) ..` of `Lift` give the nodal values of the `w` of the space with `∫ w p = ∫_face f g p` for every `p` of the space. -/
def LiftSpec (N nf : ℕ) (Space : P2 → Prop) (I : (ℝ → ℝ → ℝ) → ℝ) (γ : ℕ → ℝ → ℝ × ℝ) (t : ℕ → ℕ → ℝ) (r s : List ℝ) (lift : DMat ℝ) : Prop :=
  ∀ f < nf, ∀ g : Polynomial ℝ, g.natDegree ≤ N → ∃ w, Space w ∧
    (∀ i < r.length, ∑ j ∈ Finset.range (N + 1), lift.at' i (f * (N + 1) + j) * g.eval (t f j) = nodal r s w i) ∧
    ∀ p, Space p → integ I (w * p) = ∫ x in (-1 : ℝ)..1, g.eval x * ev (γ f x).1 (γ f x).2 p

/-- `Vinv` turns nodal values into modal coefficients. -/
def ModalSpec (pairs : List (ℕ × ℕ)) (q : ℕ × ℕ → P2) (r s : List ℝ) (Vinv : DMat ℝ) : Prop :=
  ∀ c : ℕ → ℝ, ∀ k < r.length, ∑ i ∈ Finset.range r.length, Vinv.at' k i * nodal r s (∑ m ∈ Finset.range r.length, C (c m) * q (pairs.getD m (0, 0))) i = c k

/-! ### What is used about the modes -/

structure Modal (pairs : List (ℕ × ℕ)) (f fr fs : ℕ × ℕ → ℝ → ℝ → ℝ) (Reg : ℝ → ℝ → Prop) (q : ℕ × ℕ → P2) (Space : P2 → Prop) (I : (ℝ → ℝ → ℝ) → ℝ) : Prop where
  val : ∀ p r s, Reg r s → f p r s = ev r s (q p) ∧ fr p r s = ev r s (pderiv 0 (q p)) ∧ fs p r s = ev r s (pderiv 1 (q p))
  span : ∀ p, Space p → p ∈ modeSpan pairs q
  mem : ∀ p, p ∈ modeSpan pairs q → Space p
  closed : ∀ i p, Space p → Space (pderiv i p)
  nodup : pairs.Nodup
  orth : ∀ p p', integ I (q p * q p') = if p = p' then 1 else 0
  add : ∀ p p', integ I (p + p') = integ I p + integ I p'
  smul : ∀ c p, integ I (C c * p) = c * integ I p

section
variable {pairs : List (ℕ × ℕ)} {f fr fs : ℕ × ℕ → ℝ → ℝ → ℝ} {Reg : ℝ → ℝ → Prop} {q : ℕ × ℕ → P2} {Space : P2 → Prop} {I : (ℝ → ℝ → ℝ) → ℝ}

/-- Mode number `k`. -/
noncomputable def nth (pairs : List (ℕ × ℕ)) (q : ℕ × ℕ → P2) (k : ℕ) : P2 := q (pairs.getD k (0, 0))

theorem nth_mem (pairs : List (ℕ × ℕ)) (q : ℕ × ℕ → P2) {n : ℕ} (hn : pairs.length = n) (k : Fin n) : nth pairs q k ∈ modeSpan pairs q := by
  subst hn
  exact Submodule.subset_span ⟨k, rfl⟩

/-- The polynomial with given coefficients. -/
noncomputable def comb (pairs : List (ℕ × ℕ)) (q : ℕ × ℕ → P2) {n : ℕ} (c : Fin n → ℝ) : P2 := ∑ k, C (c k) * nth pairs q k

theorem Modal.space_comb (h : Modal pairs f fr fs Reg q Space I) {n : ℕ} (hn : pairs.length = n) (c : Fin n → ℝ) : Space (comb pairs q c) :=
  h.mem _ (Submodule.sum_mem _ fun k _ => C_mul_mem _ (nth_mem pairs q hn k))

theorem Modal.coeffs (h : Modal pairs f fr fs Reg q Space I) {n : ℕ} (hn : pairs.length = n) {p : P2} (hp : Space p) : ∃ c : Fin n → ℝ, p = comb pairs q c := by
  subst hn
  exact exists_coeffs (h.span p hp)

theorem Modal.sum (h : Modal pairs f fr fs Reg q Space I) {ι : Type} (s : Finset ι) (g : ι → P2) : integ I (∑ k ∈ s, g k) = ∑ k ∈ s, integ I (g k) := by
  classical
  induction s using Finset.induction_on with
  | empty =>
    have := h.smul 0 0
    simpa using this
  | insert k s hk ih => rw [Finset.sum_insert hk, Finset.sum_insert hk, h.add, ih]

/-- In coefficients the integral of a product is the dot product. -/
theorem Modal.dot (h : Modal pairs f fr fs Reg q Space I) {n : ℕ} (hn : pairs.length = n) (a b : Fin n → ℝ) :
    integ I (comb pairs q a * comb pairs q b) = ∑ k, a k * b k := by
  have hne : ∀ k l : Fin n, (pairs.getD k (0, 0) = pairs.getD l (0, 0)) ↔ k = l := by
    intro k l
    have hk : (k : ℕ) < pairs.length := by rw [hn]; exact k.2
    have hl : (l : ℕ) < pairs.length := by rw [hn]; exact l.2
    rw [List.getD_eq_getElem _ _ hk, List.getD_eq_getElem _ _ hl, h.nodup.getElem_inj_iff]
    exact ⟨fun e => Fin.ext e, fun e => by rw [e]⟩
  unfold comb
  rw [Finset.sum_mul_sum, h.sum]
  apply Finset.sum_congr rfl
  intro k _
  rw [h.sum, Finset.sum_eq_single k]
  · have e : C (a k) * nth pairs q k * (C (b k) * nth pairs q k) = C (a k * b k) * (nth pairs q k * nth pairs q k) := by rw [C_mul]; ring
    rw [e, h.smul, nth, h.orth, if_pos rfl, mul_one]
  · intro l _ hl
    have e : C (a k) * nth pairs q k * (C (b l) * nth pairs q l) = C (a k * b l) * (nth pairs q k * nth pairs q l) := by rw [C_mul]; ring
    rw [e, h.smul, nth, nth, h.orth, if_neg (fun e => hl ((hne k l).1 e).symm), mul_zero]
  · intro hk; exact absurd (Finset.mem_univ k) hk

/-- All nodes are regular. -/
def AllReg (Reg : ℝ → ℝ → Prop) (r s : List ℝ) : Prop := ∀ i < r.length, Reg (r.getD i 0) (s.getD i 0)

theorem Modal.nodal_comb (h : Modal pairs f fr fs Reg q Space I) {r s : List ℝ} (hr : AllReg Reg r s) {m n : ℕ} (hm : r.length = m) (c : Fin n → ℝ) (i : Fin m) :
    nodal r s (comb pairs q c) i = (toMat (modeMatrix pairs f r s) m n).mulVec c i ∧
    nodal r s (pderiv 0 (comb pairs q c)) i = (toMat (modeMatrix pairs fr r s) m n).mulVec c i ∧
    nodal r s (pderiv 1 (comb pairs q c)) i = (toMat (modeMatrix pairs fs r s) m n).mulVec c i := by
  have hi := hr i (by rw [hm]; exact i.2)
  unfold nodal comb Matrix.mulVec dotProduct toMat modeMatrix
  simp only [map_sum, map_mul, eval_C, Derivation.leibniz, pderiv_C, smul_eq_mul, mul_zero, add_zero]
  refine ⟨?_, ?_, ?_⟩
  · exact Finset.sum_congr rfl fun k _ => by rw [(h.val (pairs.getD k (0, 0)) _ _ hi).1, mul_comm]; rfl
  · exact Finset.sum_congr rfl fun k _ => by rw [(h.val (pairs.getD k (0, 0)) _ _ hi).2.1, mul_comm]; rfl
  · exact Finset.sum_congr rfl fun k _ => by rw [(h.val (pairs.getD k (0, 0)) _ _ hi).2.2, mul_comm]; rfl

theorem toMat_trans (A : DMat ℝ) (m n : ℕ) : toMat (trans A) n m = (toMat A m n).transpose := rfl

theorem toMat_mul (A B : DMat ℝ) (m k n : ℕ) (hk : A.cols = k) : toMat (mul A B) m n = toMat A m k * toMat B k n := by
  subst hk
  ext i j
  rw [Matrix.mul_apply]
  simp only [toMat, mul]
  rw [Finset.sum_range]

/-- One solve with an invertible matrix succeeds. -/
theorem solveInto_ok (la : Lapack) (hla : la.Ok) (A B : DMat ℝ) (n m : ℕ) (h0 : 0 < n) (hA : A.rows = n ∧ A.cols = n) (hB : B.rows = n ∧ B.cols = m)
    (hu : IsUnit (toMat A n n)) : ∃ X, solveInto la A B n m = .ok X ∧ X.rows = n ∧ X.cols = m ∧ toMat A n n * toMat X n m = toMat B n m := by
  rcases C37_direct la.dsgesv hla.gesv A B (fresh n m) n m hA hB ⟨rfl, rfl⟩ with ⟨-, X, hx, h1, h2, h3⟩ | ⟨h, -⟩
  · exact ⟨X, by unfold solveInto; rw [hx]; rfl, h1, h2, h3⟩
  · exact absurd ⟨h0, hu⟩ h

theorem solveInto_throws (la : Lapack) (hla : la.Ok) (A B : DMat ℝ) (n m : ℕ) (hA : A.rows = n ∧ A.cols = n) (hB : B.rows = n ∧ B.cols = m)
    (hu : ¬ IsUnit (toMat A n n)) : solveInto la A B n m = .throws := by
  rcases C37_direct la.dsgesv hla.gesv A B (fresh n m) n m hA hB ⟨rfl, rfl⟩ with ⟨⟨-, h⟩, -⟩ | ⟨-, h⟩
  · exact absurd h hu
  · unfold solveInto; rw [h]; rfl

theorem invertInto_ok (la : Lapack) (hla : la.Ok) (A : DMat ℝ) (n : ℕ) (h0 : 0 < n) (hA : A.rows = n ∧ A.cols = n)
    (hu : IsUnit (toMat A n n)) : ∃ X, invertInto la A n n = .ok X ∧ X.rows = n ∧ X.cols = n ∧ toMat A n n * toMat X n n = 1 ∧ toMat X n n * toMat A n n = 1 := by
  rcases C37_inverse la.dgetrf la.dgetri hla.getri A (fresh n n) n hA ⟨rfl, rfl⟩ with ⟨X, hx, h1, h2, h3, h4⟩ | ⟨-, h⟩
  · exact ⟨X, by unfold invertInto; rw [hx]; rfl, h1, h2, h3, h4⟩
  · exact absurd ⟨h0, hu⟩ h

theorem invertInto_throws (la : Lapack) (hla : la.Ok) (A : DMat ℝ) (n : ℕ) (hA : A.rows = n ∧ A.cols = n)
    (hu : ¬ IsUnit (toMat A n n)) : invertInto la A n n = .throws := by
  rcases C37_inverse la.dgetrf la.dgetri hla.getri A (fresh n n) n hA ⟨rfl, rfl⟩ with ⟨X, hx, h1, h2, h3, h4⟩ | ⟨h, -⟩
  · exact absurd ⟨⟨_, _, h3, h4⟩, rfl⟩ hu
  · unfold invertInto; rw [h]; rfl

/-- The strong derivative from its defining equation. -/
theorem strong_exact {n : ℕ} (V V2 D : Matrix (Fin n) (Fin n) ℝ) (hD : D * V = V2) (c : Fin n → ℝ) : D.mulVec (V.mulVec c) = V2.mulVec c := by
  rw [Matrix.mulVec_mulVec, hD]

/-- The weak derivative from its defining equation. -/
theorem weak_exact {n : ℕ} (V Vi V2 D : Matrix (Fin n) (Fin n) ℝ) (h1 : V * Vi = 1) (hD : D * (V * V.transpose) = V * V2.transpose) (c : Fin n → ℝ) :
    D.mulVec (V.mulVec c) = V.mulVec ((Vi * V2).transpose.mulVec c) := by
  have h2 : Vi * V = 1 := mul_eq_one_comm.1 h1
  have e : D * V = V * (Vi * V2).transpose := by
    have ht : V.transpose * Vi.transpose = 1 := by rw [← Matrix.transpose_mul, h2, Matrix.transpose_one]
    calc D * V = D * V * (V.transpose * Vi.transpose) := by rw [ht, Matrix.mul_one]
      _ = D * (V * V.transpose) * Vi.transpose := by simp only [Matrix.mul_assoc]
      _ = V * (V2.transpose * Vi.transpose) := by rw [hD]; simp only [Matrix.mul_assoc]
      _ = _ := by rw [Matrix.transpose_mul]
  rw [Matrix.mulVec_mulVec, e, ← Matrix.mulVec_mulVec]

/-- Both derivatives in one direction. -/
theorem diff_part (h : Modal pairs f fr fs Reg q Space I) (r s : List ℝ) (n : ℕ) (hn : r.length = n) (hp : pairs.length = n)
    (hr : AllReg Reg r s) (V R : Matrix (Fin n) (Fin n) ℝ) (hV : V = toMat (modeMatrix pairs f r s) n n) (hu : IsUnit V) (k : Fin 2)
    (hR : ∀ (c : Fin n → ℝ) (i : Fin n), nodal r s (pderiv k (comb pairs q c)) i = R.mulVec c i) (D W : DMat ℝ)
    (hD : toMat D n n * V = R) (hW : toMat W n n * (V * V.transpose) = V * R.transpose) (p : P2) (hpS : Space p) :
    (∀ i < r.length, ∑ j ∈ Finset.range r.length, D.at' i j * nodal r s p j = nodal r s (pderiv k p) i) ∧
    ∃ w, Space w ∧ (∀ i < r.length, ∑ j ∈ Finset.range r.length, W.at' i j * nodal r s p j = nodal r s w i) ∧
      ∀ t, Space t → integ I (w * t) = integ I (p * pderiv k t) := by
  obtain ⟨Vi, hvi⟩ : ∃ Vi, V * Vi = 1 := ⟨_, hu.choose_spec ▸ hu.choose.mul_inv⟩
  have hiv : Vi * V = 1 := mul_eq_one_comm.1 hvi
  have hval : ∀ (c : Fin n → ℝ) (i : Fin n), nodal r s (comb pairs q c) i = V.mulVec c i := fun c i => by rw [hV]; exact (h.nodal_comb hr hn c i).1
  obtain ⟨c, rfl⟩ := h.coeffs hp hpS
  have happ : ∀ (M : DMat ℝ) (i : ℕ) (hi : i < n),
      ∑ j ∈ Finset.range r.length, M.at' i j * nodal r s (comb pairs q c) j = (toMat M n n).mulVec (V.mulVec c) ⟨i, hi⟩ := by
    intro M i hi
    rw [hn, Finset.sum_range]
    unfold Matrix.mulVec dotProduct
    exact Finset.sum_congr rfl fun j _ => by rw [hval c j]; rfl
  refine ⟨fun i hi => ?_, comb pairs q ((Vi * R).transpose.mulVec c), h.space_comb hp _, fun i hi => ?_, fun t ht => ?_⟩
  · rw [hn] at hi
    rw [happ D i hi, strong_exact V R _ hD c]
    exact (hR c ⟨i, hi⟩).symm
  · rw [hn] at hi
    rw [happ W i hi, weak_exact V Vi R _ hvi hW c]
    exact (hval _ ⟨i, hi⟩).symm
  · obtain ⟨a, rfl⟩ := h.coeffs hp ht
    obtain ⟨b, hb⟩ := h.coeffs hp (h.closed k _ (h.space_comb hp a))
    have hb' : b = (Vi * R).mulVec a := by
      have e : V.mulVec b = R.mulVec a := by
        funext i
        rw [← hval b i, ← hb, hR a i]
      have := congrArg Vi.mulVec e
      rw [Matrix.mulVec_mulVec, hiv, Matrix.one_mulVec, Matrix.mulVec_mulVec] at this
      exact this
    rw [hb, h.dot hp, h.dot hp, hb']
    have := Matrix.dotProduct_mulVec c (Vi * R) a
    rw [← Matrix.mulVec_transpose] at this
    exact this.symm

/-- **C47, differentiation matrices.**  If the Vandermonde matrix is invertible the matrices are built and satisfy `DiffSpec`. -/
theorem diff_ok (h : Modal pairs f fr fs Reg q Space I) (la : Lapack) (hla : la.Ok) (r s : List ℝ) (n : ℕ) (h0 : 0 < n) (hn : r.length = n) (hp : pairs.length = n)
    (hr : AllReg Reg r s) (hu : IsUnit (toMat (modeMatrix pairs f r s) n n)) :
    ∃ d, diffMatrices la (modeMatrix pairs fr r s) (modeMatrix pairs fs r s) (modeMatrix pairs f r s) (modeMatrix pairs f r s) = .ok d ∧ DiffSpec Space I r s d := by
  set V := modeMatrix pairs f r s with hV
  set R := modeMatrix pairs fr r s with hR
  set S := modeMatrix pairs fs r s with hS
  have sV : V.rows = n ∧ V.cols = n := ⟨hn, hp⟩
  have sR : R.rows = n ∧ R.cols = n := ⟨hn, hp⟩
  have sS : S.rows = n ∧ S.cols = n := ⟨hn, hp⟩
  have hut : IsUnit (toMat (trans V) n n) := by rw [toMat_trans]; exact (Matrix.isUnit_transpose _).2 hu
  have eVV : toMat (mul V (trans V)) n n = toMat V n n * (toMat V n n).transpose := by rw [toMat_mul _ _ _ _ _ sV.2, toMat_trans]
  have eVR : toMat (withCols (mul V (trans R)) V.rows) n n = toMat V n n * (toMat R n n).transpose := (toMat_mul _ _ _ _ _ sV.2).trans (by rw [toMat_trans])
  have eVS : toMat (withCols (mul V (trans S)) V.rows) n n = toMat V n n * (toMat S n n).transpose := (toMat_mul _ _ _ _ _ sV.2).trans (by rw [toMat_trans])
  have huu : IsUnit (toMat (trans (mul V (trans V))) n n) := by
    rw [toMat_trans, Matrix.isUnit_transpose, eVV]
    exact hu.mul ((Matrix.isUnit_transpose _).2 hu)
  obtain ⟨X1, h1, -, -, e1⟩ := solveInto_ok la hla (trans V) (trans R) n n h0 ⟨sV.2, sV.1⟩ ⟨sR.2, sR.1⟩ hut
  obtain ⟨X2, h2, -, -, e2⟩ := solveInto_ok la hla (trans V) (trans S) n n h0 ⟨sV.2, sV.1⟩ ⟨sS.2, sS.1⟩ hut
  obtain ⟨X3, h3, -, -, e3⟩ := solveInto_ok la hla (trans (mul V (trans V))) (trans (withCols (mul V (trans R)) V.rows)) n n h0 ⟨sV.1, sV.1⟩ ⟨sV.1, sV.1⟩ huu
  obtain ⟨X4, h4, -, -, e4⟩ := solveInto_ok la hla (trans (mul V (trans V))) (trans (withCols (mul V (trans S)) V.rows)) n n h0 ⟨sV.1, sV.1⟩ ⟨sV.1, sV.1⟩ huu
  refine ⟨{ Dr := trans X1, Ds := trans X2, Drw := trans X3, Dsw := trans X4 }, ?_, ?_⟩
  · unfold diffMatrices
    rw [sV.1] at h3 h4
    simp only [sV.1, sR.1, h1, h2, h3, h4, Out.bind_ok]
    rfl
  -- transposed equations
  have g1 : toMat (trans X1) n n * toMat V n n = toMat R n n := by
    have := congrArg Matrix.transpose e1
    rw [Matrix.transpose_mul, toMat_trans, Matrix.transpose_transpose, toMat_trans, Matrix.transpose_transpose] at this
    exact this
  have g2 : toMat (trans X2) n n * toMat V n n = toMat S n n := by
    have := congrArg Matrix.transpose e2
    rw [Matrix.transpose_mul, toMat_trans, Matrix.transpose_transpose, toMat_trans, Matrix.transpose_transpose] at this
    exact this
  have g3 : toMat (trans X3) n n * (toMat V n n * (toMat V n n).transpose) = toMat V n n * (toMat R n n).transpose := by
    have := congrArg Matrix.transpose e3
    rw [Matrix.transpose_mul, toMat_trans, Matrix.transpose_transpose, toMat_trans, Matrix.transpose_transpose, eVV, eVR] at this
    exact this
  have g4 : toMat (trans X4) n n * (toMat V n n * (toMat V n n).transpose) = toMat V n n * (toMat S n n).transpose := by
    have := congrArg Matrix.transpose e4
    rw [Matrix.transpose_mul, toMat_trans, Matrix.transpose_transpose, toMat_trans, Matrix.transpose_transpose, eVV, eVS] at this
    exact this
  have hR' : ∀ (c : Fin n → ℝ) (i : Fin n), nodal r s (pderiv 0 (comb pairs q c)) i = (toMat R n n).mulVec c i := fun c i => (h.nodal_comb hr hn c i).2.1
  have hS' : ∀ (c : Fin n → ℝ) (i : Fin n), nodal r s (pderiv 1 (comb pairs q c)) i = (toMat S n n).mulVec c i := fun c i => (h.nodal_comb hr hn c i).2.2
  have k0 := fun p hp' => diff_part h r s n hn hp hr _ _ rfl hu 0 hR' (trans X1) (trans X3) g1 g3 p hp'
  have k1 := fun p hp' => diff_part h r s n hn hp hr _ _ rfl hu 1 hS' (trans X2) (trans X4) g2 g4 p hp'
  exact ⟨fun p hp' => (k0 p hp').1, fun p hp' => (k1 p hp').1, fun p hp' => (k0 p hp').2, fun p hp' => (k1 p hp').2⟩

/-- If the Vandermonde matrix is singular the construction of the differentiation matrices throws. -/
theorem diff_throws (la : Lapack) (hla : la.Ok) (V R S : DMat ℝ) (n m : ℕ) (sV : V.rows = n ∧ V.cols = n) (sR : R.rows = m ∧ R.cols = n)
    (hu : ¬ IsUnit (toMat V n n)) (Vc : DMat ℝ) : diffMatrices la R S V Vc = .throws := by
  unfold diffMatrices
  rw [sV.1, sR.1, solveInto_throws la hla (trans V) (trans R) n m ⟨sV.2, sV.1⟩ ⟨sR.2, sR.1⟩ (by rw [toMat_trans, Matrix.isUnit_transpose]; exact hu)]
  rfl

/-! ### Lift -/

/-- The faces: `γ f` parametrises face `f`; the nodes listed by `Fmask` lie on it, at the parameters the code uses, which are distinct. -/
structure Faces (N nf : ℕ) (fm : ℕ → ℕ → ℕ) (onS : ℕ → Bool) (γ : ℕ → ℝ → ℝ × ℝ) (r s : List ℝ) : Prop where
  lt : ∀ f < nf, ∀ i ≤ N, fm i f < r.length
  on : ∀ f < nf, ∀ i ≤ N, (r.getD (fm i f) 0, s.getD (fm i f) 0) = γ f ((faceCoords (N + 1) fm onS r s f).getD i 0)
  distinct : ∀ f < nf, ∀ i j : ℕ, i < j → j ≤ N → (faceCoords (N + 1) fm onS r s f).getD i 0 ≠ (faceCoords (N + 1) fm onS r s f).getD j 0

/-- Polynomials of the space restrict to polynomials of degree at most `N` on the faces. -/
def HasTrace (N nf : ℕ) (Space : P2 → Prop) (γ : ℕ → ℝ → ℝ × ℝ) : Prop :=
  ∀ f < nf, ∀ p, Space p → ∃ u : Polynomial ℝ, u.natDegree ≤ N ∧ ∀ x, u.eval x = ev (γ f x).1 (γ f x).2 p

/-- The face mass matrix computes integrals of products of polynomials on the face. -/
theorem edgeMass_ok (la : Lapack) (hla : la.Ok) (N : ℕ) (t : List ℝ) (ht : t.length = N + 1) (hd : ∀ i j : ℕ, i < j → j ≤ N → t.getD i 0 ≠ t.getD j 0) :
    ∃ M, edgeMass la t = .ok M ∧ ∀ u g : Polynomial ℝ, u.natDegree ≤ N → g.natDegree ≤ N →
      ∑ i ∈ Finset.range (N + 1), ∑ j ∈ Finset.range (N + 1), u.eval (t.getD i 0) * (M.at' i j * g.eval (t.getD j 0)) = ∫ x in (-1 : ℝ)..1, u.eval x * g.eval x := by
  have hu := vandermonde_unit N t hd
  set V1 := vandermonde t (N + 1) with hV1
  have sV : V1.rows = N + 1 ∧ V1.cols = N + 1 := ⟨ht, rfl⟩
  have eVV : toMat (mul V1 (trans V1)) (N + 1) (N + 1) = toMat V1 (N + 1) (N + 1) * (toMat V1 (N + 1) (N + 1)).transpose := by
    rw [toMat_mul _ _ _ _ _ sV.2, toMat_trans]
  obtain ⟨X, hX, -, -, -, -⟩ := invertInto_ok la hla V1 (N + 1) (by omega) sV hu
  obtain ⟨M, hM, -, -, e1, e2⟩ := invertInto_ok la hla (mul V1 (trans V1)) (N + 1) (by omega) ⟨sV.1, sV.1⟩
    (by rw [eVV]; exact hu.mul ((Matrix.isUnit_transpose _).2 hu))
  refine ⟨M, ?_, ?_⟩
  · unfold edgeMass
    simp only [ht]
    rw [← hV1, hX]
    exact hM
  intro u g hud hgd
  obtain ⟨a, ha⟩ := leg_span N u hud
  obtain ⟨b, hb⟩ := leg_span N g hgd
  have ev1 : ∀ (w : Polynomial ℝ) (c : ℕ → ℝ), w = ∑ k ∈ Finset.range (N + 1), Polynomial.C (c k) * poly 0 0 k → ∀ i : Fin (N + 1),
      w.eval (t.getD i 0) = (toMat V1 (N + 1) (N + 1)).mulVec (fun k : Fin (N + 1) => c k) i := by
    intro w c hw i
    rw [hw, Polynomial.eval_finsetSum, Finset.sum_range]
    unfold Matrix.mulVec dotProduct
    apply Finset.sum_congr rfl
    intro k _
    rw [Polynomial.eval_mul, Polynomial.eval_C, leg_eval, mul_comm]
    rfl
  have hI : ∫ x in (-1 : ℝ)..1, u.eval x * g.eval x = ∑ k : Fin (N + 1), a k * b k := by
    have e : (∫ x in (-1 : ℝ)..1, u.eval x * g.eval x) = Jacobi.wint 0 0 (u * g) := by
      rw [wint00]; congr 1; funext x; rw [Polynomial.eval_mul]
    rw [e, ha, hb, Finset.sum_mul_sum, Nodes1D.wint_sum, Finset.sum_range]
    apply Finset.sum_congr rfl
    intro k _
    rw [Nodes1D.wint_sum, Finset.sum_eq_single (k : ℕ)]
    · have e : Polynomial.C (a k) * poly 0 0 k * (Polynomial.C (b k) * poly 0 0 k) = Polynomial.C (a k * b k) * (poly 0 0 k * poly 0 0 k) := by
        rw [Polynomial.C_mul]; ring
      rw [e, Jacobi.wint_smul, leg_orth, if_pos rfl, mul_one]
    · intro l _ hl
      have e : Polynomial.C (a k) * poly 0 0 k * (Polynomial.C (b l) * poly 0 0 l) = Polynomial.C (a k * b l) * (poly 0 0 k * poly 0 0 l) := by
        rw [Polynomial.C_mul]; ring
      rw [e, Jacobi.wint_smul, leg_orth, if_neg (Ne.symm hl), mul_zero]
    · intro hk; exact absurd (Finset.mem_range.2 k.2) hk
  rw [hI]
  set W := toMat V1 (N + 1) (N + 1) with hW
  have key : W.transpose * (toMat M (N + 1) (N + 1) * W) = 1 := by
    rw [eVV] at e2
    obtain ⟨Wi, hWi⟩ : ∃ Wi, W * Wi = 1 := ⟨_, hu.choose_spec ▸ hu.choose.mul_inv⟩
    have hiW : Wi * W = 1 := mul_eq_one_comm.1 hWi
    have h3 : toMat M (N + 1) (N + 1) * W * W.transpose = 1 := by rw [Matrix.mul_assoc]; exact e2
    exact mul_eq_one_comm.1 h3
  rw [Finset.sum_range]
  have e3 : ∑ i : Fin (N + 1), ∑ j ∈ Finset.range (N + 1), u.eval (t.getD i 0) * (M.at' i j * g.eval (t.getD j 0))
      = dotProduct (W.mulVec fun k : Fin (N + 1) => a k) ((toMat M (N + 1) (N + 1)).mulVec (W.mulVec fun k : Fin (N + 1) => b k)) := by
    unfold dotProduct
    apply Finset.sum_congr rfl
    intro i _
    rw [← ev1 u a ha i, ← Finset.mul_sum, Finset.sum_range]
    congr 1
    unfold Matrix.mulVec dotProduct
    apply Finset.sum_congr rfl
    intro j _
    rw [ev1 g b hb j]
    rfl
  rw [e3, Matrix.mulVec_mulVec, ← Matrix.vecMul_transpose, ← Matrix.dotProduct_mulVec, Matrix.mulVec_mulVec, key, Matrix.one_mulVec]
  rfl

theorem fill_aux (key : ℕ × ℕ → ℕ × ℕ) (v : ℕ × ℕ → ℝ) (l : List (ℕ × ℕ)) (E : DMat ℝ) :
    let E' := l.foldl (fun E ij => Blitz.mset E (key ij).1 (key ij).2 (v ij)) E
    (E'.rows = E.rows ∧ E'.cols = E.cols) ∧ (∀ a b, (∀ ij ∈ l, key ij ≠ (a, b)) → E'.at' a b = E.at' a b) ∧
      ((∀ x ∈ l, ∀ y ∈ l, key x = key y → x = y) → ∀ ij ∈ l, E'.at' (key ij).1 (key ij).2 = v ij) := by
  induction l generalizing E with
  | nil => exact ⟨⟨rfl, rfl⟩, fun _ _ _ => rfl, fun _ ij h => by cases h⟩
  | cons x l ih =>
    obtain ⟨h1, h2, h3⟩ := ih (Blitz.mset E (key x).1 (key x).2 (v x))
    refine ⟨h1, fun a b hab => ?_, fun hinj ij hij => ?_⟩
    · rw [List.foldl_cons, h2 a b (fun ij h => hab ij (List.mem_cons_of_mem _ h))]
      simp only [Blitz.mset]
      rw [if_neg]
      rintro ⟨rfl, rfl⟩
      exact hab x List.mem_cons_self rfl
    · rw [List.foldl_cons]
      by_cases hm : ij ∈ l
      · exact h3 (fun a ha b hb => hinj a (List.mem_cons_of_mem _ ha) b (List.mem_cons_of_mem _ hb)) ij hm
      · have hx : ij = x := by
          rcases List.mem_cons.1 hij with h | h
          · exact h
          · exact absurd h hm
        subst hx
        rw [h2]
        · simp [Blitz.mset]
        · intro y hy e
          have := hinj y (List.mem_cons_of_mem _ hy) ij List.mem_cons_self e
          exact hm (this ▸ hy)

theorem fillFace_spec (nfp : ℕ) (fm : ℕ → ℕ) (hinj : ∀ i < nfp, ∀ j < nfp, fm i = fm j → i = j) (M : DMat ℝ) (off : ℕ) (E : DMat ℝ) :
    ((fillFace nfp fm M off E).rows = E.rows ∧ (fillFace nfp fm M off E).cols = E.cols) ∧
    (∀ a b, (b < off ∨ off + nfp ≤ b) → (fillFace nfp fm M off E).at' a b = E.at' a b) ∧
    (∀ a b, (∀ i < nfp, fm i ≠ a) → (fillFace nfp fm M off E).at' a b = E.at' a b) ∧
    ∀ i < nfp, ∀ j < nfp, (fillFace nfp fm M off E).at' (fm i) (off + j) = M.at' i j := by
  obtain ⟨h1, h2, h3⟩ := fill_aux (fun ij => (fm ij.1, off + ij.2)) (fun ij => M.at' ij.1 ij.2) (Sparse.rowMajor nfp nfp) E
  have hmem : ∀ ij, ij ∈ Sparse.rowMajor nfp nfp ↔ ij.1 < nfp ∧ ij.2 < nfp := fun ij => Blitz.mem_order (b := true) (m := nfp) (n := nfp) (i := ij.1) (j := ij.2)
  refine ⟨h1, fun a b hb => h2 a b fun ij hij e => ?_, fun a b ha => h2 a b fun ij hij e => ?_, fun i hi j hj => ?_⟩
  · have := (hmem ij).1 hij
    simp only [Prod.mk.injEq] at e
    omega
  · have := (hmem ij).1 hij
    simp only [Prod.mk.injEq] at e
    exact ha ij.1 this.1 e.1
  · refine h3 ?_ (i, j) ((hmem (i, j)).2 ⟨hi, hj⟩)
    rintro ⟨a, b⟩ hx ⟨c, d⟩ hy e
    have h1 := (hmem _).1 hx
    have h2 := (hmem _).1 hy
    simp only [Prod.mk.injEq] at e
    have := hinj a h1.1 c h2.1 e.1
    simp only [Prod.mk.injEq]
    exact ⟨this, by omega⟩

theorem faceMatrix_ok (la : Lapack) (nf nfp np : ℕ) (fm : ℕ → ℕ → ℕ) (onS : ℕ → Bool) (r s : List ℝ) (M : ℕ → DMat ℝ)
    (hM : ∀ f < nf, edgeMass la (faceCoords nfp fm onS r s f) = .ok (M f)) (hinj : ∀ f < nf, ∀ i < nfp, ∀ j < nfp, fm i f = fm j f → i = j) :
    ∃ E, faceMatrix la nf nfp np fm onS r s = .ok E ∧ E.rows = np ∧ E.cols = nf * nfp ∧ ∀ f < nf, ∀ j < nfp,
      (∀ i < nfp, E.at' (fm i f) (f * nfp + j) = (M f).at' i j) ∧ ∀ a, (∀ i < nfp, fm i f ≠ a) → E.at' a (f * nfp + j) = 0 := by
  have aux : ∀ k ≤ nf, ∃ E, loopM (fun E f => do
      let M ← edgeMass la (faceCoords nfp fm onS r s f)
      pure (fillFace nfp (fun i => fm i f) M (f * nfp) E)) (fresh np (nf * nfp)) (List.range k) = .ok E ∧ E.rows = np ∧ E.cols = nf * nfp ∧
      (∀ f < k, ∀ j < nfp, (∀ i < nfp, E.at' (fm i f) (f * nfp + j) = (M f).at' i j) ∧ ∀ a, (∀ i < nfp, fm i f ≠ a) → E.at' a (f * nfp + j) = 0) ∧
      ∀ a b, k * nfp ≤ b → E.at' a b = 0 := by
    intro k
    induction k with
    | zero => exact fun _ => ⟨_, rfl, rfl, rfl, fun f hf => absurd hf (by omega), fun _ _ _ => rfl⟩
    | succ k ih =>
      intro hk
      obtain ⟨E, hE, hr, hc, h1, h2⟩ := ih (by omega)
      obtain ⟨g1, g2, g3, g4⟩ := fillFace_spec nfp (fun i => fm i k) (hinj k (by omega)) (M k) (k * nfp) E
      refine ⟨fillFace nfp (fun i => fm i k) (M k) (k * nfp) E, ?_, by rw [g1.1, hr], by rw [g1.2, hc], ?_, ?_⟩
      · rw [List.range_succ, loopM_append, hE]
        simp only [Out.bind_ok]
        rw [show loopM _ E [k] = _ from rfl]
        simp only [loopM, hM k (by omega), Out.bind_ok]
        rfl
      · intro f hf j hj
        rcases Nat.lt_succ_iff_lt_or_eq.1 hf with h | rfl
        · have hlt : f * nfp + j < k * nfp := by
            have : (f + 1) * nfp ≤ k * nfp := Nat.mul_le_mul_right _ h
            rw [Nat.add_mul, Nat.one_mul] at this
            omega
          refine ⟨fun i hi => ?_, fun a ha => ?_⟩
          · rw [g2 _ _ (Or.inl hlt)]; exact (h1 f h j hj).1 i hi
          · rw [g2 _ _ (Or.inl hlt)]; exact (h1 f h j hj).2 a ha
        · exact ⟨fun i hi => g4 i hi j hj, fun a ha => by rw [g3 a _ ha]; exact h2 a _ (by omega)⟩
      · intro a b hb
        rw [Nat.add_mul, Nat.one_mul] at hb
        rw [g2 a b (Or.inr hb)]
        exact h2 a b (by omega)
  obtain ⟨E, h1, h2, h3, h4, -⟩ := aux nf (Nat.le_refl _)
  exact ⟨E, h1, h2, h3, h4⟩

/-- **C71, two dimensions.** -/
theorem lift_ok (h : Modal pairs f fr fs Reg q Space I) (la : Lapack) (hla : la.Ok) (N nf : ℕ) (fm : ℕ → ℕ → ℕ) (onS : ℕ → Bool) (γ : ℕ → ℝ → ℝ × ℝ) (r s : List ℝ)
    (hF : Faces N nf fm onS γ r s) (hT : HasTrace N nf Space γ) (hp : pairs.length = r.length) (hr : AllReg Reg r s) :
    ∃ E, faceMatrix la nf (N + 1) r.length fm onS r s = .ok E ∧
      LiftSpec N nf Space I γ (fun f j => (faceCoords (N + 1) fm onS r s f).getD j 0) r s
        (mul (mul (modeMatrix pairs f r s) (trans (modeMatrix pairs f r s))) E) := by
  have hlen : ∀ f, (faceCoords (N + 1) fm onS r s f).length = N + 1 := fun f => by simp [faceCoords]
  have hm : ∀ f, ∃ M, f < nf → edgeMass la (faceCoords (N + 1) fm onS r s f) = .ok M ∧ ∀ u g : Polynomial ℝ, u.natDegree ≤ N → g.natDegree ≤ N →
      ∑ i ∈ Finset.range (N + 1), ∑ j ∈ Finset.range (N + 1), u.eval ((faceCoords (N + 1) fm onS r s f).getD i 0) *
        (M.at' i j * g.eval ((faceCoords (N + 1) fm onS r s f).getD j 0)) = ∫ x in (-1 : ℝ)..1, u.eval x * g.eval x := by
    intro f
    by_cases hf : f < nf
    · obtain ⟨M, h1, h2⟩ := edgeMass_ok la hla N _ (hlen f) (hF.distinct f hf)
      exact ⟨M, fun _ => ⟨h1, h2⟩⟩
    · exact ⟨fresh 0 0, fun h => absurd h hf⟩
  choose M hM using hm
  have hcoord : ∀ f, ∀ i ≤ N, (faceCoords (N + 1) fm onS r s f).getD i 0 = (if onS f then s else r).getD (fm i f) 0 := by
    intro f i hi
    simp [faceCoords, List.getD_eq_getElem?_getD, show i < N + 1 by omega]
  have hinj : ∀ f < nf, ∀ i < N + 1, ∀ j < N + 1, fm i f = fm j f → i = j := by
    intro f hf i hi j hj e
    have e' : (faceCoords (N + 1) fm onS r s f).getD i 0 = (faceCoords (N + 1) fm onS r s f).getD j 0 := by
      rw [hcoord f i (by omega), hcoord f j (by omega), e]
    rcases Nat.lt_trichotomy i j with h' | h' | h'
    · exact absurd e' (hF.distinct f hf i j h' (by omega))
    · exact h'
    · exact absurd e'.symm (hF.distinct f hf j i h' (by omega))
  obtain ⟨E, hE, hEr, hEc, hEv⟩ := faceMatrix_ok la nf (N + 1) r.length fm onS r s M (fun f hf => (hM f hf).1) hinj
  refine ⟨E, hE, ?_⟩
  intro k hk g hg
  set V := modeMatrix pairs f r s with hV
  have hVc : V.cols = r.length := hp
  -- the face functional on nodal values
  set e : Fin r.length → ℝ := fun l => ∑ j ∈ Finset.range (N + 1), E.at' l (k * (N + 1) + j) * g.eval ((faceCoords (N + 1) fm onS r s k).getD j 0) with he
  set W := toMat V r.length r.length with hW
  refine ⟨comb pairs q (W.transpose.mulVec e), h.space_comb hp _, fun i hi => ?_, fun p hpS => ?_⟩
  · have h1 : nodal r s (comb pairs q (W.transpose.mulVec e)) i = W.mulVec (W.transpose.mulVec e) ⟨i, hi⟩ := (h.nodal_comb hr rfl _ ⟨i, hi⟩).1
    rw [h1, Matrix.mulVec_mulVec]
    have h2 : ∀ j : Fin r.length, (W * W.transpose) ⟨i, hi⟩ j = (mul V (trans V)).at' i j := by
      intro j
      have := congrFun (congrFun (toMat_mul V (trans V) r.length r.length r.length hVc) ⟨i, hi⟩) j
      rw [toMat_trans] at this
      exact this.symm
    unfold Matrix.mulVec dotProduct
    simp only [h2, he]
    simp only [Finset.mul_sum]
    rw [Finset.sum_comm]
    apply Finset.sum_congr rfl
    intro j _
    rw [show (mul (mul V (trans V)) E).at' i (k * (N + 1) + j) = ∑ l ∈ Finset.range V.rows, (mul V (trans V)).at' i l * E.at' l (k * (N + 1) + j) from rfl]
    rw [show V.rows = r.length from rfl, Finset.sum_range, Finset.sum_mul]
    exact Finset.sum_congr rfl fun l _ => by ring
  · obtain ⟨u, hud, hu⟩ := hT k hk p hpS
    have hint := (hM k hk).2 u g hud hg
    have hpn : ∀ i ≤ N, nodal r s p (fm i k) = u.eval ((faceCoords (N + 1) fm onS r s k).getD i 0) := by
      intro i hi
      rw [hu, ← hF.on k hk i hi]
      rfl
    obtain ⟨a, rfl⟩ := h.coeffs hp hpS
    rw [h.dot hp]
    have h1 : ∑ l, W.transpose.mulVec e l * a l = ∑ l : Fin r.length, nodal r s (comb pairs q a) l * e l := by
      have hd : dotProduct (W.transpose.mulVec e) a = dotProduct (W.mulVec a) e := by
        rw [Matrix.mulVec_transpose, ← Matrix.dotProduct_mulVec, dotProduct_comm]
      have hn : ∀ l : Fin r.length, nodal r s (comb pairs q a) l = W.mulVec a l := fun l => (h.nodal_comb hr rfl a l).1
      simp only [hn]
      exact hd
    rw [h1]
    have h2 : ∑ l : Fin r.length, nodal r s (comb pairs q a) l * e l = ∑ l ∈ Finset.range r.length, nodal r s (comb pairs q a) l *
        ∑ j ∈ Finset.range (N + 1), E.at' l (k * (N + 1) + j) * g.eval ((faceCoords (N + 1) fm onS r s k).getD j 0) := by
      rw [Finset.sum_range]
    rw [h2]
    have h3 : ∑ l ∈ Finset.range r.length, nodal r s (comb pairs q a) l *
        ∑ j ∈ Finset.range (N + 1), E.at' l (k * (N + 1) + j) * g.eval ((faceCoords (N + 1) fm onS r s k).getD j 0)
        = ∑ l ∈ (Finset.range (N + 1)).image (fun i => fm i k), nodal r s (comb pairs q a) l *
        ∑ j ∈ Finset.range (N + 1), E.at' l (k * (N + 1) + j) * g.eval ((faceCoords (N + 1) fm onS r s k).getD j 0) := by
      symm
      apply Finset.sum_subset
      · intro l hl
        obtain ⟨i, hi, rfl⟩ := Finset.mem_image.1 hl
        exact Finset.mem_range.2 (hF.lt k hk i (by have := Finset.mem_range.1 hi; omega))
      · intro l _ hl
        have hz : ∀ j ∈ Finset.range (N + 1), E.at' l (k * (N + 1) + j) * g.eval ((faceCoords (N + 1) fm onS r s k).getD j 0) = 0 := by
          intro j hj
          rw [(hEv k hk j (Finset.mem_range.1 hj)).2 l, zero_mul]
          intro i hi e'
          exact hl (Finset.mem_image.2 ⟨i, Finset.mem_range.2 hi, e'⟩)
        rw [Finset.sum_eq_zero hz, mul_zero]
    rw [h3, Finset.sum_image (fun i hi j hj e' => hinj k hk i (Finset.mem_range.1 hi) j (Finset.mem_range.1 hj) e')]
    simp only [← hu]
    rw [show (∫ x in (-1 : ℝ)..1, g.eval x * u.eval x) = ∫ x in (-1 : ℝ)..1, u.eval x * g.eval x by congr 1; funext x; ring, ← hint]
    apply Finset.sum_congr rfl
    intro i hi
    have hi' := Finset.mem_range.1 hi
    rw [hpn i (by omega), Finset.mul_sum]
    apply Finset.sum_congr rfl
    intro j hj
    rw [(hEv k hk j (Finset.mem_range.1 hj)).1 i hi']

/-- **C47, C71, C46: the reference operators.** Given nodes on the faces as required, either the nodes do not determine the polynomials of the space (singular Vandermonde
matrix) and the construction throws, or it succeeds and all operators are exact on the space. -/
theorem refOps (h : Modal pairs f fr fs Reg q Space I) (la : Lapack) (hla : la.Ok) (N nf : ℕ) (fm : ℕ → ℕ → ℕ) (onS : ℕ → Bool) (γ : ℕ → ℝ → ℝ × ℝ) (r s : List ℝ)
    (h0 : 0 < r.length) (hF : Faces N nf fm onS γ r s) (hT : HasTrace N nf Space γ) (hp : pairs.length = r.length) (hr : AllReg Reg r s) :
    (¬ IsUnit (toMat (modeMatrix pairs f r s) r.length r.length) ∧ buildRefOps la pairs f fr fs nf (N + 1) onS fm r s = .throws) ∨
    (IsUnit (toMat (modeMatrix pairs f r s) r.length r.length) ∧ ∃ o, buildRefOps la pairs f fr fs nf (N + 1) onS fm r s = .ok o ∧
      DiffSpec Space I r s o.d ∧
      LiftSpec N nf Space I γ (fun f j => (faceCoords (N + 1) fm onS r s f).getD j 0) r s o.lift ∧
      ModalSpec pairs q r s o.Vinv ∧ o.V = modeMatrix pairs f r s ∧ toMat o.Vinv r.length r.length * toMat o.V r.length r.length = 1) := by
  obtain ⟨E, hE, hL⟩ := lift_ok h la hla N nf fm onS γ r s hF hT hp hr
  unfold buildRefOps
  simp only [hE, Out.bind_ok]
  by_cases hu : IsUnit (toMat (modeMatrix pairs f r s) r.length r.length)
  · right
    refine ⟨hu, ?_⟩
    obtain ⟨X, hX, -, -, e1, e2⟩ := invertInto_ok la hla (modeMatrix pairs f r s) r.length h0 ⟨rfl, hp⟩ hu
    obtain ⟨d, hd, hds⟩ := diff_ok h la hla r s r.length h0 rfl hp hr hu
    rw [hX]
    simp only [Out.bind_ok, hd]
    refine ⟨_, rfl, hds, hL, ?_, rfl, e2⟩
    intro c k hk
    have hc : ∑ m ∈ Finset.range r.length, C (c m) * q (pairs.getD m (0, 0)) = comb pairs q (fun m : Fin r.length => c m) := by
      rw [Finset.sum_range]; rfl
    have hn : ∀ l : Fin r.length, nodal r s (comb pairs q fun m : Fin r.length => c m) l = (toMat (modeMatrix pairs f r s) r.length r.length).mulVec (fun m => c m) l :=
      fun l => (h.nodal_comb hr rfl _ l).1
    rw [hc, Finset.sum_range]
    have := congrFun (congrArg (fun A => Matrix.mulVec A (fun m : Fin r.length => c m)) e2) ⟨k, hk⟩
    rw [← Matrix.mulVec_mulVec, Matrix.one_mulVec] at this
    rw [← this]
    unfold Matrix.mulVec dotProduct at hn ⊢
    exact Finset.sum_congr rfl fun l _ => by rw [hn l]; rfl
  · left
    refine ⟨hu, ?_⟩
    rw [invertInto_throws la hla (modeMatrix pairs f r s) r.length ⟨rfl, hp⟩ hu]
    rfl

end
end Blitzdg.DG2D
