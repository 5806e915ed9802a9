import Verif.Drivers.Poisson1D
import Verif.Drivers.BurgersProps

/-! Property C105: the operator of the one-dimensional Poisson driver. -/

namespace Blitzdg.Drivers

open Polynomial
open Blitzdg.Sparse (DMat)
open Blitzdg.Nodes1D
open Blitzdg.Blitz

variable {xmin xmax : ℝ} {p : Prov}

/-- Specification: `v` holds the entries of `u` element by element (the layout of the vectors GMRES works on). -/
def Flat (p : Prov) (v : List ℝ) (u : DMat ℝ) : Prop :=
  v.length = (p.N + 1) * p.K ∧ ∀ i k : ℕ, i ≤ p.N → k < p.K → v[k * (p.N + 1) + i]? = some (u.at' i k)

theorem flatten_flat (m : DMat ℝ) (hm : m.rows = p.N + 1 ∧ m.cols = p.K) (v0 : List ℝ) (h0 : v0.length = (p.N + 1) * p.K) :
    ∃ v, reshapeMatTo1D m v0 false = .ok v ∧ Flat p v m := by
  obtain ⟨vec, h1, h2, h3, -⟩ := C10_flatten m v0 false (by rw [hm.1, hm.2, h0])
  refine ⟨vec, h1, by rw [h2, h0], fun i k hi hk => ?_⟩
  have := h3 i k (by omega) (by omega)
  simpa [pos, hm.1] using this

theorem unflatten_flat (v : List ℝ) (hv : v.length = (p.N + 1) * p.K) :
    ∃ m, reshape1DToMat v (zeroMat (p.N + 1) p.K) false = .ok m ∧ m.rows = p.N + 1 ∧ m.cols = p.K ∧ Flat p v m := by
  obtain ⟨m, h1, h2, h3, h4⟩ := C10_unflatten v (zeroMat (p.N + 1) p.K) false (by rw [hv]; exact le_refl _)
  refine ⟨m, h1, h2, h3, hv, fun i k hi hk => ?_⟩
  have := h4 i k (by show i < p.N + 1; omega) hk
  rw [this]
  simp [pos, zeroMat]

/-! ### The operator without arrays -/

/-- Jumps of the solution (reflected at both ends). -/
noncomputable def pJump (p : Prov) (u : DMat ℝ) (f k : ℕ) : ℝ :=
  if f = 0 then u.at' 0 k - (if k = 0 then -u.at' 0 0 else u.at' p.N (k - 1))
  else u.at' p.N k - (if k + 1 = p.K then -u.at' p.N k else u.at' 0 (k + 1))

/-- The auxiliary variable. -/
noncomputable def pAux (p : Prov) (u : DMat ℝ) : DMat ℝ where
  rows := p.N + 1
  cols := p.K
  at' := fun i k => p.rx i k * p.diff u i k - p.lift (fun f k => p.fscale f k * (bNx f * pJump p u f k / 2)) i k

/-- Difference of the auxiliary variable and the averaged slope. -/
noncomputable def pSlopeJump (p : Prov) (u : DMat ℝ) (f k : ℕ) : ℝ :=
  if f = 0 then (pAux p u).at' 0 k - 0.5 * ((p.slope u).at' 0 k + if k = 0 then (p.slope u).at' 0 0 else (p.slope u).at' p.N (k - 1))
  else (pAux p u).at' p.N k - 0.5 * ((p.slope u).at' p.N k + if k + 1 = p.K then (p.slope u).at' p.N k else (p.slope u).at' 0 (k + 1))

/-- The Laplacian before the multiplication with the mass matrix. -/
noncomputable def pLap (p : Prov) (u : DMat ℝ) : DMat ℝ where
  rows := p.N + 1
  cols := p.K
  at' := fun i k => p.rx i k * p.diff (pAux p u) i k - p.lift (fun f k => bNx f * (pSlopeJump p u f k + p.tau * bNx f * pJump p u f k)) i k

theorem nx_eq (hp : ProvSpec xmin xmax p) {k : ℕ} (hk : k < p.K) : p.nx.at' 0 k = bNx 0 ∧ p.nx.at' 1 k = bNx 1 := by
  simp only [Prov.nx, bNx, if_true, one_ne_zero, if_false, Nat.zero_mul, Nat.zero_add, Nat.one_mul, List.getD_eq_getElem?_getD, (hp.nx k hk).1, (hp.nx k hk).2,
    Option.getD_some, and_self]

theorem diff_congr {u v : DMat ℝ} {i k : ℕ} (h : ∀ j ≤ p.N, u.at' j k = v.at' j k) : p.diff u i k = p.diff v i k :=
  Finset.sum_congr rfl fun j hj => by rw [h j (by have := Finset.mem_range.1 hj; omega)]

theorem op_closed (hp : ProvSpec xmin xmax p) (v out0 : List ℝ) (hv : v.length = (p.N + 1) * p.K) (h0 : out0.length = (p.N + 1) * p.K) :
    ∃ u w, Flat p v u ∧ (u.rows = p.N + 1 ∧ u.cols = p.K) ∧ poisson1dOp p v out0 = .ok w ∧ w.length = (p.N + 1) * p.K ∧
      ∀ i k : ℕ, i ≤ p.N → k < p.K → w[k * (p.N + 1) + i]? = some ((p.massMul (pLap p u)).at' i k) := by
  obtain ⟨u, u1, u2, u3, u4⟩ := unflatten_flat (p := p) v hv
  obtain ⟨uVec, uM, uP, t1, t2, t3, t4, t5, t6, t7⟩ := traces_ok hp u ⟨u2, u3⟩
  have hK := hp.posK
  have hlast := t6 (p.K - 1) (by omega)
  have hfirst := t6 0 hK
  have fM : Faces p.K uM (fun k => u.at' 0 k) (fun k => u.at' p.N k) := ⟨t3, t6⟩
  have fP : Faces p.K uP _ _ := ⟨t4, t7⟩
  have fP2 := (fP.first (-u.at' 0 0)).last (-u.at' p.N (p.K - 1))
  have fD : Faces p.K ((List.range (2 * p.K)).map fun g => uM.getD g 0 - ((uP.set 0 (-u.at' 0 0)).set (2 * (p.K - 1) + 1) (-u.at' p.N (p.K - 1))).getD g 0)
      (pJump p u 0) (pJump p u 1) := by
    apply Faces.map
    intro k hk
    rw [(fM.getD hk).1, (fM.getD hk).2, (fP2.getD hk).1, (fP2.getD hk).2]
    simp only [pJump, if_true, one_ne_zero, if_false]
    constructor
    · by_cases h : k = 0 <;> simp [h]
    · by_cases h : k + 1 = p.K
      · have e : p.K - 1 = k := by omega
        simp [h, e]
      · simp [h]
  obtain ⟨du, d1, d2⟩ := faces_mat p.K _ fD.1 _ _ fD.2
  have aux : ∀ i k, k < p.K → (p.auxSlope u du).at' i k = (pAux p u).at' i k := by
    intro i k hk
    simp only [Prov.auxSlope, pAux]
    congr 1
    apply lift_congr
    · rw [(nx_eq hp hk).1, (d2 k hk).1]
    · rw [(nx_eq hp hk).2, (d2 k hk).2]
  obtain ⟨qV, qM, qP, q1, -, q3, -, -, q6, -⟩ := traces_ok hp (p.auxSlope u du) ⟨rfl, rfl⟩
  obtain ⟨xV, xM, xP, x1, -, x3, x4, -, x6, x7⟩ := traces_ok hp (p.slope u) ⟨rfl, rfl⟩
  have gM : Faces p.K xM (fun k => (p.slope u).at' 0 k) (fun k => (p.slope u).at' p.N k) := ⟨x3, x6⟩
  have gP : Faces p.K xP _ _ := ⟨x4, x7⟩
  have gP2 := (gP.first ((p.slope u).at' 0 0)).last ((p.slope u).at' p.N (p.K - 1))
  have gQ : Faces p.K qM (fun k => (p.auxSlope u du).at' 0 k) (fun k => (p.auxSlope u du).at' p.N k) := ⟨q3, q6⟩
  have fQ : Faces p.K ((List.range (2 * p.K)).map fun g => qM.getD g 0 -
      0.5 * (xM.getD g 0 + ((xP.set 0 ((p.slope u).at' 0 0)).set (2 * (p.K - 1) + 1) ((p.slope u).at' p.N (p.K - 1))).getD g 0))
      (pSlopeJump p u 0) (pSlopeJump p u 1) := by
    apply Faces.map
    intro k hk
    rw [(gQ.getD hk).1, (gQ.getD hk).2, (gM.getD hk).1, (gM.getD hk).2, (gP2.getD hk).1, (gP2.getD hk).2]
    simp only [pSlopeJump, if_true, one_ne_zero, if_false, aux _ k hk]
    constructor
    · by_cases h : k = 0 <;> simp [h]
    · by_cases h : k + 1 = p.K
      · have e : p.K - 1 = k := by omega
        simp [h, e]
      · simp [h]
  obtain ⟨dq, e1, e2⟩ := faces_mat p.K _ fQ.1 _ _ fQ.2
  obtain ⟨w, w1, w2, w3⟩ := flatten_flat (p := p) (p.massMul (p.laplace (p.auxSlope u du) dq du)) ⟨rfl, rfl⟩ out0 h0
  refine ⟨u, w, u4, ⟨u2, u3⟩, ?_, w2, fun i k hi hk => ?_⟩
  · have hx0 := x6 0 hK
    have hxl := x6 (p.K - 1) (by omega)
    have a0 : rdI uM ((0 : ℕ) : Int) = .ok (u.at' 0 0) := rdI_nat uM 0 _ (by simpa using hfirst.1)
    have b0 : rdI xM ((0 : ℕ) : Int) = .ok ((p.slope u).at' 0 0) := rdI_nat xM 0 _ (by simpa using hx0.1)
    simp only [poisson1dOp, u1, Out.bind_ok, t1, mapIO_eq p hK, a0, wrI_nat uP 0 _ (by omega), rdI_nat uM _ _ hlast.2,
      wrI_nat (uP.set 0 (-u.at' 0 0)) (2 * (p.K - 1) + 1) _ (by simp; omega), d1, q1, x1, b0, wrI_nat xP 0 _ (by omega), rdI_nat xM _ _ hxl.2,
      wrI_nat (xP.set 0 ((p.slope u).at' 0 0)) (2 * (p.K - 1) + 1) _ (by simp; omega), e1, w1]
  · rw [w3 i k hi hk]
    simp only [Prov.massMul]
    congr 2
    apply Finset.sum_congr rfl
    intro j _
    congr 1
    simp only [Prov.laplace, pLap]
    congr 1
    · congr 1
      exact diff_congr fun j _ => aux j k hk
    · apply lift_congr
      · rw [(nx_eq hp hk).1, (d2 k hk).1, (e2 k hk).1]
      · rw [(nx_eq hp hk).2, (d2 k hk).2, (e2 k hk).2]

/-! ### Geometry, mass matrix -/

theorem jac_eq (hp : ProvSpec xmin xmax p) {i : ℕ} (hi : i ≤ p.N) (k : ℕ) : p.jac i k = (xmax - xmin) / p.K / 2 := by
  have h := hp.rx i hi k
  have : p.rx i k = 1 / p.jac i k := rfl
  rw [this] at h
  have hne : p.jac i k ≠ 0 := by
    intro h'
    rw [h'] at h; simp at h
  field_simp at h
  linarith

theorem rx_eq (hx : xmin < xmax) (hp : ProvSpec xmin xmax p) {i : ℕ} (hi : i ≤ p.N) (k : ℕ) : p.rx i k = 1 / ((xmax - xmin) / p.K / 2) :=
  eq_div_of_mul_eq (width_pos hx hp).ne' (hp.rx i hi k)

theorem maxAbs_const (m n : ℕ) (hm : 0 < m) (hn : 0 < n) (f : ℕ → ℕ → ℝ) (c : ℝ) (hc : 0 ≤ c) (h : ∀ i < m, ∀ j < n, f i j = c) :
    maxAbs { rows := m, cols := n, at' := f } = c := by
  unfold maxAbs
  have key : ∀ (l : List (ℕ × ℕ)) (b : ℝ), (∀ ij ∈ l, f ij.1 ij.2 = c) → l.foldl (fun b ij => max b |f ij.1 ij.2|) b = if l = [] then b else max b c := by
    intro l
    induction l with
    | nil => intro b _; simp
    | cons a l ih =>
      intro b hb
      rw [List.foldl_cons, hb a (by simp), abs_of_nonneg hc, ih _ fun ij hij => hb ij (by simp [hij])]
      by_cases hl : l = [] <;> simp [hl]
  rw [key]
  · have : Sparse.rowMajor m n ≠ [] := by
      intro h'
      have : (0, 0) ∈ Sparse.rowMajor m n := by simp [Sparse.rowMajor, hm, hn]
      rw [h'] at this
      simp at this
    rw [if_neg this, max_eq_right hc]
  · intro ij hij
    simp only [Sparse.rowMajor, List.mem_flatMap, List.mem_map, List.mem_range] at hij
    obtain ⟨a, ha, b, hb, rfl⟩ := hij
    exact h a ha b hb

theorem tau_eq (hx : xmin < xmax) (hp : ProvSpec xmin xmax p) : p.tau = ((p.N + 1) ^ 2 : ℝ) / ((xmax - xmin) / p.K) := by
  have hJ := width_pos hx hp
  unfold Prov.tau
  rw [maxAbs_const _ _ (by omega) hp.posK _ (1 / ((xmax - xmin) / p.K / 2)) (by positivity) fun i hi j _ => rx_eq hx hp (by omega) j]
  field_simp

/-- The mass matrix gives integrals of products. -/
theorem mass_int (hp : ProvSpec xmin xmax p) (V W : ℝ[X]) (hV : V.natDegree ≤ p.N) (hW : W.natDegree ≤ p.N) :
    ∑ i ∈ Finset.range (p.N + 1), V.eval (p.o.r.getD i 0) * ∑ j ∈ Finset.range (p.N + 1), p.mass i j * W.eval (p.o.r.getD j 0) =
      ∫ x in (-1 : ℝ)..1, V.eval x * W.eval x := by
  obtain ⟨c, hc⟩ := leg_span p.N V hV
  obtain ⟨d, hd⟩ := leg_span p.N W hW
  have modal : ∀ (c : ℕ → ℝ) (P : ℝ[X]), P = ∑ k ∈ Finset.range (p.N + 1), C (c k) * Jacobi.poly 0 0 k → ∀ m ≤ p.N,
      ∑ i ∈ Finset.range (p.N + 1), p.o.Vinv.at' m i * P.eval (p.o.r.getD i 0) = c m := by
    intro c P hP m hm
    rw [← (hp.ops.modal c).2 m hm]
    apply Finset.sum_congr rfl
    intro i hi
    rw [(hp.ops.modal c).1 i (by have := Finset.mem_range.1 hi; omega), hP, eval_finsetSum]
    congr 1
    exact Finset.sum_congr rfl fun k _ => by rw [eval_mul, eval_C, leg_eval]
  have lhs : ∑ i ∈ Finset.range (p.N + 1), V.eval (p.o.r.getD i 0) * ∑ j ∈ Finset.range (p.N + 1), p.mass i j * W.eval (p.o.r.getD j 0) =
      ∑ m ∈ Finset.range (p.N + 1), (∑ i ∈ Finset.range (p.N + 1), p.o.Vinv.at' m i * V.eval (p.o.r.getD i 0)) *
        ∑ j ∈ Finset.range (p.N + 1), p.o.Vinv.at' m j * W.eval (p.o.r.getD j 0) := by
    simp only [Prov.mass, Finset.sum_mul, Finset.mul_sum]
    rw [Finset.sum_congr rfl fun i _ => Finset.sum_comm, Finset.sum_comm]
    refine Finset.sum_congr rfl fun m _ => ?_
    rw [Finset.sum_comm]
    exact Finset.sum_congr rfl fun i _ => Finset.sum_congr rfl fun j _ => by ring
  rw [lhs, Finset.sum_congr rfl fun m hm => by rw [modal c V hc m (by have := Finset.mem_range.1 hm; omega), modal d W hd m (by have := Finset.mem_range.1 hm; omega)]]
  have h1 : ∫ x in (-1 : ℝ)..1, V.eval x * W.eval x = Jacobi.wint 0 0 (V * W) := by
    rw [wint00]; congr 1; funext x; rw [eval_mul]
  rw [h1, hc, hd, Finset.sum_mul_sum, wint_sum]
  apply Finset.sum_congr rfl
  intro k hk
  rw [wint_sum, Finset.sum_eq_single k]
  · have e : C (c k) * Jacobi.poly 0 0 k * (C (d k) * Jacobi.poly 0 0 k) = C (c k * d k) * (Jacobi.poly 0 0 k * Jacobi.poly 0 0 k) := by rw [C_mul]; ring
    rw [e, Jacobi.wint_smul, leg_orth, if_pos rfl, mul_one]
  · intro l _ hl
    have e : C (c k) * Jacobi.poly 0 0 k * (C (d l) * Jacobi.poly 0 0 l) = C (c k * d l) * (Jacobi.poly 0 0 k * Jacobi.poly 0 0 l) := by rw [C_mul]; ring
    rw [e, Jacobi.wint_smul, leg_orth, if_neg (Ne.symm hl), mul_zero]
  · intro h; exact absurd hk h

/-! ### Weak form -/

/-- Specification: the scalar product of two vectors. -/
noncomputable def dotVec (a b : List ℝ) : ℝ := ∑ g ∈ Finset.range a.length, a.getD g 0 * b.getD g 0

theorem sum_cols (n K : ℕ) (f : ℕ → ℝ) : ∑ g ∈ Finset.range (n * K), f g = ∑ k ∈ Finset.range K, ∑ i ∈ Finset.range n, f (k * n + i) := by
  induction K with
  | zero => simp
  | succ K ih => rw [Nat.mul_succ, Finset.sum_range_add, ih, Finset.sum_range_succ, Nat.mul_comm n K]

theorem dot_flat {v w : List ℝ} {a b : DMat ℝ} (hv : Flat p v a)
    (hw : ∀ i k : ℕ, i ≤ p.N → k < p.K → w[k * (p.N + 1) + i]? = some (b.at' i k)) :
    dotVec v w = ∑ k ∈ Finset.range p.K, ∑ i ∈ Finset.range (p.N + 1), a.at' i k * b.at' i k := by
  unfold dotVec
  rw [hv.1, sum_cols]
  refine Finset.sum_congr rfl fun k hk => Finset.sum_congr rfl fun i hi => ?_
  have hi := Finset.mem_range.1 hi
  have hk := Finset.mem_range.1 hk
  rw [List.getD_eq_getElem?_getD, List.getD_eq_getElem?_getD, hv.2 i k (by omega) hk, hw i k (by omega) hk]
  rfl

/-- Specification: value at the right end of element `k` minus the value on the other side (minus the value itself at the end of the interval, which imposes zero). -/
noncomputable def rightJump (K : ℕ) (P : ℕ → ℝ[X]) (k : ℕ) : ℝ := (P k).eval 1 - if k + 1 = K then -(P k).eval 1 else (P (k + 1)).eval (-1)

/-- Specification: the same at the left end. -/
noncomputable def leftJump (P : ℕ → ℝ[X]) (k : ℕ) : ℝ := (P k).eval (-1) - if k = 0 then -(P 0).eval (-1) else (P (k - 1)).eval 1

/-- Specification: mean of the derivatives (in the reference coordinate) on both sides of the right end. -/
noncomputable def rightSlope (K : ℕ) (P : ℕ → ℝ[X]) (k : ℕ) : ℝ :=
  ((derivative (P k)).eval 1 + if k + 1 = K then (derivative (P k)).eval 1 else (derivative (P (k + 1))).eval (-1)) / 2

/-- Specification: the same at the left end. -/
noncomputable def leftSlope (P : ℕ → ℝ[X]) (k : ℕ) : ℝ :=
  ((derivative (P k)).eval (-1) + if k = 0 then (derivative (P 0)).eval (-1) else (derivative (P (k - 1))).eval 1) / 2

theorem pJump_eq (hp : ProvSpec xmin xmax p) {u : DMat ℝ} {P : ℕ → ℝ[X]} (hP : Nodal p u P) {k : ℕ} (hk : k < p.K) :
    pJump p u 0 k = leftJump P k ∧ pJump p u 1 k = rightJump p.K P k := by
  simp only [pJump, if_true, one_ne_zero, if_false, leftJump, rightJump, (end_vals hp hP hk).1, (end_vals hp hP hk).2, (end_vals hp hP hp.posK).1]
  constructor
  · by_cases h : k = 0
    · simp [h]
    · rw [if_neg h, if_neg h, (end_vals hp hP (by omega)).2]
  · by_cases h : k + 1 = p.K
    · simp [h]
    · rw [if_neg h, if_neg h, (end_vals hp hP (by omega)).1]

theorem slope_nodal (hx : xmin < xmax) (hp : ProvSpec xmin xmax p) {u : DMat ℝ} {P : ℕ → ℝ[X]} (hP : Nodal p u P) :
    Nodal p (p.slope u) fun k => C (1 / ((xmax - xmin) / p.K / 2)) * derivative (P k) := by
  refine ⟨rfl, rfl, fun k => ?_, fun i hi k hk => ?_⟩
  · exact (natDegree_C_mul_le _ _).trans ((natDegree_derivative_le _).trans (by have := hP.deg k; omega))
  · simp only [Prov.slope, eval_mul, eval_C, diff_nodal hp hP hi hk, rx_eq hx hp hi]

/-- The auxiliary variable in weak form. -/
theorem aux_nodal (hp : ProvSpec xmin xmax p) {u : DMat ℝ} {P : ℕ → ℝ[X]} (hP : Nodal p u P) : ∃ Q, Nodal p (pAux p u) Q ∧
    ∀ k < p.K, ∀ T : ℝ[X], T.natDegree ≤ p.N → elemInt xmin xmax p (fun r => (Q k).eval r * T.eval r) =
      (∫ r in (-1 : ℝ)..1, (derivative (P k)).eval r * T.eval r) - (rightJump p.K P k * T.eval 1 - leftJump P k * T.eval (-1)) / 2 := by
  obtain ⟨Q, q1, q2, q3⟩ := dg_weak hp u P hP fun f k => bNx f * pJump p u f k / 2
  refine ⟨fun k => -Q k, ⟨rfl, rfl, fun k => by rw [natDegree_neg]; exact q1 k, fun i hi k hk => ?_⟩, fun k hk T hT => ?_⟩
  · rw [eval_neg, ← q2 i hi k hk]
    simp only [pAux]
    ring
  · have e : elemInt xmin xmax p (fun r => (-Q k).eval r * T.eval r) = -elemInt xmin xmax p (fun r => (Q k).eval r * T.eval r) := by
      unfold elemInt
      rw [← mul_neg, ← intervalIntegral.integral_neg]
      congr 2; funext r; simp only [eval_neg]; ring
    rw [e, q3 k hk T hT, (pJump_eq hp hP hk).1, (pJump_eq hp hP hk).2]
    simp only [bNx, if_true, one_ne_zero, if_false]
    ring

theorem slopeJump_eq (hx : xmin < xmax) (hp : ProvSpec xmin xmax p) {u : DMat ℝ} {P Q : ℕ → ℝ[X]} (hP : Nodal p u P) (hQ : Nodal p (pAux p u) Q) {k : ℕ} (hk : k < p.K) :
    pSlopeJump p u 0 k = (Q k).eval (-1) - leftSlope P k / ((xmax - xmin) / p.K / 2) ∧
    pSlopeJump p u 1 k = (Q k).eval 1 - rightSlope p.K P k / ((xmax - xmin) / p.K / 2) := by
  have hS := slope_nodal hx hp hP
  simp only [pSlopeJump, if_true, one_ne_zero, if_false, leftSlope, rightSlope, (end_vals hp hQ hk).1, (end_vals hp hQ hk).2, (end_vals hp hS hk).1, (end_vals hp hS hk).2,
    (end_vals hp hS hp.posK).1, eval_mul, eval_C]
  constructor
  · by_cases h : k = 0
    · simp only [h, if_true]; ring
    · rw [if_neg h, if_neg h, (end_vals hp hS (by omega)).2]
      simp only [eval_mul, eval_C]; ring
  · by_cases h : k + 1 = p.K
    · simp only [h, if_true]; ring
    · rw [if_neg h, if_neg h, (end_vals hp hS (by omega)).1]
      simp only [eval_mul, eval_C]; ring

theorem fscale_one (hp : ProvSpec xmin xmax p) (s : ℕ → ℕ → ℝ) (i k : ℕ) :
    p.lift (fun f k => p.fscale f k * ((xmax - xmin) / p.K / 2 * s f k)) i k = p.lift s i k := by
  apply lift_congr
  · rw [← mul_assoc, hp.fscale 0 (by omega) k, one_mul]
  · rw [← mul_assoc, hp.fscale 1 (by omega) k, one_mul]

/-- The Laplacian in weak form. -/
theorem lap_nodal (hx : xmin < xmax) (hp : ProvSpec xmin xmax p) {u : DMat ℝ} {P Q : ℕ → ℝ[X]} (hP : Nodal p u P) (hQ : Nodal p (pAux p u) Q) : ∃ R, Nodal p (pLap p u) R ∧
    ∀ k < p.K, ∀ T : ℝ[X], T.natDegree ≤ p.N → elemInt xmin xmax p (fun r => (R k).eval r * T.eval r) =
      (∫ r in (-1 : ℝ)..1, (derivative (Q k)).eval r * T.eval r) -
        (xmax - xmin) / p.K / 2 * (((Q k).eval 1 - rightSlope p.K P k / ((xmax - xmin) / p.K / 2) + p.tau * rightJump p.K P k) * T.eval 1 +
          (-((Q k).eval (-1) - leftSlope P k / ((xmax - xmin) / p.K / 2)) + p.tau * leftJump P k) * T.eval (-1)) := by
  obtain ⟨R, q1, q2, q3⟩ := dg_weak hp (pAux p u) Q hQ fun f k => (xmax - xmin) / p.K / 2 * (bNx f * (pSlopeJump p u f k + p.tau * bNx f * pJump p u f k))
  refine ⟨fun k => -R k, ⟨rfl, rfl, fun k => by rw [natDegree_neg]; exact q1 k, fun i hi k hk => ?_⟩, fun k hk T hT => ?_⟩
  · rw [eval_neg, ← q2 i hi k hk, fscale_one hp]
    simp only [pLap]
    ring
  · have e : elemInt xmin xmax p (fun r => (-R k).eval r * T.eval r) = -elemInt xmin xmax p (fun r => (R k).eval r * T.eval r) := by
      unfold elemInt
      rw [← mul_neg, ← intervalIntegral.integral_neg]
      congr 2; funext r; simp only [eval_neg]; ring
    rw [e, q3 k hk T hT, (pJump_eq hp hP hk).1, (pJump_eq hp hP hk).2, (slopeJump_eq hx hp hP hQ hk).1, (slopeJump_eq hx hp hP hQ hk).2]
    simp only [bNx, if_true, one_ne_zero, if_false]
    ring

/-- Vectors multiplied by the mass matrix pair by integrals. -/
theorem dot_mass (hp : ProvSpec xmin xmax p) {a b : DMat ℝ} {A B : ℕ → ℝ[X]} (ha : Nodal p a A) (hb : Nodal p b B) {v w : List ℝ} (hv : Flat p v a)
    (hw : ∀ i k : ℕ, i ≤ p.N → k < p.K → w[k * (p.N + 1) + i]? = some ((p.massMul b).at' i k)) :
    dotVec v w = domainInt xmin xmax p fun k r => (B k).eval r * (A k).eval r := by
  rw [dot_flat hv hw]
  unfold domainInt elemInt
  refine Finset.sum_congr rfl fun k hk => ?_
  have hk := Finset.mem_range.1 hk
  have h := mass_int hp (A k) (B k) (ha.deg k) (hb.deg k)
  have e : (fun r => (B k).eval r * (A k).eval r) = fun r => (A k).eval r * (B k).eval r := by funext r; ring
  rw [e, ← h, Finset.mul_sum]
  refine Finset.sum_congr rfl fun i hi => ?_
  have hi := Finset.mem_range.1 hi
  simp only [Prov.massMul]
  rw [jac_eq hp (by omega), ha.val i (by omega) k hk]
  have : ∑ j ∈ Finset.range (p.N + 1), p.mass i j * b.at' j k = ∑ j ∈ Finset.range (p.N + 1), p.mass i j * (B k).eval (p.o.r.getD j 0) :=
    Finset.sum_congr rfl fun j hj => by rw [hb.val j (by have := Finset.mem_range.1 hj; omega) k hk]
  rw [this]
  ring

theorem Flat.ext {v : List ℝ} {a b : DMat ℝ} (ha : Flat p v a) (hb : Flat p v b) {i k : ℕ} (hi : i ≤ p.N) (hk : k < p.K) : a.at' i k = b.at' i k :=
  Option.some.inj ((ha.2 i k hi hk).symm.trans (hb.2 i k hi hk))

theorem Nodal.transfer {v : List ℝ} {a b : DMat ℝ} {P : ℕ → ℝ[X]} (hP : Nodal p a P) (ha : Flat p v a) (hb : Flat p v b) (hs : b.rows = p.N + 1 ∧ b.cols = p.K) : Nodal p b P :=
  ⟨hs.1, hs.2, hP.deg, fun i hi k hk => by rw [← hP.val i hi k hk, ha.ext hb hi hk]⟩

/-- **C105, meaning of the operator.** For every vector - the nodal values of piecewise polynomials `P` - the operator returns a vector whose scalar product with the nodal values of
piecewise polynomials `T` is the interior penalty form: `Q` is the derivative of `P` corrected by half the jumps, and the element boundary terms are those of `Q` minus the averaged
slope plus the penalty times the jump - but with an additional factor of half the element width in front of the boundary terms. -/
theorem C105_form (hx : xmin < xmax) (hb : Built xmin xmax p) (v out0 : List ℝ) (u : DMat ℝ) (P : ℕ → ℝ[X]) (hP : Nodal p u P) (hv : Flat p v u) (h0 : out0.length = (p.N + 1) * p.K) :
    ∃ (w : List ℝ) (Q : ℕ → ℝ[X]), poisson1dOp p v out0 = .ok w ∧ w.length = (p.N + 1) * p.K ∧ (∀ k, (Q k).natDegree ≤ p.N) ∧
      (∀ k < p.K, ∀ T : ℝ[X], T.natDegree ≤ p.N → elemInt xmin xmax p (fun r => (Q k).eval r * T.eval r) =
        (∫ r in (-1 : ℝ)..1, (derivative (P k)).eval r * T.eval r) - (rightJump p.K P k * T.eval 1 - leftJump P k * T.eval (-1)) / 2) ∧
      ∀ (z : List ℝ) (m : DMat ℝ) (T : ℕ → ℝ[X]), Nodal p m T → Flat p z m →
        dotVec z w = ∑ k ∈ Finset.range p.K, ((∫ r in (-1 : ℝ)..1, (derivative (Q k)).eval r * (T k).eval r) -
          (xmax - xmin) / p.K / 2 * (((Q k).eval 1 - rightSlope p.K P k / ((xmax - xmin) / p.K / 2) + (p.N + 1) ^ 2 / ((xmax - xmin) / p.K) * rightJump p.K P k) * (T k).eval 1 +
            (-((Q k).eval (-1) - leftSlope P k / ((xmax - xmin) / p.K / 2)) + (p.N + 1) ^ 2 / ((xmax - xmin) / p.K) * leftJump P k) * (T k).eval (-1))) := by
  have hp := hb.spec hx
  obtain ⟨u', w, h1, h2, h3, h4, h5⟩ := op_closed hp v out0 hv.1 h0
  have hP' := hP.transfer hv h1 h2
  obtain ⟨Q, hQ, q2⟩ := aux_nodal hp hP'
  obtain ⟨R, hR, r2⟩ := lap_nodal hx hp hP' hQ
  refine ⟨w, Q, h3, h4, hQ.deg, q2, fun z m T hT hz => ?_⟩
  rw [dot_mass hp hT hR hz h5]
  unfold domainInt
  refine Finset.sum_congr rfl fun k hk => ?_
  rw [r2 k (Finset.mem_range.1 hk) (T k) (hT.deg k), tau_eq hx hp]

/-! ### Consistency -/

theorem lift_zero {s : ℕ → ℕ → ℝ} {i k : ℕ} (h0 : s 0 k = 0) (h1 : s 1 k = 0) : p.lift s i k = 0 := by
  simp only [Prov.lift, Finset.sum_range_succ, Finset.sum_range_zero, h0, h1, mul_zero, add_zero]

theorem deriv_pullback (F : ℝ[X]) (k : ℕ) : derivative (pullback xmin xmax p F k) = C ((xmax - xmin) / p.K / 2) * pullback xmin xmax p (derivative F) k := by
  simp only [pullback, derivative_comp]
  congr 1
  simp

theorem pullback_jumps (hp : ProvSpec xmin xmax p) (F : ℝ[X]) (h0 : F.eval xmin = 0) (h1 : F.eval xmax = 0) {k : ℕ} (hk : k < p.K) :
    leftJump (pullback xmin xmax p F) k = 0 ∧ rightJump p.K (pullback xmin xmax p F) k = 0 := by
  have hK : (p.K : ℝ) ≠ 0 := by have := hp.posK; positivity
  constructor
  · unfold leftJump
    by_cases h : k = 0
    · subst h
      rw [if_pos rfl, pullback_eval]
      have : xmin + (xmax - xmin) / p.K * (((0 : ℕ) : ℝ) + 1 / 2 * (-1 + 1)) = xmin := by push_cast; ring
      rw [this, h0]; ring
    · rw [if_neg h]
      obtain ⟨k, rfl⟩ : ∃ j, k = j + 1 := ⟨k - 1, by omega⟩
      rw [pullback_end, Nat.add_sub_cancel, sub_self]
  · unfold rightJump
    by_cases h : k + 1 = p.K
    · rw [if_pos h, pullback_eval]
      have : xmin + (xmax - xmin) / p.K * ((k : ℝ) + 1 / 2 * (1 + 1)) = xmax := by
        have : (p.K : ℝ) = k + 1 := by rw [← h]; push_cast; ring
        rw [this]
        rw [this] at hK
        field_simp
        ring
      rw [this, h1]; ring
    · rw [if_neg h, pullback_end, sub_self]

theorem pullback_slopes (F : ℝ[X]) (k : ℕ) : leftSlope (pullback xmin xmax p F) k = (derivative (pullback xmin xmax p F k)).eval (-1) ∧
    rightSlope p.K (pullback xmin xmax p F) k = (derivative (pullback xmin xmax p F k)).eval 1 := by
  constructor
  · unfold leftSlope
    by_cases h : k = 0
    · subst h; simp
    · rw [if_neg h]
      obtain ⟨k, rfl⟩ : ∃ j, k = j + 1 := ⟨k - 1, by omega⟩
      simp only [Nat.add_sub_cancel, deriv_pullback, eval_mul, eval_C, pullback_end]
      ring
  · unfold rightSlope
    by_cases h : k + 1 = p.K
    · rw [if_pos h]; ring
    · rw [if_neg h]
      simp only [deriv_pullback, eval_mul, eval_C, pullback_end]
      ring

/-- Without jumps the auxiliary variable is the slope. -/
theorem aux_slope (hp : ProvSpec xmin xmax p) {u : DMat ℝ} {P : ℕ → ℝ[X]} (hP : Nodal p u P) {k : ℕ} (hk : k < p.K) (hl : leftJump P k = 0) (hr : rightJump p.K P k = 0) (i : ℕ) :
    (pAux p u).at' i k = (p.slope u).at' i k := by
  simp only [pAux, Prov.slope]
  rw [lift_zero, sub_zero]
  · rw [(pJump_eq hp hP hk).1, hl]; ring
  · rw [(pJump_eq hp hP hk).2, hr]; ring

/-- **C105, consistency.** If `F` is a polynomial of degree at most the order that vanishes at both ends of the interval, the operator applied to its nodal values is exactly the vector
the driver builds as right-hand side from the nodal values of `F''`: the nodal values of the exact solution solve the linear system handed to GMRES. -/
theorem C105_consistent (hx : xmin < xmax) (hb : Built xmin xmax p) (F : ℝ[X]) (hF : F.natDegree ≤ p.N) (h0 : F.eval xmin = 0) (h1 : F.eval xmax = 0)
    (v out0 vec0 : List ℝ) (u f : DMat ℝ) (hu : u.rows = p.N + 1 ∧ u.cols = p.K) (huv : ∀ i ≤ p.N, ∀ k < p.K, u.at' i k = F.eval (p.t.x.at' i k)) (hv : Flat p v u)
    (hf : ∀ i ≤ p.N, ∀ k < p.K, f.at' i k = (derivative (derivative F)).eval (p.t.x.at' i k))
    (ho : out0.length = (p.N + 1) * p.K) (hve : vec0.length = (p.N + 1) * p.K) :
    ∃ w, poisson1dOp p v out0 = .ok w ∧ poisson1dRhs p f vec0 = .ok w := by
  have hp := hb.spec hx
  obtain ⟨u', w, a1, a2, a3, a4, a5⟩ := op_closed hp v out0 hv.1 ho
  have hP := (nodal_of_poly hp u hu F hF huv).transfer hv a1 a2
  obtain ⟨w', b1, b2⟩ := flatten_flat (p := p) (p.massMul f) ⟨rfl, rfl⟩ vec0 hve
  refine ⟨w, a3, ?_⟩
  have hS := slope_nodal hx hp hP
  have hq : ∀ k < p.K, ∀ i, (pAux p u').at' i k = (p.slope u').at' i k := fun k hk i =>
    aux_slope hp hP hk (pullback_jumps hp F h0 h1 hk).1 (pullback_jumps hp F h0 h1 hk).2 i
  have hQ : Nodal p (pAux p u') _ := ⟨rfl, rfl, hS.deg, fun i hi k hk => by rw [hq k hk, hS.val i hi k hk]⟩
  have hlap : ∀ i ≤ p.N, ∀ k < p.K, (pLap p u').at' i k = f.at' i k := by
    intro i hi k hk
    have s := slopeJump_eq hx hp hP hQ hk
    have j := pJump_eq hp hP hk
    rw [(pullback_jumps hp F h0 h1 hk).1, (pullback_jumps hp F h0 h1 hk).2] at j
    rw [(pullback_slopes F k).1, (pullback_slopes F k).2] at s
    simp only [pLap]
    rw [lift_zero]
    · rw [sub_zero, diff_nodal hp hQ hi hk, hf i hi k hk]
      have e : derivative (C (1 / ((xmax - xmin) / p.K / 2)) * derivative (pullback xmin xmax p F k)) =
          derivative (pullback xmin xmax p (derivative F) k) := by
        rw [deriv_pullback, ← mul_assoc, ← C_mul, one_div_mul_cancel (width_pos hx hp).ne', C_1, one_mul]
      rw [e, rx_pullback hp (derivative F) hi hk]
    · rw [s.1, j.1]
      simp only [eval_mul, eval_C]
      ring
    · rw [s.2, j.2]
      simp only [eval_mul, eval_C]
      ring
  have e : w = w' := by
    apply List.ext_getElem?
    intro g
    by_cases hg : g < (p.N + 1) * p.K
    · have h1 : g = g / (p.N + 1) * (p.N + 1) + g % (p.N + 1) := by rw [Nat.mul_comm]; exact (Nat.div_add_mod g (p.N + 1)).symm
      have h2 : g % (p.N + 1) ≤ p.N := Nat.lt_succ_iff.1 (Nat.mod_lt _ (Nat.succ_pos _))
      have h3 : g / (p.N + 1) < p.K := Nat.div_lt_of_lt_mul hg
      rw [h1, a5 _ _ h2 h3, b2.2 _ _ h2 h3]
      simp only [Prov.massMul]
      congr 2
      exact Finset.sum_congr rfl fun j hj => by rw [hlap j (by have := Finset.mem_range.1 hj; omega) _ h3]
    · rw [List.getElem?_eq_none (by omega), List.getElem?_eq_none (by have := b2.1; omega)]
  rw [e]
  exact b1

/-! ### Continuous fields -/

/-- The form for fields without jumps. -/
noncomputable def contForm (J : ℝ) (K : ℕ) (P T : ℕ → ℝ[X]) (k : ℕ) : ℝ :=
  1 / J * (∫ r in (-1 : ℝ)..1, (derivative (derivative (P k))).eval r * (T k).eval r) -
    (((derivative (P k)).eval 1 - rightSlope K P k) * (T k).eval 1 - ((derivative (P k)).eval (-1) - leftSlope P k) * (T k).eval (-1))

/-- The nodal values of piecewise polynomials as a vector. -/
theorem vector_exists (p : Prov) (P : ℕ → ℝ[X]) (hP : ∀ k, (P k).natDegree ≤ p.N) : ∃ v u, Nodal p u P ∧ Flat p v u := by
  set u : DMat ℝ := ⟨p.N + 1, p.K, fun i k => (P k).eval (p.o.r.getD i 0)⟩ with hu
  obtain ⟨v, -, h⟩ := flatten_flat (p := p) u ⟨rfl, rfl⟩ (zeros ((p.N + 1) * p.K)) (by simp [zeros])
  exact ⟨v, u, ⟨rfl, rfl, hP, fun _ _ _ _ => rfl⟩, h⟩

/-- The operator on continuous fields vanishing at the ends. -/
theorem cont_form (hx : xmin < xmax) (hp : ProvSpec xmin xmax p) (v out0 : List ℝ) (u : DMat ℝ) (P : ℕ → ℝ[X]) (hP : Nodal p u P) (hv : Flat p v u)
    (h0 : out0.length = (p.N + 1) * p.K) (hj : ∀ k < p.K, leftJump P k = 0 ∧ rightJump p.K P k = 0) :
    ∃ w : List ℝ, poisson1dOp p v out0 = .ok w ∧ ∀ (z : List ℝ) (m : DMat ℝ) (T : ℕ → ℝ[X]), Nodal p m T → Flat p z m →
      dotVec z w = ∑ k ∈ Finset.range p.K, contForm ((xmax - xmin) / p.K / 2) p.K P T k := by
  obtain ⟨u', w, a1, a2, a3, a4, a5⟩ := op_closed hp v out0 hv.1 h0
  have hP' := hP.transfer hv a1 a2
  have hS := slope_nodal hx hp hP'
  have hQ : Nodal p (pAux p u') _ := ⟨rfl, rfl, hS.deg, fun i hi k hk => by rw [aux_slope hp hP' hk (hj k hk).1 (hj k hk).2, hS.val i hi k hk]⟩
  obtain ⟨R, hR, r2⟩ := lap_nodal hx hp hP' hQ
  refine ⟨w, a3, fun z m T hT hz => ?_⟩
  rw [dot_mass hp hT hR hz a5]
  unfold domainInt
  refine Finset.sum_congr rfl fun k hk => ?_
  have hk := Finset.mem_range.1 hk
  have hJ := (width_pos hx hp).ne'
  rw [r2 k hk (T k) (hT.deg k), (hj k hk).1, (hj k hk).2]
  unfold contForm
  have e : ∫ r in (-1 : ℝ)..1, (derivative (C (1 / ((xmax - xmin) / p.K / 2)) * derivative (P k))).eval r * (T k).eval r =
      1 / ((xmax - xmin) / p.K / 2) * ∫ r in (-1 : ℝ)..1, (derivative (derivative (P k))).eval r * (T k).eval r := by
    rw [← intervalIntegral.integral_const_mul]
    congr 1; funext r
    simp only [derivative_C_mul, eval_mul, eval_C]
    ring
  rw [e]
  simp only [eval_mul, eval_C]
  generalize (xmax - xmin) / p.K / 2 = J at hJ
  field_simp
  ring

/-! ### Neither symmetric nor definite -/

/-- A bump in the first element. -/
noncomputable def bump (k : ℕ) : ℝ[X] := if k = 0 then 1 - X ^ 2 else 0

/-- The hat function of the first interface. -/
noncomputable def hat (k : ℕ) : ℝ[X] := if k = 0 then C (1 / 2) + C (1 / 2) * X else if k = 1 then C (1 / 2) - C (1 / 2) * X else 0

theorem hat_int : ∫ r in (-1 : ℝ)..1, (-2 : ℝ) * (1 / 2 + 1 / 2 * r) = -2 := by
  rw [intervalIntegral.integral_const_mul, intervalIntegral.integral_add (by simp) (Continuous.intervalIntegrable (by fun_prop) _ _), intervalIntegral.integral_const_mul, integral_id]
  simp; norm_num

/-- **C105, symmetry fails.** For every order at least 2, at least two elements, and every element width other than 2 the operator is not symmetric. -/
theorem C105_not_symmetric (hx : xmin < xmax) (hb : Built xmin xmax p) (hN : 2 ≤ p.N) (hK : 2 ≤ p.K) (hw : (xmax - xmin) / p.K ≠ 2) (out0 : List ℝ) (h0 : out0.length = (p.N + 1) * p.K) :
    ∃ a b wa wb : List ℝ, a.length = (p.N + 1) * p.K ∧ b.length = (p.N + 1) * p.K ∧ poisson1dOp p a out0 = .ok wa ∧ poisson1dOp p b out0 = .ok wb ∧ dotVec b wa ≠ dotVec a wb := by
  have hp := hb.spec hx
  have hJ := width_pos hx hp
  have d1 : ∀ k, (bump k).natDegree ≤ p.N := by
    intro k; unfold bump
    split
    · refine le_trans ?_ hN
      compute_degree
    · simp
  have d2 : ∀ k, (hat k).natDegree ≤ p.N := by
    intro k; unfold hat
    split
    · refine le_trans ?_ (by omega : 1 ≤ p.N)
      compute_degree
    · split
      · refine le_trans ?_ (by omega : 1 ≤ p.N)
        compute_degree
      · simp
  obtain ⟨a, ua, na, fa⟩ := vector_exists p bump d1
  obtain ⟨b, ub, nb, fb⟩ := vector_exists p hat d2
  have j1 : ∀ k < p.K, leftJump bump k = 0 ∧ rightJump p.K bump k = 0 := by
    intro k hk
    unfold leftJump rightJump bump
    constructor
    · split_ifs <;> simp_all
    · split_ifs <;> simp_all
  have j2 : ∀ k < p.K, leftJump hat k = 0 ∧ rightJump p.K hat k = 0 := by
    intro k hk
    unfold leftJump rightJump
    constructor
    · rcases Nat.lt_or_ge k 3 with h | h
      · interval_cases k <;> simp [hat]
      · have e1 : k ≠ 0 := by omega
        have e2 : k ≠ 1 := by omega
        have e3 : k - 1 ≠ 0 := by omega
        have e4 : k - 1 ≠ 1 := by omega
        simp [hat, e1, e2, e3, e4]
    · rcases Nat.lt_or_ge k 2 with h | h
      · interval_cases k
        · have : ¬ (0 + 1 = p.K) := by omega
          rw [if_neg this]
          simp [hat]
        · simp [hat]
      · have e1 : k ≠ 0 := by omega
        have e2 : k ≠ 1 := by omega
        have e3 : k + 1 ≠ 1 := by omega
        simp [hat, e1, e2]
  obtain ⟨wa, wa1, wa2⟩ := cont_form hx hp a out0 ua bump na fa h0 j1
  obtain ⟨wb, wb1, wb2⟩ := cont_form hx hp b out0 ub hat nb fb h0 j2
  refine ⟨a, b, wa, wb, fa.1, fb.1, wa1, wb1, ?_⟩
  rw [wa2 b ub hat nb fb, wb2 a ua bump na fa]
  obtain ⟨m, hm⟩ : ∃ m, p.K = m + 2 := ⟨p.K - 2, by omega⟩
  set J := (xmax - xmin) / p.K / 2 with hJd
  have hJ1 : J ≠ 1 := by
    intro h
    apply hw
    linarith [hJd]
  rw [hm, Finset.sum_range_succ', Finset.sum_range_succ', Finset.sum_range_succ', Finset.sum_range_succ']
  have z1 : ∀ k, contForm J (m + 2) bump hat (k + 1 + 1) = 0 := by
    intro k; simp [contForm, hat]
  have z2 : ∀ k, contForm J (m + 2) hat bump (k + 1) = 0 := by
    intro k; simp [contForm, bump]
  have z3 : contForm J (m + 2) hat bump 0 = 0 := by simp [contForm, bump, hat]
  have z4 : contForm J (m + 2) bump hat (0 + 1) = 1 := by
    simp [contForm, bump, hat, leftSlope, rightSlope]; norm_num
  have z5 : contForm J (m + 2) bump hat 0 = 1 - 2 / J := by
    have e : ∀ r : ℝ, (derivative (derivative (bump 0))).eval r * (hat 0).eval r = -2 * (1 / 2 + 1 / 2 * r) := by
      intro r; simp [bump, hat]; ring
    unfold contForm
    simp only [e]
    rw [hat_int]
    simp [bump, hat, leftSlope, rightSlope]
    ring
  simp only [z1, z2, z3, z4, z5, Finset.sum_const_zero]
  intro h
  apply hJ1
  field_simp at h
  linarith

/-- A continuous field with kinks at the interfaces. -/
noncomputable def kinked (K k : ℕ) : ℝ[X] :=
  if k = 0 then C (1 / 2) + C (1 / 2) * X else if k + 1 = K then C (1 / 2) - C (1 / 2) * X else C (1 / 2) + C (1 / 2) * X ^ 2

theorem kinked_int : ∫ r in (-1 : ℝ)..1, (1 : ℝ) * (1 / 2 + 1 / 2 * r ^ 2) = 4 / 3 := by
  rw [intervalIntegral.integral_const_mul, intervalIntegral.integral_add (by simp) (by simp), intervalIntegral.integral_const_mul, integral_pow]
  simp; norm_num

/-- **C105, definiteness fails.** For every order at least 2, at least three elements and element width at most 2/3 (in particular for the driver's order 4 and 15 elements on [-1, 1])
there is a field with positive energy, although the Laplacian with zero boundary values is negative definite. -/
theorem C105_indefinite (hx : xmin < xmax) (hb : Built xmin xmax p) (hN : 2 ≤ p.N) (hK : 3 ≤ p.K) (hw : (xmax - xmin) / p.K ≤ 2 / 3) (out0 : List ℝ) (h0 : out0.length = (p.N + 1) * p.K) :
    ∃ a w : List ℝ, a.length = (p.N + 1) * p.K ∧ poisson1dOp p a out0 = .ok w ∧ 0 < dotVec a w := by
  have hp := hb.spec hx
  have hJ := width_pos hx hp
  have d1 : ∀ k, (kinked p.K k).natDegree ≤ p.N := by
    intro k; unfold kinked
    split
    · refine le_trans ?_ (by omega : 1 ≤ p.N)
      compute_degree
    · split
      · refine le_trans ?_ (by omega : 1 ≤ p.N)
        compute_degree
      · refine le_trans ?_ hN
        compute_degree
  obtain ⟨a, ua, na, fa⟩ := vector_exists p (kinked p.K) d1
  have v1 : ∀ k, k + 1 ≠ p.K → (kinked p.K k).eval 1 = 1 := by
    intro k hk
    unfold kinked
    split_ifs <;> simp <;> norm_num
  have v2 : ∀ k, k ≠ 0 → (kinked p.K k).eval (-1) = 1 := by
    intro k hk
    unfold kinked
    rw [if_neg hk]
    split_ifs <;> simp <;> norm_num
  have j1 : ∀ k < p.K, leftJump (kinked p.K) k = 0 ∧ rightJump p.K (kinked p.K) k = 0 := by
    intro k hk
    unfold leftJump rightJump
    constructor
    · by_cases h : k = 0
      · subst h; simp [kinked]
      · rw [if_neg h, v2 k h, v1 (k - 1) (by omega), sub_self]
    · by_cases h : k + 1 = p.K
      · have : k ≠ 0 := by omega
        simp [kinked, h, this]
      · rw [if_neg h, v1 k h, v2 (k + 1) (by omega), sub_self]
  obtain ⟨w, w1, w2⟩ := cont_form hx hp a out0 ua _ na fa h0 j1
  refine ⟨a, w, fa.1, w1, ?_⟩
  rw [w2 a ua _ na fa]
  obtain ⟨m, hm⟩ : ∃ m, p.K = m + 3 := ⟨p.K - 3, by omega⟩
  set J := (xmax - xmin) / p.K / 2 with hJd
  have hJ1 : J ≤ 1 / 3 := by rw [hJd]; linarith
  rw [hm, Finset.sum_range_succ, Finset.sum_range_succ']
  have s1 : ∀ k, k ≠ 0 → -1 ≤ (derivative (kinked (m + 3) k)).eval (-1) := by
    intro k hk
    unfold kinked
    rw [if_neg hk]
    split_ifs <;> simp <;> norm_num
  have s2 : ∀ k, k + 1 ≠ m + 3 → (derivative (kinked (m + 3) k)).eval 1 ≤ 1 := by
    intro k hk
    unfold kinked
    split_ifs <;> simp <;> norm_num
  have z0 : contForm J (m + 3) (kinked (m + 3)) (kinked (m + 3)) 0 = -(3 / 4) := by
    simp [contForm, kinked, leftSlope, rightSlope]; norm_num
  have z1 : contForm J (m + 3) (kinked (m + 3)) (kinked (m + 3)) (m + 2) = -(3 / 4) := by
    simp [contForm, kinked, leftSlope, rightSlope]; norm_num
  have z2 : ∀ k < m + 1, 2 ≤ contForm J (m + 3) (kinked (m + 3)) (kinked (m + 3)) (k + 1) := by
    intro k hk
    have hk1 : ¬ (k + 1 + 1 = m + 3) := by omega
    have e : kinked (m + 3) (k + 1) = C (1 / 2) + C (1 / 2) * X ^ 2 := by
      unfold kinked
      rw [if_neg (by omega), if_neg hk1]
    have ei : ∀ r : ℝ, (derivative (derivative (kinked (m + 3) (k + 1)))).eval r * (kinked (m + 3) (k + 1)).eval r = 1 * (1 / 2 + 1 / 2 * r ^ 2) := by
      intro r; rw [e]; simp; ring
    have ed1 : (derivative (kinked (m + 3) (k + 1))).eval 1 = 1 := by rw [e]; simp; norm_num
    have ed2 : (derivative (kinked (m + 3) (k + 1))).eval (-1) = -1 := by rw [e]; simp; norm_num
    have ev1 : (kinked (m + 3) (k + 1)).eval 1 = 1 := by rw [e]; simp; norm_num
    have ev2 : (kinked (m + 3) (k + 1)).eval (-1) = 1 := by rw [e]; simp; norm_num
    unfold contForm leftSlope rightSlope
    simp only [ei]
    rw [kinked_int, if_neg hk1, if_neg (Nat.succ_ne_zero k), ed1, ed2, ev1, ev2, Nat.add_sub_cancel]
    have b1 := s1 (k + 1 + 1) (by omega)
    have b2 := s2 k (by omega)
    have : 4 ≤ 1 / J * (4 / 3) := by
      rw [one_div, inv_mul_eq_div, le_div_iff₀ hJ]
      linarith
    linarith
  have zs : 2 ≤ ∑ k ∈ Finset.range (m + 1), contForm J (m + 3) (kinked (m + 3)) (kinked (m + 3)) (k + 1) := by
    calc (2 : ℝ) = ∑ k ∈ Finset.range 1, (2 : ℝ) := by simp
      _ ≤ ∑ k ∈ Finset.range (m + 1), (2 : ℝ) := Finset.sum_le_sum_of_subset_of_nonneg (Finset.range_mono (by omega)) fun _ _ _ => by norm_num
      _ ≤ _ := Finset.sum_le_sum fun k hk => z2 k (Finset.mem_range.1 hk)
  rw [z0, z1]
  linarith

/-- The hypotheses hold for the driver's own parameters: order 4, 15 elements on [-1, 1]; and the consistency theorem applies e.g. to `1 - x^2`. -/
example : ∃ p, Built (-1) 1 p ∧ 2 ≤ p.N ∧ 3 ≤ p.K ∧ (1 - (-1) : ℝ) / p.K ≤ 2 / 3 ∧ (1 - (-1) : ℝ) / p.K ≠ 2 ∧ (1 - X ^ 2 : ℝ[X]).natDegree ≤ p.N ∧
    (1 - X ^ 2 : ℝ[X]).eval (-1) = 0 ∧ (1 - X ^ 2 : ℝ[X]).eval 1 = 0 := by
  obtain ⟨p, h1, h2, h3⟩ := built_exists (xmin := -1) (xmax := 1) (by norm_num) 4 15 (by norm_num) (by norm_num) (by norm_num [intMax])
  refine ⟨p, h1, by omega, by omega, by rw [h3]; norm_num, by rw [h3]; norm_num, ?_, by simp, by simp⟩
  rw [h2]
  refine le_trans ?_ (by norm_num : 2 ≤ 4)
  compute_degree

end Blitzdg.Drivers
