import Verif.Drivers.OneDTrace

/-! Properties C76 and C77: the discretisation of linear advection in src/advec1d/main.cpp. -/

namespace Blitzdg.Drivers

open Polynomial
open Blitzdg.Sparse (DMat)
open Blitzdg.Nodes1D
open Blitzdg.Blitz

variable {xmin xmax : ℝ} {p : Prov}

/-- Specification: the matrix `u` holds, element by element, the values of the polynomials `P k` (of degree at most `N`, in the reference coordinate of element `k`)
at the nodes. -/
structure Nodal (p : Prov) (u : DMat ℝ) (P : ℕ → ℝ[X]) : Prop where
  rows : u.rows = p.N + 1
  cols : u.cols = p.K
  deg : ∀ k, (P k).natDegree ≤ p.N
  val : ∀ i ≤ p.N, ∀ k < p.K, u.at' i k = (P k).eval (p.o.r.getD i 0)

/-- Specification: the integral over element number `k` of a function given in the reference coordinate; all elements have the width `(xmax - xmin) / K`. -/
noncomputable def elemInt (xmin xmax : ℝ) (p : Prov) (f : ℝ → ℝ) : ℝ := (xmax - xmin) / p.K / 2 * ∫ r in (-1 : ℝ)..1, f r

/-- Specification: the integral over the whole interval of a piecewise function. -/
noncomputable def domainInt (xmin xmax : ℝ) (p : Prov) (f : ℕ → ℝ → ℝ) : ℝ := ∑ k ∈ Finset.range p.K, elemInt xmin xmax p (f k)

/-- Every field of the right shape is the nodal representation of some piecewise polynomial. -/
theorem nodal_exists (hp : ProvSpec xmin xmax p) (u : DMat ℝ) (hu : u.rows = p.N + 1 ∧ u.cols = p.K) : ∃ P, Nodal p u P := by
  classical
  have hinj : Set.InjOn (fun i => p.o.r.getD i 0) (Finset.range (p.N + 1) : Set ℕ) := by
    intro i hi j hj h
    simp only [Finset.coe_range, Set.mem_Iio] at hi hj
    rcases Nat.lt_trichotomy i j with h' | h' | h'
    · exact absurd h (hp.ops.nodes.2.2.2 i j h' (by omega)).ne
    · exact h'
    · exact absurd h (hp.ops.nodes.2.2.2 j i h' (by omega)).ne'
  refine ⟨fun k => Lagrange.interpolate (Finset.range (p.N + 1)) (fun i => p.o.r.getD i 0) fun i => u.at' i k, hu.1, hu.2, fun k => ?_, fun i hi k _ => ?_⟩
  · have := Lagrange.degree_interpolate_lt (fun i => u.at' i k) hinj
    rw [Finset.card_range] at this
    generalize Lagrange.interpolate (Finset.range (p.N + 1)) (fun i => p.o.r.getD i 0) (fun i => u.at' i k) = q at this
    rcases eq_or_ne q 0 with rfl | hq
    · simp
    · exact Nat.lt_succ_iff.1 ((natDegree_lt_iff_degree_lt hq).2 this)
  · exact (Lagrange.eval_interpolate_at_node (fun i => u.at' i k) hinj (Finset.mem_range.2 (by omega))).symm

theorem int_deriv (P : ℝ[X]) : ∫ x in (-1 : ℝ)..1, (derivative P).eval x = P.eval 1 - P.eval (-1) := by
  exact intervalIntegral.integral_eq_sub_of_hasDerivAt (f := fun x => P.eval x) (fun x _ => P.hasDerivAt x) ((derivative P).continuous.intervalIntegrable _ _)

theorem int_parts (P T : ℝ[X]) : ∫ x in (-1 : ℝ)..1, (derivative P).eval x * T.eval x =
    P.eval 1 * T.eval 1 - P.eval (-1) * T.eval (-1) - ∫ x in (-1 : ℝ)..1, P.eval x * (derivative T).eval x := by
  have h := int_deriv (P * T)
  rw [derivative_mul] at h
  simp only [eval_add, eval_mul] at h
  rw [intervalIntegral.integral_add] at h
  · linarith
  · exact ((derivative P).continuous.mul T.continuous).intervalIntegrable _ _
  · exact (P.continuous.mul (derivative T).continuous).intervalIntegrable _ _

theorem width_pos (hx : xmin < xmax) (hp : ProvSpec xmin xmax p) : 0 < (xmax - xmin) / p.K / 2 := by
  have : (0 : ℝ) < p.K := by exact_mod_cast hp.posK
  have : 0 < xmax - xmin := by linarith
  positivity

/-- The common form of the right-hand sides: volume term and lifted face terms. In weak form, tested with any polynomial. -/
theorem dg_weak (hp : ProvSpec xmin xmax p) (w : DMat ℝ) (W : ℕ → ℝ[X]) (hw : Nodal p w W) (s : ℕ → ℕ → ℝ) : ∃ Q : ℕ → ℝ[X],
    (∀ k, (Q k).natDegree ≤ p.N) ∧
    (∀ i ≤ p.N, ∀ k < p.K, -p.rx i k * p.diff w i k + p.lift (fun f k => p.fscale f k * s f k) i k = (Q k).eval (p.o.r.getD i 0)) ∧
    ∀ k < p.K, ∀ T : ℝ[X], T.natDegree ≤ p.N →
      elemInt xmin xmax p (fun r => (Q k).eval r * T.eval r) = -(∫ r in (-1 : ℝ)..1, (derivative (W k)).eval r * T.eval r) + s 0 k * T.eval (-1) + s 1 k * T.eval 1 := by
  set J := (xmax - xmin) / p.K / 2 with hJ
  have hJ0 : J ≠ 0 := by
    intro h
    have := hp.rx 0 (Nat.zero_le _) 0
    rw [← hJ, h, mul_zero] at this
    exact zero_ne_one this
  have hrx : ∀ i ≤ p.N, ∀ k, p.rx i k = 1 / J := fun i hi k => eq_div_of_mul_eq hJ0 (hp.rx i hi k)
  have hfs : ∀ f < 2, ∀ k, p.fscale f k = 1 / J := fun f hf k => eq_div_of_mul_eq hJ0 (hp.fscale f hf k)
  obtain ⟨L0, d0, v0, i0⟩ := hp.ops.lift 0 (by omega)
  obtain ⟨L1, d1, v1, i1⟩ := hp.ops.lift 1 (by omega)
  refine ⟨fun k => C (-(1 / J)) * derivative (W k) + C (s 0 k / J) * L0 + C (s 1 k / J) * L1, fun k => ?_, fun i hi k hk => ?_, fun k hk T hT => ?_⟩
  · refine natDegree_add_le_of_degree_le (natDegree_add_le_of_degree_le ?_ ?_) ?_
    · exact (natDegree_C_mul_le _ _).trans ((natDegree_derivative_le _).trans (by have := hw.deg k; omega))
    · exact (natDegree_C_mul_le _ _).trans d0
    · exact (natDegree_C_mul_le _ _).trans d1
  · have e : p.diff w i k = (derivative (W k)).eval (p.o.r.getD i 0) := by
      rw [← hp.ops.diff (W k) (hw.deg k) i hi]
      exact Finset.sum_congr rfl fun j hj => by rw [hw.val j (by have := Finset.mem_range.1 hj; omega) k hk]
    simp only [Prov.lift, Finset.sum_range_succ, Finset.sum_range_zero, zero_add]
    rw [e, hrx i hi, hfs 0 (by omega), hfs 1 (by omega), v0 i hi, v1 i hi]
    simp only [eval_add, eval_mul, eval_C]
    ring
  · unfold elemInt
    have e : ∀ r, (C (-(1 / J)) * derivative (W k) + C (s 0 k / J) * L0 + C (s 1 k / J) * L1).eval r * T.eval r =
        -(1 / J) * ((derivative (W k)).eval r * T.eval r) + s 0 k / J * (L0.eval r * T.eval r) + s 1 k / J * (L1.eval r * T.eval r) := by
      intro r; simp only [eval_add, eval_mul, eval_C]; ring
    simp only [e]
    have ii : ∀ A B : ℝ[X], IntervalIntegrable (fun r => A.eval r * B.eval r) MeasureTheory.volume (-1) 1 := fun A B =>
      (A.continuous.mul B.continuous).intervalIntegrable _ _
    rw [intervalIntegral.integral_add (((ii _ _).const_mul _).add ((ii _ _).const_mul _)) ((ii _ _).const_mul _),
      intervalIntegral.integral_add ((ii _ _).const_mul _) ((ii _ _).const_mul _), intervalIntegral.integral_const_mul, intervalIntegral.integral_const_mul,
      intervalIntegral.integral_const_mul, i0 T hT, i1 T hT]
    simp only [if_pos, one_ne_zero, if_false]
    rw [← hJ]
    field_simp

/-- `p` is a provisioner as the code builds it: some run of `buildNodes` with order at least one, at least one element, a working LAPACK (or one that reports failure), positive
tolerances, previous arrays of the right sizes and a number of elements for which the array sizes do not overflow returned it. -/
def Built (xmin xmax : ℝ) (p : Prov) : Prop :=
  ∃ (la : Lapack) (wrap : Bool) (eps tol : ℝ) (N K : ℕ) (r0 : List ℝ) (Vinv0 : DMat ℝ) (t0 : Tables ℝ), la.Ok ∧ 0 < eps ∧ eps ≤ 0.1 ∧ 0 < tol ∧ 1 ≤ N ∧ 0 < K ∧
    (K + 1) * (2 * K) ≤ intMax ∧ r0.length = N + 1 ∧ (Vinv0.rows = N + 1 ∧ Vinv0.cols = N + 1) ∧ Sized t0 K ∧
    buildProv la wrap eps tol xmin xmax N K r0 Vinv0 t0 = .ok p

theorem Built.spec (hx : xmin < xmax) (h : Built xmin xmax p) : ProvSpec xmin xmax p := by
  obtain ⟨la, wrap, eps, tol, N, K, r0, V, t0, h1, h2, h3, h4, h5, h6, h7, h8, h9, h10, hb⟩ := h
  rcases buildProv_spec la h1 wrap eps tol xmin xmax h2 h3 h4 hx N K h5 h6 h7 r0 h8 V h9 t0 h10 with ⟨-, h⟩ | ⟨q, h, -, -, hs⟩
  · rw [h] at hb; cases hb
  · rw [h] at hb
    obtain rfl : q = p := by injection hb
    exact hs

/-- Provisioners exist for every order and number of elements (up to overflow). -/
theorem built_exists (hx : xmin < xmax) (N K : ℕ) (hN : 1 ≤ N) (hK : 0 < K) (hov : (K + 1) * (2 * K) ≤ intMax) : ∃ p, Built xmin xmax p ∧ p.N = N ∧ p.K = K := by
  obtain ⟨o, ho, -⟩ := buildOps_returns 0.01 (by norm_num) (by norm_num) N hN (zeros (N + 1)) (by simp [zeros]) (zeroMat (N + 1) (N + 1)) ⟨rfl, rfl⟩
  set t0 : Tables ℝ := ⟨zeroMat 0 0, List.replicate (2 * K) 0, List.replicate (2 * K) 0, List.replicate (2 * K) 0, zeros (2 * K), [], [], zeros (2 * K)⟩
  have ht0 : Sized t0 K := by constructor <;> simp [t0, zeros]
  rcases buildProv_spec exactLapack exactLapack_ok false 0.01 1 xmin xmax (by norm_num) (by norm_num) one_pos hx N K hN hK hov (zeros (N + 1)) (by simp [zeros])
    (zeroMat (N + 1) (N + 1)) ⟨rfl, rfl⟩ t0 ht0 with ⟨h, -⟩ | ⟨q, h, h1, h2, -⟩
  · rw [ho] at h; cases h
  · exact ⟨q, ⟨exactLapack, false, 0.01, 1, N, K, _, _, t0, exactLapack_ok, by norm_num, by norm_num, one_pos, hN, hK, hov, by simp [zeros], ⟨rfl, rfl⟩, ht0, h⟩, h1, h2⟩

/-- The jump terms of the advection right-hand side. -/
noncomputable def advecJump (p : Prov) (c : ℝ) (u : DMat ℝ) (f k : ℕ) : ℝ :=
  if f = 0 then (u.at' 0 k - (if k = 0 then 0 else u.at' p.N (k - 1))) * 0.5 * (c * -1 - (1 - 0) * |c * -1|)
  else (u.at' p.N k - (if k + 1 = p.K then u.at' p.N k else u.at' 0 (k + 1))) * 0.5 * (c * 1 - (1 - 0) * |c * 1|)

/-- `computeRHS` of advec1d without arrays. -/
theorem advec_closed (hp : ProvSpec xmin xmax p) (c : ℝ) (u : DMat ℝ) (hu : u.rows = p.N + 1 ∧ u.cols = p.K) :
    ∃ R, advecRHS p c u = .ok R ∧ R.rows = p.N + 1 ∧ R.cols = p.K ∧ ∀ i ≤ p.N, ∀ k < p.K,
      R.at' i k = -c * p.rx i k * p.diff u i k + p.lift (fun f k => p.fscale f k * advecJump p c u f k) i k := by
  obtain ⟨nv, n1, n2, n3⟩ := normals_vec hp
  obtain ⟨uVec, uM, uP, t1, t2, t3, t4, t5, t6, t7⟩ := traces_ok hp u hu
  have hK := hp.posK
  have hlast := t6 (p.K - 1) (by omega)
  obtain ⟨m, m1, m2⟩ := faces_mat p.K ((List.range (2 * p.K)).map fun g =>
      (uM.getD g 0 - ((uP.set (2 * (p.K - 1) + 1) (u.at' p.N (p.K - 1))).set 0 0).getD g 0) * 0.5 * (c * nv.getD g 0 - (1 - 0) * |c * nv.getD g 0|))
    (by simp) (advecJump p c u 0) (advecJump p c u 1) (by
      intro k hk
      have h0 : 2 * k < 2 * p.K := by omega
      have h1 : 2 * k + 1 < 2 * p.K := by omega
      rw [List.getElem?_map, List.getElem?_map, List.getElem?_range h0, List.getElem?_range h1]
      simp only [Option.map_some, List.getD_eq_getElem?_getD, (t6 k hk).1, (t6 k hk).2, (n3 k hk).1, (n3 k hk).2, Option.getD_some]
      constructor
      · congr 2
        by_cases h : k = 0
        · subst h
          rw [Nat.mul_zero, List.getElem?_set_self (by simp [t4]; omega)]
          simp
        · rw [List.getElem?_set_ne (by omega), List.getElem?_set_ne (by omega), (t7 k hk).1]
          simp [h]
      · congr 2
        by_cases h : k + 1 = p.K
        · have e : p.K - 1 = k := by omega
          rw [List.getElem?_set_ne (by omega), e, List.getElem?_set_self (by omega)]
          simp [h]
        · rw [List.getElem?_set_ne (by omega), List.getElem?_set_ne (by omega), (t7 k hk).2]
          simp [h])
  refine ⟨{ rows := p.N + 1, cols := p.K, at' := fun i k => -c * p.rx i k * p.diff u i k + p.lift (fun f k => p.fscale f k * m.at' f k) i k }, ?_, rfl, rfl, ?_⟩
  · simp only [advecRHS, n1, Out.bind_ok, t1, mapIO_eq p hK, rdI_nat uM _ _ hlast.2, wrI_nat uP (2 * (p.K - 1) + 1) _ (by omega),
      wrI_nat (uP.set (2 * (p.K - 1) + 1) (u.at' p.N (p.K - 1))) 0 _ (by simp; omega), m1, Out.pure_eq]
  · intro i _ k hk
    simp only [Prov.lift, Finset.sum_range_succ, Finset.sum_range_zero, zero_add, (m2 k hk).1, (m2 k hk).2]

theorem end_vals (hp : ProvSpec xmin xmax p) {u : DMat ℝ} {P : ℕ → ℝ[X]} (hP : Nodal p u P) {k : ℕ} (hk : k < p.K) :
    u.at' 0 k = (P k).eval (-1) ∧ u.at' p.N k = (P k).eval 1 := by
  rw [hP.val 0 (Nat.zero_le _) k hk, hP.val p.N (le_refl _) k hk, hp.ops.nodes.2.1, hp.ops.nodes.2.2.1]
  exact ⟨rfl, rfl⟩

/-- The right-hand side in weak form, for a non-negative wave speed. -/
theorem advec_weak (hp : ProvSpec xmin xmax p) (c : ℝ) (hc : 0 ≤ c) (u : DMat ℝ) (P : ℕ → ℝ[X]) (hP : Nodal p u P) :
    ∃ R Q, advecRHS p c u = .ok R ∧ Nodal p R Q ∧ ∀ k < p.K, ∀ T : ℝ[X], T.natDegree ≤ p.N → elemInt xmin xmax p (fun r => (Q k).eval r * T.eval r) =
      -c * (∫ r in (-1 : ℝ)..1, (derivative (P k)).eval r * T.eval r) - c * ((P k).eval (-1) - if k = 0 then 0 else (P (k - 1)).eval 1) * T.eval (-1) := by
  obtain ⟨R, h1, h2, h3, h4⟩ := advec_closed hp c u ⟨hP.rows, hP.cols⟩
  have hw : Nodal p { rows := p.N + 1, cols := p.K, at' := fun i k => c * u.at' i k } (fun k => C c * P k) :=
    ⟨rfl, rfl, fun k => (natDegree_C_mul_le _ _).trans (hP.deg k), fun i hi k hk => by simp only [eval_mul, eval_C, hP.val i hi k hk]⟩
  obtain ⟨Q, q1, q2, q3⟩ := dg_weak hp _ _ hw (advecJump p c u)
  refine ⟨R, Q, h1, ⟨h2, h3, q1, fun i hi k hk => ?_⟩, fun k hk T hT => ?_⟩
  · rw [h4 i hi k hk, ← q2 i hi k hk]
    congr 1
    simp only [Prov.diff, Finset.mul_sum]
    exact Finset.sum_congr rfl fun j _ => by ring
  · rw [q3 k hk T hT]
    have e0 : advecJump p c u 0 k = -c * ((P k).eval (-1) - if k = 0 then 0 else (P (k - 1)).eval 1) := by
      simp only [advecJump, if_true]
      rw [(end_vals hp hP hk).1]
      have : (if k = 0 then 0 else u.at' p.N (k - 1)) = if k = 0 then 0 else (P (k - 1)).eval 1 := by
        split
        · rfl
        · exact (end_vals hp hP (by omega)).2
      rw [this, mul_neg_one, abs_neg, abs_of_nonneg hc]
      ring
    have e1 : advecJump p c u 1 k = 0 := by
      simp only [advecJump, one_ne_zero, if_false, mul_one, abs_of_nonneg hc]
      ring
    rw [e0, e1]
    have : ∫ r in (-1 : ℝ)..1, (derivative (C c * P k)).eval r * T.eval r = c * ∫ r in (-1 : ℝ)..1, (derivative (P k)).eval r * T.eval r := by
      rw [← intervalIntegral.integral_const_mul]
      congr 1; funext r
      rw [derivative_C_mul, eval_mul, eval_C]; ring
    rw [this]
    ring

/-- A polynomial on the interval in the reference coordinate of element `k`. -/
noncomputable def pullback (xmin xmax : ℝ) (p : Prov) (F : ℝ[X]) (k : ℕ) : ℝ[X] :=
  F.comp (C ((xmax - xmin) / p.K / 2) * X + C (xmin + (xmax - xmin) / p.K * (k + 1 / 2)))

theorem pullback_eval (F : ℝ[X]) (k : ℕ) (r : ℝ) :
    (pullback xmin xmax p F k).eval r = F.eval (xmin + (xmax - xmin) / p.K * (k + 1 / 2 * (r + 1))) := by
  simp only [pullback, eval_comp, eval_add, eval_mul, eval_C, eval_X]
  congr 1; ring

theorem pullback_end (F : ℝ[X]) (k : ℕ) : (pullback xmin xmax p F (k + 1)).eval (-1) = (pullback xmin xmax p F k).eval 1 := by
  rw [pullback_eval, pullback_eval]
  congr 1; push_cast; ring

theorem nodal_of_poly (hp : ProvSpec xmin xmax p) (u : DMat ℝ) (hu : u.rows = p.N + 1 ∧ u.cols = p.K) (F : ℝ[X]) (hF : F.natDegree ≤ p.N)
    (hv : ∀ i ≤ p.N, ∀ k < p.K, u.at' i k = F.eval (p.t.x.at' i k)) : Nodal p u (pullback xmin xmax p F) := by
  refine ⟨hu.1, hu.2, fun k => ?_, fun i hi k hk => ?_⟩
  · unfold pullback
    rw [natDegree_comp]
    calc _ ≤ F.natDegree * 1 := Nat.mul_le_mul_left _ (natDegree_linear_le)
      _ ≤ p.N := by omega
  · rw [hv i hi k hk, pullback_eval, hp.x]
    rfl

theorem diff_nodal (hp : ProvSpec xmin xmax p) {u : DMat ℝ} {P : ℕ → ℝ[X]} (hP : Nodal p u P) {i k : ℕ} (hi : i ≤ p.N) (hk : k < p.K) :
    p.diff u i k = (derivative (P k)).eval (p.o.r.getD i 0) := by
  rw [← hp.ops.diff (P k) (hP.deg k) i hi]
  exact Finset.sum_congr rfl fun j hj => by rw [hP.val j (by have := Finset.mem_range.1 hj; omega) k hk]

theorem rx_pullback (hp : ProvSpec xmin xmax p) (F : ℝ[X]) {i k : ℕ} (hi : i ≤ p.N) (_hk : k < p.K) :
    p.rx i k * (derivative (pullback xmin xmax p F k)).eval (p.o.r.getD i 0) = (derivative F).eval (p.t.x.at' i k) := by
  have h := hp.rx i hi k
  have e : p.t.x.at' i k = (C ((xmax - xmin) / p.K / 2) * X + C (xmin + (xmax - xmin) / p.K * (k + 1 / 2))).eval (p.o.r.getD i 0) := by
    rw [hp.x]
    simp only [grid, eval_add, eval_mul, eval_C, eval_X]
    ring
  rw [pullback, derivative_comp, eval_mul, eval_comp, ← e]
  have d : (derivative (C ((xmax - xmin) / p.K / 2) * X + C (xmin + (xmax - xmin) / p.K * (k + 1 / 2))) : ℝ[X]) = C ((xmax - xmin) / p.K / 2) := by
    simp
  rw [d, eval_C, ← mul_assoc, h, one_mul]

/-- **C76, energy.** For every field, with non-negative wave speed, the computed right-hand side is the nodal representation of a piecewise polynomial, and the rate of change of half the
squared L2 norm equals minus `c/2` times the squared outflow value plus the squares of all jumps (at the inflow end, the jump to the boundary value 0). -/
theorem C76_energy (hx : xmin < xmax) (hb : Built xmin xmax p) (c : ℝ) (hc : 0 ≤ c) (u : DMat ℝ) (P : ℕ → ℝ[X]) (hP : Nodal p u P) :
    ∃ R Q, advecRHS p c u = .ok R ∧ Nodal p R Q ∧ domainInt xmin xmax p (fun k r => (Q k).eval r * (P k).eval r) =
      -(c / 2) * ((P (p.K - 1)).eval 1 ^ 2 + ∑ k ∈ Finset.range p.K, ((P k).eval (-1) - if k = 0 then 0 else (P (k - 1)).eval 1) ^ 2) := by
  have hp := hb.spec hx
  obtain ⟨R, Q, h1, h2, h3⟩ := advec_weak hp c hc u P hP
  refine ⟨R, Q, h1, h2, ?_⟩
  have he : ∀ k < p.K, elemInt xmin xmax p (fun r => (Q k).eval r * (P k).eval r) =
      -(c / 2) * ((P k).eval 1 ^ 2 - (if k = 0 then 0 else (P (k - 1)).eval 1) ^ 2 + ((P k).eval (-1) - if k = 0 then 0 else (P (k - 1)).eval 1) ^ 2) := by
    intro k hk
    rw [h3 k hk (P k) (hP.deg k)]
    have h := int_parts (P k) (P k)
    have h' : ∫ r in (-1 : ℝ)..1, (P k).eval r * (derivative (P k)).eval r = ∫ r in (-1 : ℝ)..1, (derivative (P k)).eval r * (P k).eval r := by
      congr 1; funext r; ring
    rw [h'] at h
    have h'' : ∫ r in (-1 : ℝ)..1, (derivative (P k)).eval r * (P k).eval r = ((P k).eval 1 ^ 2 - (P k).eval (-1) ^ 2) / 2 := by linarith
    rw [h'']
    ring
  have gen : ∀ n ≤ p.K, ∑ k ∈ Finset.range n, elemInt xmin xmax p (fun r => (Q k).eval r * (P k).eval r) =
      -(c / 2) * ((if n = 0 then 0 else (P (n - 1)).eval 1) ^ 2 + ∑ k ∈ Finset.range n, ((P k).eval (-1) - if k = 0 then 0 else (P (k - 1)).eval 1) ^ 2) := by
    intro n hn
    induction n with
    | zero => simp
    | succ n ih =>
      rw [Finset.sum_range_succ, ih (by omega), he n (by omega), Finset.sum_range_succ]
      simp only [Nat.add_sub_cancel, if_neg (Nat.succ_ne_zero n)]
      ring
  have := gen p.K (le_refl _)
  rw [if_neg hp.posK.ne'] at this
  exact this

/-- **C76, stability.** In particular the L2 norm never grows. -/
theorem C76_stable (hx : xmin < xmax) (hb : Built xmin xmax p) (c : ℝ) (hc : 0 ≤ c) (u : DMat ℝ) (P : ℕ → ℝ[X]) (hP : Nodal p u P) :
    ∃ R Q, advecRHS p c u = .ok R ∧ Nodal p R Q ∧ domainInt xmin xmax p (fun k r => (Q k).eval r * (P k).eval r) ≤ 0 := by
  obtain ⟨R, Q, h1, h2, h3⟩ := C76_energy hx hb c hc u P hP
  refine ⟨R, Q, h1, h2, h3.trans_le ?_⟩
  have : 0 ≤ ∑ k ∈ Finset.range p.K, ((P k).eval (-1) - if k = 0 then 0 else (P (k - 1)).eval 1) ^ 2 := Finset.sum_nonneg fun k _ => sq_nonneg _
  nlinarith [sq_nonneg ((P (p.K - 1)).eval 1)]

/-- **C77, conservation.** The total amount changes only by what leaves through the outflow end. -/
theorem C77_conservation (hx : xmin < xmax) (hb : Built xmin xmax p) (c : ℝ) (hc : 0 ≤ c) (u : DMat ℝ) (P : ℕ → ℝ[X]) (hP : Nodal p u P) :
    ∃ R Q, advecRHS p c u = .ok R ∧ Nodal p R Q ∧ domainInt xmin xmax p (fun k r => (Q k).eval r) = -c * (P (p.K - 1)).eval 1 := by
  have hp := hb.spec hx
  obtain ⟨R, Q, h1, h2, h3⟩ := advec_weak hp c hc u P hP
  refine ⟨R, Q, h1, h2, ?_⟩
  have he : ∀ k < p.K, elemInt xmin xmax p (fun r => (Q k).eval r) = -c * (P k).eval 1 + c * (if k = 0 then 0 else (P (k - 1)).eval 1) := by
    intro k hk
    have := h3 k hk 1 (by simp)
    simp only [eval_one, mul_one, int_deriv] at this
    rw [this]
    ring
  have gen : ∀ n ≤ p.K, ∑ k ∈ Finset.range n, elemInt xmin xmax p (fun r => (Q k).eval r) = -c * (if n = 0 then 0 else (P (n - 1)).eval 1) := by
    intro n hn
    induction n with
    | zero => simp
    | succ n ih =>
      rw [Finset.sum_range_succ, ih (by omega), he n (by omega)]
      simp only [Nat.add_sub_cancel, if_neg (Nat.succ_ne_zero n)]
      ring
  have := gen p.K (le_refl _)
  rw [if_neg hp.posK.ne'] at this
  exact this

/-- **C77, consistency.** On the nodal values of a polynomial of degree at most `N` that vanishes at the inflow end, the right-hand side is exactly `-c` times its derivative. -/
theorem C77_consistency (hx : xmin < xmax) (hb : Built xmin xmax p) (c : ℝ) (hc : 0 ≤ c) (u : DMat ℝ) (hu : u.rows = p.N + 1 ∧ u.cols = p.K)
    (F : ℝ[X]) (hF : F.natDegree ≤ p.N) (h0 : F.eval xmin = 0) (hv : ∀ i ≤ p.N, ∀ k < p.K, u.at' i k = F.eval (p.t.x.at' i k)) :
    ∃ R, advecRHS p c u = .ok R ∧ ∀ i ≤ p.N, ∀ k < p.K, R.at' i k = -c * (derivative F).eval (p.t.x.at' i k) := by
  have hp := hb.spec hx
  obtain ⟨R, h1, -, -, h4⟩ := advec_closed hp c u hu
  have hP := nodal_of_poly hp u hu F hF hv
  refine ⟨R, h1, fun i hi k hk => ?_⟩
  rw [h4 i hi k hk]
  have e0 : advecJump p c u 0 k = 0 := by
    simp only [advecJump, if_true]
    rw [(end_vals hp hP hk).1]
    by_cases h : k = 0
    · subst h
      rw [pullback_eval]
      simp [h0]
    · rw [if_neg h, (end_vals hp hP (by omega : k - 1 < p.K)).2]
      obtain ⟨k, rfl⟩ : ∃ j, k = j + 1 := ⟨k - 1, by omega⟩
      simp only [pullback_end, Nat.add_sub_cancel, sub_self, zero_mul]
  have e1 : advecJump p c u 1 k = 0 := by
    simp only [advecJump, one_ne_zero, if_false, mul_one, abs_of_nonneg hc]
    ring
  simp only [Prov.lift, Finset.sum_range_succ, Finset.sum_range_zero, e0, e1, mul_zero, add_zero]
  rw [diff_nodal hp hP hi hk, mul_assoc, rx_pullback hp F hi hk]

/-- The hypotheses hold for the driver's own parameters (order 4, 30 elements on [-1, 4]) and any field of that shape. -/
example (u : DMat ℝ) (hu : u.rows = 5 ∧ u.cols = 30) : ∃ p P, Built (-1) 4 p ∧ Nodal p u P := by
  obtain ⟨p, h1, h2, h3⟩ := built_exists (xmin := -1) (xmax := 4) (by norm_num) 4 30 (by norm_num) (by norm_num) (by norm_num [intMax])
  obtain ⟨P, hP⟩ := nodal_exists (h1.spec (by norm_num)) u (by rw [h2, h3]; exact hu)
  exact ⟨p, P, h1, hP⟩

end Blitzdg.Drivers
