import Verif.Drivers.AdvecRun
import Verif.Drivers.AdvecInterp
import Verif.Drivers.AdvecProps
import Mathlib.Analysis.SpecialFunctions.SmoothTransition

/-! Property C122: the program advec1d converges to the travelling wave. -/

namespace Blitzdg.Drivers

open Polynomial Set
open Blitzdg.Sparse (DMat rowMajor)
open Blitzdg.Nodes1D
open Blitzdg.Time (rk4a rk4b numStages)
open scoped RealInnerProductSpace

variable {xmin xmax : ℝ} {p : Prov}

/-- The matrix `u` holds the nodal values of the piecewise polynomial `v`. -/
structure Rep (p : Prov) (u : DMat ℝ) (v : Pieces p.N p.K) : Prop where
  rows : u.rows = p.N + 1
  cols : u.cols = p.K
  val : ∀ i ≤ p.N, ∀ k : Fin p.K, u.at' i k = (v k).poly.eval (p.o.r.getD i 0)

theorem ProvSpec.nodes (hp : ProvSpec xmin xmax p) : Nodes p.N fun i => p.o.r.getD i 0 := ⟨hp.ops.nodes.2.1, hp.ops.nodes.2.2.1, hp.ops.nodes.2.2.2⟩

theorem Rep.unique (hp : ProvSpec xmin xmax p) {u u' : DMat ℝ} {v v' : Pieces p.N p.K} (h : Rep p u v) (h' : Rep p u' v') (e : ∀ i ≤ p.N, ∀ k < p.K, u.at' i k = u'.at' i k) : v = v' := by
  ext k
  exact hp.nodes.unique fun i hi => by
    show (v k).poly.eval (p.o.r.getD i 0) = (v' k).poly.eval (p.o.r.getD i 0)
    rw [← h.val i hi k, ← h'.val i hi k, e i hi k k.2]

theorem Rep.exists (hp : ProvSpec xmin xmax p) (u : DMat ℝ) (hu : u.rows = p.N + 1 ∧ u.cols = p.K) : ∃ v, Rep p u v := by
  obtain ⟨P, hP⟩ := nodal_exists hp u hu
  exact ⟨WithLp.toLp 2 fun k => Ref.mk (P k) (hP.deg k), hu.1, hu.2, fun i hi k => hP.val i hi k k.2⟩

theorem Rep.nodal {u : DMat ℝ} {v : Pieces p.N p.K} (h : Rep p u v) : Nodal p u fun k => if hk : k < p.K then (v ⟨k, hk⟩).poly else 0 :=
  ⟨h.rows, h.cols, fun k => by
    split
    · exact Ref.deg _
    · simp, fun i hi k hk => by rw [dif_pos hk]; exact h.val i hi ⟨k, hk⟩⟩

theorem Rep.lin {u u' : DMat ℝ} {v v' : Pieces p.N p.K} (h : Rep p u v) (h' : Rep p u' v') (a b : ℝ) : Rep p (Drivers.lin a u b u') (a • v + b • v') := by
  refine ⟨h.rows, h.cols, fun i hi k => ?_⟩
  simp only [Drivers.lin, h.val i hi k, h'.val i hi k, PiLp.add_apply, PiLp.smul_apply, map_add, map_smul, eval_add, eval_smul, smul_eq_mul]

/-- The computed right-hand side is the advection operator. -/
theorem Rep.rhs (hx : xmin < xmax) (hp : ProvSpec xmin xmax p) {c : ℝ} (hc : 0 ≤ c) {u : DMat ℝ} {v : Pieces p.N p.K} (h : Rep p u v) :
    ∃ R, advecRHS p c u = .ok R ∧ Rep p R (advOp p.N p.K (c / ((xmax - xmin) / p.K / 2)) v) := by
  obtain ⟨R, Q, h1, h2, h3⟩ := advec_weak hp c hc u _ h.nodal
  have hJ := width_pos hx hp
  refine ⟨R, h1, ?_⟩
  have hQ : (WithLp.toLp 2 fun k : Fin p.K => Ref.mk (Q k) (h2.deg k) : Pieces p.N p.K) = advOp p.N p.K (c / ((xmax - xmin) / p.K / 2)) v := by
    ext k
    refine Ref.eq_of_test fun T => ?_
    rw [advOp_apply, real_inner_smul_left, inner_add_left, inner_neg_left, real_inner_smul_left, Ref.inner_left]
    have e := h3 k k.2 T.poly T.deg
    rw [elemInt] at e
    rw [Ref.inner_def, Ref.inner_def]
    simp only [Ref.poly_mk, Ref.D_poly]
    have hu : (if k.1 = 0 then 0 else (if hk : k.1 - 1 < p.K then (v ⟨k.1 - 1, hk⟩).poly else 0).eval 1) = upwind v k := by
      rw [upwind]
      by_cases h0 : k.1 = 0
      · rw [if_pos h0, dif_pos h0]
      · rw [if_neg h0, dif_neg h0, dif_pos (by omega)]
    rw [hu] at e
    simp only [Fin.is_lt, dif_pos] at e
    rw [div_mul_eq_mul_div, eq_div_iff hJ.ne', mul_comm, e]
    ring
  rw [← hQ]
  exact ⟨h2.rows, h2.cols, fun i hi k => h2.val i hi k k.2⟩

/-- The function `rhs` on arrays computes the operator `A` on piecewise polynomials. -/
def Computes (p : Prov) (rhs : DMat ℝ → Out (DMat ℝ)) (A : Pieces p.N p.K → Pieces p.N p.K) : Prop :=
  ∀ (u : DMat ℝ) (v : Pieces p.N p.K), Rep p u v → ∃ R, rhs u = .ok R ∧ Rep p R (A v)

/-- The stages follow the Runge-Kutta scheme. -/
theorem Rep.stages {rhs : DMat ℝ → Out (DMat ℝ)} {A : Pieces p.N p.K → Pieces p.N p.K} (hA : Computes p rhs A) (dt : ℝ) (l : List ℕ) : ∀ (u res : DMat ℝ) (v w : Pieces p.N p.K), Rep p u v → Rep p res w →
    ∃ u' res', l.foldlM (rkStage rhs dt) (u, res) = .ok (u', res') ∧
      Rep p u' (l.foldl (Time.stage A dt) (v, w)).1 ∧ Rep p res' (l.foldl (Time.stage A dt) (v, w)).2 := by
  induction l with
  | nil => intro u res v w h1 h2; exact ⟨u, res, rfl, h1, h2⟩
  | cons i l ih =>
    intro u res v w h1 h2
    obtain ⟨R, r1, r2⟩ := hA u v h1
    have hs : rkStage rhs dt (u, res) i = .ok (Drivers.lin 1 u ((rk4b.getD i 0 : ℚ) : ℝ) (Drivers.lin ((rk4a.getD i 0 : ℚ) : ℝ) res dt R), Drivers.lin ((rk4a.getD i 0 : ℚ) : ℝ) res dt R) := by
      simp only [rkStage, r1, Out.bind_ok, Out.pure_eq]
    have hres := h2.lin r2 ((rk4a.getD i 0 : ℚ) : ℝ) dt
    have hu := h1.lin hres 1 ((rk4b.getD i 0 : ℚ) : ℝ)
    rw [one_smul] at hu
    obtain ⟨u', res', e1, e2, e3⟩ := ih _ _ _ _ hu hres
    exact ⟨u', res', by rw [List.foldlM_cons, hs, Out.bind_ok, e1], e2, e3⟩

/-- One step of the program. -/
theorem Rep.step {rhs : DMat ℝ → Out (DMat ℝ)} {A : Pieces p.N p.K → Pieces p.N p.K} (hA : Computes p rhs A) (dt : ℝ) {u res : DMat ℝ} {v w : Pieces p.N p.K} (h1 : Rep p u v) (h2 : Rep p res w) :
    ∃ u' res', rkStep rhs dt (u, res) = .ok (u', res') ∧ Rep p u' (Time.step A dt (v, w)).1 ∧ ∃ w', Rep p res' w' := by
  obtain ⟨u', res', e1, e2, e3⟩ := Rep.stages hA dt (List.range numStages) u res v w h1 h2
  exact ⟨u', res', e1, e2, _, e3⟩

theorem maxAbs_foldl (f : ℕ × ℕ → ℝ) (l : List (ℕ × ℕ)) : ∀ a : ℝ, a ≤ l.foldl (fun m ij => max m |f ij|) a ∧ (∀ ij ∈ l, |f ij| ≤ l.foldl (fun m ij => max m |f ij|) a) ∧
    ∀ b, a ≤ b → (∀ ij ∈ l, |f ij| ≤ b) → l.foldl (fun m ij => max m |f ij|) a ≤ b := by
  induction l with
  | nil => intro a; exact ⟨le_refl _, by simp, fun b h _ => h⟩
  | cons x l ih =>
    intro a
    obtain ⟨h1, h2, h3⟩ := ih (max a |f x|)
    rw [List.foldl_cons]
    refine ⟨le_trans (le_max_left _ _) h1, fun ij hij => ?_, fun b hb hl => h3 b (max_le hb (hl x (by simp))) fun ij hij => hl ij (by simp [hij])⟩
    rcases List.mem_cons.1 hij with rfl | h
    · exact le_trans (le_max_right _ _) h1
    · exact h2 ij h

/-- `maxAbs` is the least upper bound of the absolute values. -/
theorem maxAbs_le_iff (u : DMat ℝ) (b : ℝ) (hb : 0 ≤ b) : maxAbs u ≤ b ↔ ∀ i < u.rows, ∀ k < u.cols, |u.at' i k| ≤ b := by
  obtain ⟨-, h2, h3⟩ := maxAbs_foldl (fun ij => u.at' ij.1 ij.2) (rowMajor u.rows u.cols) 0
  constructor
  · intro h i hi k hk
    exact le_trans (h2 (i, k) (by simp [rowMajor, hi, hk])) h
  · intro h
    refine h3 b hb fun ij hij => ?_
    have : ij.1 < u.rows ∧ ij.2 < u.cols := by
      obtain ⟨i, k⟩ := ij
      simpa [rowMajor] using hij
    exact h _ this.1 _ this.2

/-- The piecewise polynomials after each step. -/
noncomputable def wave (p : Prov) (xmin xmax c dt : ℝ) (v : Pieces p.N p.K) : ℕ → Pieces p.N p.K
  | 0 => v
  | k + 1 => (Time.step (advOp p.N p.K (c / ((xmax - xmin) / p.K / 2))) dt (wave p xmin xmax c dt v k, 0)).1

/-- The time loop from pass `k` on. -/
theorem advecLoop_from (hx : xmin < xmax) (hp : ProvSpec xmin xmax p) {c dt : ℝ} (hc : 0 ≤ c) (hdt : 0 < dt) (T : ℝ) (v : Pieces p.N p.K) (m : ℕ) :
    ∀ k : ℕ, k + m = ⌈T / dt⌉₊ → ∀ (fuel : ℕ) (s : AdvecState), m < fuel → Rep p s.u (wave p xmin xmax c dt v k) → (∃ w, Rep p s.res w) → s.t = k * dt → s.count = k →
    (∃ j u, k ≤ j ∧ j < ⌈T / dt⌉₊ ∧ Rep p u (wave p xmin xmax c dt v (j + 1)) ∧ 1e8 < maxAbs u ∧ advecLoop p c dt T fuel s = .throws) ∨
    ∃ (s' : AdvecState) (us : ℕ → DMat ℝ), advecLoop p c dt T fuel s = .ok (some s') ∧ Rep p s'.u (wave p xmin xmax c dt v ⌈T / dt⌉₊) ∧ s'.t = ⌈T / dt⌉₊ * dt ∧
      (∀ j, Rep p (us j) (wave p xmin xmax c dt v j)) ∧
      s'.files = s.files ++ ((List.range' k m).filter fun j => j % 10 = 0).map fun j : ℕ => (Output.generateFileName ".dat".toList "u".toList (j : ℤ), us j) := by
  induction m with
  | zero =>
    intro k hk fuel s hf hu _ ht _
    obtain ⟨n, rfl⟩ : ∃ n, fuel = n + 1 := ⟨fuel - 1, by omega⟩
    rw [add_zero] at hk
    have h : ¬ s.t < T := by
      rw [ht, not_lt, ← div_le_iff₀ hdt, hk]
      exact Nat.le_ceil _
    right
    refine ⟨s, fun j => ⟨p.N + 1, p.K, fun i k => if hk : k < p.K then (wave p xmin xmax c dt v j ⟨k, hk⟩).poly.eval (p.o.r.getD i 0) else 0⟩, by simp [advecLoop, h], by rw [← hk]; exact hu, by rw [← hk]; exact ht,
      fun j => ⟨rfl, rfl, fun i hi k => by simp⟩, by simp⟩
  | succ m ih =>
    intro k hk fuel s hf hu hres ht hcount
    obtain ⟨n, rfl⟩ : ∃ n, fuel = n + 1 := ⟨fuel - 1, by omega⟩
    obtain ⟨w, hw⟩ := hres
    have h : s.t < T := by
      rw [ht, ← lt_div_iff₀ hdt]
      exact Nat.lt_ceil.1 (by omega)
    obtain ⟨u', res', e1, e2, e3⟩ := Rep.step (fun u v h => h.rhs hx hp hc) dt hu hw
    have e2' : Rep p u' (wave p xmin xmax c dt v (k + 1)) := by
      rw [wave, Time.C49_stale _ _ _ 0 w]
      exact e2
    by_cases hb : 1e8 < maxAbs u'
    · left
      refine ⟨k, u', le_refl _, by omega, e2', hb, ?_⟩
      simp only [advecLoop, h, if_true, advecBody, e1, Out.bind_ok, gt_iff_lt, hb]
      rfl
    · have hl : advecLoop p c dt T (n + 1) s = advecLoop p c dt T n ⟨u', res', s.t + dt, s.count + 1,
          if s.count % 10 = 0 then s.files ++ [(Output.generateFileName ".dat".toList "u".toList s.count, s.u)] else s.files⟩ := by
        simp only [advecLoop, h, if_true, advecBody, e1, Out.bind_ok, gt_iff_lt, hb, if_false, Out.pure_eq]
      rw [hl]
      rcases ih (k + 1) (by omega) n ⟨u', res', s.t + dt, s.count + 1,
          if s.count % 10 = 0 then s.files ++ [(Output.generateFileName ".dat".toList "u".toList s.count, s.u)] else s.files⟩ (by omega) e2' e3 (by simp only [ht]; push_cast; ring) (by simp [hcount]) with
        ⟨j, u, h1, h2, h3, h4, h5⟩ | ⟨s', us, h1, h2, h3, h4, h5⟩
      · left; exact ⟨j, u, by omega, h2, h3, h4, h5⟩
      · right
        refine ⟨s', fun j => if j = k then s.u else us j, h1, h2, h3, fun j => ?_, ?_⟩
        · simp only
          split
          · rename_i hj; rw [hj]; exact hu
          · exact h4 j
        · rw [h5, List.range'_succ, List.filter_cons]
          have hm : ∀ l : List ℕ, (∀ j ∈ l, k < j) → (l.map fun j : ℕ => (Output.generateFileName ".dat".toList "u".toList (j : ℤ), if j = k then s.u else us j)) = l.map fun j : ℕ => (Output.generateFileName ".dat".toList "u".toList (j : ℤ), us j) := by
            intro l hl
            refine List.map_congr_left fun j hj => ?_
            rw [if_neg (by have := hl j hj; omega)]
          have hgt : ∀ j ∈ (List.range' (k + 1) m).filter (fun j => j % 10 = 0), k < j := fun j hj => by
            have := (List.mem_range'_1.1 (List.mem_filter.1 hj).1).1
            omega
          by_cases h10 : k % 10 = 0
          · simp only [hcount, h10, if_true, decide_true, List.map_cons, hm _ hgt]
            rw [List.append_assoc]
            rfl
          · simp only [hcount, h10, if_false, decide_false, Bool.false_eq_true]
            rw [hm _ hgt]

/-- Specification: the bound on the error of the program.  `h` is the width of the elements, `n` the number of steps, `M`, `B` and `g` bound the derivative of order `N + 1` of the profile, the profile, and the profile at the inflow end.
The first term is the error of the time stepping (its part `10⁻²⁴` comes from the rounded coefficients of the scheme), the second that of the polynomials, the third is caused by the boundary condition, which assumes that nothing flows in. -/
noncomputable def advecBound (C : ℝ) (N K n : ℕ) (h c T CFL M B g : ℝ) : ℝ :=
  C * Real.exp (n * ((C * CFL) ^ 5 + 1 / 10 ^ 24)) * (n * ((C * CFL) ^ 5 + 1 / 10 ^ 24) * √K * B + (c * T + h) * √K * M * h ^ N + (c * T + h) * g / h)

theorem advecBound_nonneg {C : ℝ} {N K n : ℕ} {h c T CFL M B g : ℝ} (hC : 0 ≤ C) (hh : 0 ≤ h) (hc : 0 ≤ c) (hT : 0 ≤ T) (hF : 0 ≤ CFL) (hM : 0 ≤ M) (hB : 0 ≤ B) (hg : 0 ≤ g) :
    0 ≤ advecBound C N K n h c T CFL M B g := by
  unfold advecBound
  positivity

theorem advecBound_le {C1 C2 h c dt T CFL M B g j : ℝ} {n : ℕ} (N K : ℕ) (hC1 : 0 < C1) (hC20 : 0 ≤ C2) (hh0 : 0 < h) (hc : 0 ≤ c) (hdt0 : 0 ≤ dt) (hT : 0 ≤ T)
    (hM0 : 0 ≤ M) (hB0 : 0 ≤ B) (hg0 : 0 ≤ g) (hcdt' : c * dt / h ≤ CFL) (hjn : j ≤ n) (hj0 : 0 ≤ j) (hjt : j * dt * c ≤ c * T + h) :
    C2 * (C1 * (Real.exp (j * ((C1 * (c * dt / h)) ^ 5 + 1 / 10 ^ 24)) * (j * ((C1 * (c * dt / h)) ^ 5 + 1 / 10 ^ 24) * (√K * B) + j * dt * (c * (√K * (M * h ^ N) + g / h))))) ≤
      advecBound (C1 * (1 + C2)) N K n h c T CFL M B g := by
  rw [advecBound]
  have hK1 : C1 ≤ C1 * (1 + C2) := by nlinarith [mul_nonneg hC1.le hC20]
  obtain ⟨δ, hδ⟩ : ∃ δ, δ = (C1 * (1 + C2) * CFL) ^ 5 + 1 / 10 ^ 24 := ⟨_, rfl⟩
  have hx0 : 0 ≤ C1 * (c * dt / h) := by positivity
  have hδ' : (C1 * (c * dt / h)) ^ 5 + 1 / 10 ^ 24 ≤ δ := by
    rw [hδ]
    refine add_le_add_left (pow_le_pow_left₀ hx0 ?_ 5) _
    exact mul_le_mul hK1 hcdt' (by positivity) (by positivity)
  have hδ0 : 0 ≤ δ := le_trans (by positivity) hδ'
  rw [← hδ]
  have hjd : j * ((C1 * (c * dt / h)) ^ 5 + 1 / 10 ^ 24) ≤ n * δ := mul_le_mul hjn hδ' (by positivity) (by positivity)
  have hq : 0 ≤ √(K : ℝ) * (M * h ^ N) + g / h := by positivity
  have hb : 0 ≤ Real.exp (n * δ) * (n * δ * √(K : ℝ) * B + (c * T + h) * √(K : ℝ) * M * h ^ N + (c * T + h) * g / h) := by positivity
  calc _ ≤ C2 * (C1 * (Real.exp (n * δ) * (n * δ * (√(K : ℝ) * B) + (c * T + h) * (√(K : ℝ) * (M * h ^ N) + g / h)))) := by
        refine mul_le_mul_of_nonneg_left (mul_le_mul_of_nonneg_left ?_ hC1.le) hC20
        refine mul_le_mul (Real.exp_le_exp.2 hjd) ?_ (by positivity) (Real.exp_pos _).le
        refine add_le_add (mul_le_mul_of_nonneg_right hjd (by positivity)) ?_
        rw [← mul_assoc]
        exact mul_le_mul_of_nonneg_right hjt hq
    _ = C1 * C2 * (Real.exp (n * δ) * (n * δ * √(K : ℝ) * B + (c * T + h) * √(K : ℝ) * M * h ^ N + (c * T + h) * g / h)) := by ring
    _ ≤ C1 * (1 + C2) * (Real.exp (n * δ) * (n * δ * √(K : ℝ) * B + (c * T + h) * √(K : ℝ) * M * h ^ N + (c * T + h) * g / h)) := mul_le_mul_of_nonneg_right (by linarith) hb
    _ = _ := by ring

theorem grid_pos (hp : ProvSpec xmin xmax p) (i k : ℕ) : p.t.x.at' i k = pos xmin ((xmax - xmin) / p.K) k (p.o.r.getD i 0) := by
  rw [hp.x]
  simp only [grid, pos]
  ring

theorem grid_range (hx : xmin < xmax) (hp : ProvSpec xmin xmax p) : ∀ i ≤ p.N, ∀ k < p.K, xmin ≤ p.t.x.at' i k ∧ p.t.x.at' i k ≤ xmax := by
  intro i hi k hk
  obtain ⟨h, hh⟩ : ∃ h, h = (xmax - xmin) / (p.K : ℝ) := ⟨_, rfl⟩
  have hK : (0 : ℝ) < p.K := by exact_mod_cast hp.posK
  have hh0 : 0 < h := by rw [hh]; exact div_pos (by linarith) hK
  have hKh : xmin + h * p.K = xmax := by rw [hh]; field_simp; ring
  rw [grid_pos hp, ← hh]
  have hrr : -1 ≤ p.o.r.getD i 0 ∧ p.o.r.getD i 0 ≤ 1 := hp.nodes.range hi
  have hk1 : (k : ℝ) + 1 ≤ p.K := by exact_mod_cast hk
  have hk0 : (0 : ℝ) ≤ k := Nat.cast_nonneg k
  unfold pos
  constructor
  · nlinarith [mul_nonneg hh0.le hk0]
  · rw [← hKh]; nlinarith

/-- The error of the Runge-Kutta steps at the nodes. -/
theorem wave_nodes {N : ℕ} (hN : 1 ≤ N) {o : Ops} (ho : OpsSpec N o) : ∃ C γ : ℝ, 0 < C ∧ 0 < γ ∧ γ ≤ 1 ∧ ∀ (xmin xmax : ℝ) (p : Prov), xmin < xmax → ProvSpec xmin xmax p → p.N = N → p.o = o →
    ∀ (c T CFL M B g : ℝ) (F : ℝ → ℝ) (n : ℕ) (h dt : ℝ), 0 < c → 0 ≤ T → 0 < CFL → CFL ≤ 1 → C * CFL ≤ 1 → h = (xmax - xmin) / p.K → dt = CFL * (γ * h) / c → ContDiff ℝ (N + 1) F →
    (∀ x ∈ Icc (xmin - c * T - h) xmax, |iteratedDeriv (N + 1) F x| ≤ M ∧ |F x| ≤ B) → (∀ x ∈ Icc (xmin - c * T - h) xmin, |F x| ≤ g) → n = ⌈T / dt⌉₊ →
    0 < dt ∧ CFL * (p.t.x.at' 1 0 - p.t.x.at' 0 0) / |c| = dt ∧ 0 ≤ advecBound C N p.K n h c T CFL M B g ∧
    ∃ v, Rep p (p.sample F) v ∧ ∀ j ≤ n, ∀ u, Rep p u (wave p xmin xmax c dt v j) → ∀ i ≤ p.N, ∀ k < p.K,
      |u.at' i k - F (p.t.x.at' i k - c * (j * dt))| ≤ advecBound C N p.K n h c T CFL M B g ∧ |F (p.t.x.at' i k - c * (j * dt))| ≤ B := by
  have hr : Nodes N fun i => o.r.getD i 0 := ⟨ho.nodes.2.1, ho.nodes.2.2.1, ho.nodes.2.2.2⟩
  obtain ⟨C1, hC1, hw⟩ := hr.wave_error
  obtain ⟨C2, hC2⟩ : ∃ C2 : ℝ, C2 = ∑ i ∈ Finset.range (N + 1), ‖(Ref.ev (o.r.getD i 0) : Ref N →L[ℝ] ℝ)‖ := ⟨_, rfl⟩
  have hC20 : 0 ≤ C2 := by rw [hC2]; exact Finset.sum_nonneg fun i _ => ContinuousLinearMap.opNorm_nonneg _
  have hev : ∀ i ≤ N, ∀ P : Ref N, |P.poly.eval (o.r.getD i 0)| ≤ C2 * ‖P‖ := fun i hi P => by
    refine le_trans ((Ref.ev (o.r.getD i 0) : Ref N →L[ℝ] ℝ).le_opNorm P) (mul_le_mul_of_nonneg_right ?_ (norm_nonneg _))
    rw [hC2]
    exact Finset.single_le_sum (f := fun i => ‖(Ref.ev (o.r.getD i 0) : Ref N →L[ℝ] ℝ)‖) (fun i _ => ContinuousLinearMap.opNorm_nonneg _) (Finset.mem_range.2 (by omega))
  have hg1 : -1 < o.r.getD 1 0 := by rw [← ho.nodes.2.1]; exact ho.nodes.2.2.2 0 1 (by omega) hN
  have hg2 : o.r.getD 1 0 ≤ 1 := (hr.range (i := 1) hN).2
  have hK1 : C1 ≤ C1 * (1 + C2) := by nlinarith [mul_nonneg hC1.le hC20]
  refine ⟨C1 * (1 + C2), (o.r.getD 1 0 + 1) / 2, by positivity, by linarith, by linarith, fun xmin xmax p hx hp hpN hpo c T CFL M B g F n h dt hc hT hF0 hF1 hs hh hdt hF hb hg hn => ?_⟩
  subst hpN hpo
  obtain ⟨γ, hγ⟩ : ∃ γ, γ = (p.o.r.getD 1 0 + 1) / 2 := ⟨_, rfl⟩
  rw [← hγ] at hdt
  have hK : (0 : ℝ) < p.K := by exact_mod_cast hp.posK
  have hh0 : 0 < h := by rw [hh]; exact div_pos (by linarith) hK
  have hγ0 : 0 < γ := by rw [hγ]; linarith
  have hγ1 : γ ≤ 1 := by rw [hγ]; linarith
  have hdt0 : 0 < dt := by rw [hdt]; positivity
  have hcdt : c * dt = CFL * (γ * h) := by rw [hdt]; field_simp
  have hcdt' : c * dt / h ≤ CFL := by
    rw [hcdt, div_le_iff₀ hh0]
    nlinarith [mul_le_mul_of_nonneg_left hγ1 (mul_nonneg hF0.le hh0.le)]
  have hcdth : c * dt ≤ h := by
    rw [div_le_iff₀ hh0] at hcdt'
    nlinarith
  have hKh : xmin + h * p.K = xmax := by rw [hh]; field_simp; ring
  -- the step size of the program
  have hdx : CFL * (p.t.x.at' 1 0 - p.t.x.at' 0 0) / |c| = dt := by
    rw [grid_pos hp, grid_pos hp, ← hh, hp.ops.nodes.2.1, abs_of_pos hc, hdt, hγ]
    unfold pos
    ring
  -- the initial field
  obtain ⟨v, hv⟩ := Rep.exists hp (p.sample F) ⟨rfl, rfl⟩
  have hnT : (n : ℝ) * dt ≤ T + dt := by
    have := Nat.ceil_lt_add_one (div_nonneg hT hdt0.le)
    rw [← hn] at this
    have h2 : (n : ℝ) * dt ≤ (T / dt + 1) * dt := mul_le_mul_of_nonneg_right this.le hdt0.le
    rwa [add_mul, div_mul_cancel₀ _ hdt0.ne', one_mul] at h2
  have hcT : c * (T + dt) ≤ c * T + h := by rw [mul_add]; linarith
  have hcT0 : 0 ≤ c * T := mul_nonneg hc.le hT
  have hB0 : 0 ≤ B := le_trans (abs_nonneg _) (hb xmin ⟨by linarith, by linarith⟩).2
  have hM0 : 0 ≤ M := le_trans (abs_nonneg _) (hb xmin ⟨by linarith, by linarith⟩).1
  have hg0 : 0 ≤ g := le_trans (abs_nonneg _) (hg xmin ⟨by linarith, le_refl _⟩)
  obtain ⟨E, hE⟩ : ∃ E, E = advecBound (C1 * (1 + C2)) p.N p.K n h c T CFL M B g := ⟨_, rfl⟩
  rw [← hE]
  -- the error after `j` steps
  have herr : ∀ j ≤ n, ∀ u, Rep p u (wave p xmin xmax c dt v j) → ∀ i ≤ p.N, ∀ k < p.K, |u.at' i k - F (p.t.x.at' i k - c * (j * dt))| ≤ E := by
    intro j hj u hu i hi k hk
    have hjn : (j : ℝ) ≤ n := by exact_mod_cast hj
    have hj0 : (0 : ℝ) ≤ j := Nat.cast_nonneg j
    obtain ⟨w, w1, w2⟩ := hw p.K xmin h c (T + dt) M B g dt F hp.posK hh0 hc.le hdt0.le
      (le_trans (mul_le_mul_of_nonneg_left hcdt' hC1.le) (le_trans (mul_le_mul_of_nonneg_right hK1 hF0.le) hs)) hF
      (fun x hx' => hb x ⟨by linarith [hx'.1], by rw [← hKh]; exact hx'.2⟩) (fun x hx' => hg x ⟨by linarith [hx'.1], hx'.2⟩)
      (wave p xmin xmax c dt v) j (le_trans (mul_le_mul_of_nonneg_right hjn hdt0.le) hnT)
      (fun k i hi => by
        show (wave p xmin xmax c dt v 0 k).poly.eval (p.o.r.getD i 0) = F (pos xmin h k (p.o.r.getD i 0))
        rw [wave, ← hv.val i hi k, hh, ← grid_pos hp]
        rfl)
      (fun j _ => ⟨0, by rw [wave, ← hh]⟩)
    have w1' := w1 ⟨k, hk⟩ i hi
    have hpt : ‖wave p xmin xmax c dt v j ⟨k, hk⟩ - w ⟨k, hk⟩‖ ≤ ‖wave p xmin xmax c dt v j - w‖ := PiLp.norm_apply_le (wave p xmin xmax c dt v j - w) ⟨k, hk⟩
    have e1 := hev i hi (wave p xmin xmax c dt v j ⟨k, hk⟩ - w ⟨k, hk⟩)
    rw [map_sub, eval_sub, ← hu.val i hi ⟨k, hk⟩] at e1
    simp only at w1' e1
    rw [w1'] at e1
    rw [grid_pos hp, ← hh]
    refine le_trans e1 (le_trans (mul_le_mul_of_nonneg_left (le_trans hpt w2) hC20) ?_)
    rw [hE]
    exact advecBound_le p.N p.K hC1 hC20 hh0 hc.le hdt0.le hT hM0 hB0 hg0 hcdt' hjn hj0 (by
      have : (j : ℝ) * dt ≤ T + dt := le_trans (mul_le_mul_of_nonneg_right hjn hdt0.le) hnT
      nlinarith)
  have hE0 : 0 ≤ E := by rw [hE]; exact advecBound_nonneg (by positivity) hh0.le hc.le hT hF0.le hM0 hB0 hg0
  have hposx : ∀ i ≤ p.N, ∀ k < p.K, xmin ≤ p.t.x.at' i k ∧ p.t.x.at' i k ≤ xmax := grid_range hx hp
  refine ⟨hdt0, hdx, hE0, v, hv, fun j hj u hu i hi k hk => ⟨herr j hj u hu i hi k hk, ?_⟩⟩
  have hpx := hposx i hi k hk
  have hjT : (j : ℝ) * dt ≤ T + dt := le_trans (mul_le_mul_of_nonneg_right (by exact_mod_cast hj) hdt0.le) hnT
  have hj0 : (0 : ℝ) ≤ (j : ℝ) * dt := by positivity
  exact (hb (p.t.x.at' i k - c * ((j : ℝ) * dt)) ⟨by linarith [hpx.1, mul_le_mul_of_nonneg_left hjT hc.le], by linarith [hpx.2, mul_nonneg hc.le hj0]⟩).2

/-- **C122, one grid.** -/
theorem advecProgram_error {N : ℕ} (hN : 1 ≤ N) {o : Ops} (ho : OpsSpec N o) : ∃ C γ : ℝ, 0 < C ∧ 0 < γ ∧ γ ≤ 1 ∧ ∀ (xmin xmax : ℝ) (p : Prov), xmin < xmax → ProvSpec xmin xmax p → p.N = N → p.o = o →
    ∀ (c T CFL M B g : ℝ) (F : ℝ → ℝ) (n fuel : ℕ), 0 < c → 0 ≤ T → 0 < CFL → CFL ≤ 1 → C * CFL ≤ 1 → ContDiff ℝ (N + 1) F →
    (∀ x ∈ Icc (xmin - c * T - (xmax - xmin) / p.K) xmax, |iteratedDeriv (N + 1) F x| ≤ M ∧ |F x| ≤ B) → (∀ x ∈ Icc (xmin - c * T - (xmax - xmin) / p.K) xmin, |F x| ≤ g) →
    n = ⌈T / (CFL * (γ * ((xmax - xmin) / p.K)) / c)⌉₊ → n < fuel →
    (advecProgram p c T CFL F fuel = .throws ∧ 1e8 < advecBound C N p.K n ((xmax - xmin) / p.K) c T CFL M B g + B) ∨
    ∃ (rep : AdvecReport) (us : ℕ → DMat ℝ), advecProgram p c T CFL F fuel = .ok (some rep) ∧ rep.t = n * (CFL * (γ * ((xmax - xmin) / p.K)) / c) ∧
      rep.err ≤ advecBound C N p.K n ((xmax - xmin) / p.K) c T CFL M B g ∧
      rep.files = ("x.dat".toList, p.t.x) :: ((List.range n).filter fun j => j % 10 = 0).map (fun j : ℕ => (Output.generateFileName ".dat".toList "u".toList (j : ℤ), us j)) ∧
      ∀ j ≤ n, ∀ i ≤ N, ∀ k < p.K, |(us j).at' i k - F (p.t.x.at' i k - c * (j * (CFL * (γ * ((xmax - xmin) / p.K)) / c)))| ≤ advecBound C N p.K n ((xmax - xmin) / p.K) c T CFL M B g := by
  obtain ⟨C, γ, hC, hγ0, hγ1, H⟩ := wave_nodes hN ho
  refine ⟨C, γ, hC, hγ0, hγ1, fun xmin xmax p hx hp hpN hpo c T CFL M B g F n fuel hc hT hF0 hF1 hs hF hb hg hn hfuel => ?_⟩
  obtain ⟨h, hh⟩ : ∃ h, h = (xmax - xmin) / (p.K : ℝ) := ⟨_, rfl⟩
  obtain ⟨dt, hdt⟩ : ∃ dt, dt = CFL * (γ * h) / c := ⟨_, rfl⟩
  simp only [← hh, ← hdt] at hb hg hn ⊢
  obtain ⟨hdt0, hdx, hE0, v, hv, herr⟩ := H xmin xmax p hx hp hpN hpo c T CFL M B g F n h dt hc hT hF0 hF1 hs hh hdt hF hb hg hn
  subst hpN hpo
  obtain ⟨E, hE⟩ : ∃ E, E = advecBound C p.N p.K n h c T CFL M B g := ⟨_, rfl⟩
  rw [← hE] at hE0 herr ⊢
  have hzero : Rep p (zeroMat (p.N + 1) p.K) 0 := ⟨rfl, rfl, fun i hi k => by simp [zeroMat]⟩
  have hNK : ¬ (p.N = 0 ∨ p.K = 0) := by
    have := hp.posK
    omega
  have hrun := advecLoop_from hx hp hc.le hdt0 T v n 0 (by rw [zero_add, hn]) fuel ⟨p.sample F, zeroMat (p.N + 1) p.K, 0, 0, [("x.dat".toList, p.t.x)]⟩ hfuel hv ⟨0, hzero⟩ (by simp) rfl
  rw [← hn] at hrun
  rcases hrun with ⟨j, u, -, hj, hu, hbig, hthrow⟩ | ⟨s', us, h1, h2, h3, h4, h5⟩
  · left
    refine ⟨?_, ?_⟩
    · simp only [advecProgram, hNK, if_false, hdx, hthrow]
      rfl
    · by_contra hcon
      rw [not_lt] at hcon
      refine absurd hbig (not_lt.2 ((maxAbs_le_iff u _ (by norm_num)).2 fun i hi k hk => ?_))
      rw [hu.rows] at hi
      rw [hu.cols] at hk
      have hi' : i ≤ p.N := by omega
      obtain ⟨e, hBx⟩ := herr (j + 1) (by omega) u hu i hi' k hk
      have := abs_sub_abs_le_abs_sub (u.at' i k) (F (p.t.x.at' i k - c * (((j + 1 : ℕ) : ℝ) * dt)))
      linarith
  · right
    have hdone : advecProgram p c T CFL F fuel = .ok (some ⟨maxAbs (lin 1 s'.u (-1) (p.sample fun x => F (x - c * s'.t))), s'.t, s'.files⟩) := by
      simp only [advecProgram, hNK, if_false, hdx, h1, Out.bind_ok, Out.pure_eq, Option.map_some]
    refine ⟨_, us, hdone, h3, ?_, ?_, fun j hj i hi k hk => (herr j hj _ (h4 j) i hi k hk).1⟩
    · refine (maxAbs_le_iff _ _ hE0).2 fun i hi k hk => ?_
      have hi' : i < p.N + 1 := by rw [← h2.rows]; exact hi
      have hk' : k < p.K := by rw [← h2.cols]; exact hk
      have e := (herr n (le_refl _) _ h2 i (by omega) k hk').1
      have : (lin 1 s'.u (-1) (p.sample fun x => F (x - c * s'.t))).at' i k = s'.u.at' i k - F (p.t.x.at' i k - c * (n * dt)) := by
        rw [h3]
        simp only [lin, Prov.sample]
        ring
      rw [this]
      exact e
    · rw [h5, List.range_eq_range']
      rfl

/-- **C122, degenerate grids.** The step size is read off the second node of the first element: without one (order 0 or no elements) the program reads beyond the array. -/
theorem C122_degenerate (p : Prov) (c T CFL : ℝ) (F : ℝ → ℝ) (fuel : ℕ) (h : p.N = 0 ∨ p.K = 0) : advecProgram p c T CFL F fuel = .ub := by
  rw [advecProgram, if_pos h]

theorem buildProv_of {la : Lapack} (hla : la.Ok) {wrap : Bool} {eps tol : ℝ} (h0 : 0 < eps) (h1 : eps ≤ 0.1) (htol : 0 < tol) (hx : xmin < xmax) {N K : ℕ} (hN : 1 ≤ N) (hK : 0 < K)
    (hov : (K + 1) * (2 * K) ≤ intMax) {r0 : List ℝ} (hr0 : r0.length = N + 1) {Vinv0 : DMat ℝ} (hVi : Vinv0.rows = N + 1 ∧ Vinv0.cols = N + 1) {t0 : Tables ℝ} (ht0 : Sized t0 K) {o : Ops}
    (ho : buildOps la eps N r0 Vinv0 = .ok o) :
    ∃ p, buildProv la wrap eps tol xmin xmax N K r0 Vinv0 t0 = .ok p ∧ p.N = N ∧ p.K = K ∧ p.o = o ∧ ProvSpec xmin xmax p := by
  rcases buildProv_spec la hla wrap eps tol xmin xmax h0 h1 htol hx N K hN hK hov r0 hr0 Vinv0 hVi t0 ht0 with ⟨h, -⟩ | ⟨p, h, hpN, hpK, hs⟩
  · rw [ho] at h; cases h
  · refine ⟨p, h, hpN, hpK, ?_, hs⟩
    unfold buildProv at h
    rw [ho, Out.bind_ok] at h
    obtain ⟨t, -, h⟩ := Out.bind_eq_ok.1 h
    rw [Out.pure_eq] at h
    injection h with h
    rw [← h]

/-- **C122. The program advec1d converges to the travelling wave.** For every order `N ≥ 1` there are constants `C`, `γ` such that on every interval, for every number of elements, speed `c > 0`, final time, Courant number at most
`1 / C` and smooth profile `F`, the program makes `n = ⌈T / dt⌉` steps of `dt = CFL γ h / c`; all fields `u_j` it computes, and the error it prints, differ from the wave `F(x - c t)` at the nodes by at most `advecBound`.  It writes the grid and
the fields of every tenth step.  It gives up only if that bound exceeds 10⁸ minus the maximum of the profile. -/
theorem C122_error (la : Lapack) (hla : la.Ok) (eps : ℝ) (h0 : 0 < eps) (h1 : eps ≤ 0.1) (N : ℕ) (hN : 1 ≤ N) (r0 : List ℝ) (hr0 : r0.length = N + 1) (Vinv0 : DMat ℝ)
    (hVi : Vinv0.rows = N + 1 ∧ Vinv0.cols = N + 1) (o : Ops) (ho : buildOps la eps N r0 Vinv0 = .ok o) :
    ∃ C γ : ℝ, 0 < C ∧ 0 < γ ∧ γ ≤ 1 ∧ ∀ (wrap : Bool) (tol xmin xmax : ℝ) (K : ℕ) (t0 : Tables ℝ), 0 < tol → xmin < xmax → 0 < K → (K + 1) * (2 * K) ≤ intMax → Sized t0 K →
    ∀ (c T CFL M B g h dt : ℝ) (F : ℝ → ℝ) (n fuel : ℕ), 0 < c → 0 ≤ T → 0 < CFL → CFL ≤ 1 → C * CFL ≤ 1 → h = (xmax - xmin) / K → dt = CFL * (γ * h) / c →
    ContDiff ℝ (N + 1) F → (∀ x ∈ Icc (xmin - c * T - h) xmax, |iteratedDeriv (N + 1) F x| ≤ M ∧ |F x| ≤ B) → (∀ x ∈ Icc (xmin - c * T - h) xmin, |F x| ≤ g) →
    n = ⌈T / dt⌉₊ → n < fuel →
    (advecMain la wrap eps tol xmin xmax N K r0 Vinv0 t0 c T CFL F fuel = .throws ∧ 1e8 < advecBound C N K n h c T CFL M B g + B) ∨
    ∃ (rep : AdvecReport) (us : ℕ → DMat ℝ), advecMain la wrap eps tol xmin xmax N K r0 Vinv0 t0 c T CFL F fuel = .ok (some rep) ∧ rep.t = n * dt ∧
      rep.err ≤ advecBound C N K n h c T CFL M B g ∧
      rep.files = ("x.dat".toList, grid xmin xmax K o.r) :: ((List.range n).filter fun j => j % 10 = 0).map (fun j : ℕ => (Output.generateFileName ".dat".toList "u".toList (j : ℤ), us j)) ∧
      ∀ j ≤ n, ∀ i ≤ N, ∀ k < K, |(us j).at' i k - F ((grid xmin xmax K o.r).at' i k - c * (j * dt))| ≤ advecBound C N K n h c T CFL M B g := by
  have hs : OpsSpec N o := by
    rcases C47_operators la hla eps h0 h1 N hN r0 hr0 Vinv0 hVi with ⟨-, h⟩ | ⟨o', h, hs⟩
    · rw [ho] at h; cases h
    · rw [ho] at h
      injection h with h
      rw [h]; exact hs
  obtain ⟨C, γ, hC, hγ, hγ1, H⟩ := advecProgram_error hN hs
  refine ⟨C, γ, hC, hγ, hγ1, fun wrap tol xmin xmax K t0 htol hx hK hov ht0 c T CFL M B g h dt F n fuel hc hT hF0 hF1 hCF hh hdt hF hb hg hn hfuel => ?_⟩
  obtain ⟨p, hp, hpN, hpK, hpo, hps⟩ := buildProv_of (wrap := wrap) hla h0 h1 htol hx hN hK hov hr0 hVi ht0 ho
  have hm : advecMain la wrap eps tol xmin xmax N K r0 Vinv0 t0 c T CFL F fuel = advecProgram p c T CFL F fuel := by
    simp only [advecMain, hp, Out.bind_ok]
  have hgrid := hps.x
  rw [hpK, hpo] at hgrid
  rw [hm, ← hgrid]
  have := H xmin xmax p hx hps hpN hpo c T CFL M B g F n fuel hc hT hF0 hF1 hCF hF (by rw [hpK, ← hh]; exact hb) (by rw [hpK, ← hh]; exact hg) (by rw [hpK, ← hh, ← hdt]; exact hn) hfuel
  rw [hpK, ← hh, ← hdt] at this
  exact this

/-- The bound with a Courant number `κ`. -/
theorem advecBound_rate {C γ L c T M B κ : ℝ} {N K n : ℕ} (hC : 0 < C) (hγ : 0 < γ) (hL : 0 < L) (hc : 0 < c) (hT : 0 ≤ T) (hM : 0 ≤ M) (hB : 0 ≤ B) (hκ : 0 < κ) (hκ1 : κ ≤ 1) (hK : 0 < K)
    (h1 : κ ^ 4 * K ≤ 1) (h2 : K ≤ κ * 10 ^ 24) (hn : n = ⌈T / (κ * (γ * (L / K)) / c)⌉₊) :
    advecBound C N K n (L / K) c T κ M B 0 ≤
      C * Real.exp ((c * T / (γ * L) + 1) * (C ^ 5 + 1)) * ((c * T / (γ * L) + 1) * (C ^ 5 + 1) * B + (c * T + L) * M * L ^ N) * (κ ^ 4 * (K * √K) + √K / K ^ N + K * √K / (κ * 10 ^ 24)) := by
  have hK0 : (0 : ℝ) < K := by exact_mod_cast hK
  have hK1 : (1 : ℝ) ≤ K := by exact_mod_cast hK
  obtain ⟨A, hA⟩ : ∃ A, A = c * T / (γ * L) + 1 := ⟨_, rfl⟩
  have hA0 : 0 < A := by rw [hA]; positivity
  have hnA : (n : ℝ) ≤ A * (K / κ) := by
    have := Nat.ceil_lt_add_one (a := T / (κ * (γ * (L / K)) / c)) (by positivity)
    rw [← hn] at this
    have e : T / (κ * (γ * (L / K)) / c) = c * T / (γ * L) * (K / κ) := by field_simp
    have hKκ : 1 ≤ K / κ := by rw [le_div_iff₀ hκ]; linarith
    rw [hA, add_mul, one_mul]
    linarith
  have hδ : (n : ℝ) * ((C * κ) ^ 5 + 1 / 10 ^ 24) ≤ A * (C ^ 5 * (κ ^ 4 * K) + K / (κ * 10 ^ 24)) := by
    refine le_trans (mul_le_mul_of_nonneg_right hnA (by positivity)) (le_of_eq ?_)
    field_simp
  have hδ1 : (n : ℝ) * ((C * κ) ^ 5 + 1 / 10 ^ 24) ≤ A * (C ^ 5 + 1) := by
    refine le_trans hδ (mul_le_mul_of_nonneg_left (add_le_add ?_ ?_) hA0.le)
    · exact mul_le_of_le_one_right (by positivity) h1
    · rw [div_le_one (by positivity)]; exact h2
  unfold advecBound
  rw [← hA]
  have hC5 : 0 < C ^ 5 := by positivity
  have hs0 : 0 ≤ √(K : ℝ) := Real.sqrt_nonneg _
  have ha : 0 ≤ κ ^ 4 * (K * √K) := by positivity
  have hb : 0 ≤ √(K : ℝ) / K ^ N := by positivity
  have hd : 0 ≤ K * √K / (κ * 10 ^ 24) := by positivity
  have hinner : (n : ℝ) * ((C * κ) ^ 5 + 1 / 10 ^ 24) * √K * B + (c * T + L / K) * √K * M * (L / K) ^ N + (c * T + L / K) * 0 / (L / K) ≤
      (A * (C ^ 5 + 1) * B + (c * T + L) * M * L ^ N) * (κ ^ 4 * (K * √K) + √K / K ^ N + K * √K / (κ * 10 ^ 24)) := by
    have e1 : (n : ℝ) * ((C * κ) ^ 5 + 1 / 10 ^ 24) * √K * B ≤ A * (C ^ 5 + 1) * B * (κ ^ 4 * (K * √K) + K * √K / (κ * 10 ^ 24)) := by
      calc _ ≤ A * (C ^ 5 * (κ ^ 4 * K) + K / (κ * 10 ^ 24)) * √K * B := mul_le_mul_of_nonneg_right (mul_le_mul_of_nonneg_right hδ hs0) hB
        _ = A * B * (C ^ 5 * (κ ^ 4 * (K * √K)) + K * √K / (κ * 10 ^ 24)) := by ring
        _ ≤ A * B * ((C ^ 5 + 1) * (κ ^ 4 * (K * √K)) + (C ^ 5 + 1) * (K * √K / (κ * 10 ^ 24))) := by
            refine mul_le_mul_of_nonneg_left (add_le_add (mul_le_mul_of_nonneg_right (by linarith) ha) ?_) (by positivity)
            exact le_mul_of_one_le_left hd (by linarith)
        _ = _ := by ring
    have e2 : (c * T + L / K) * √K * M * (L / K) ^ N ≤ (c * T + L) * M * L ^ N * (√K / K ^ N) := by
      rw [div_pow]
      have : L / K ≤ L := div_le_self hL.le hK1
      calc _ = (c * T + L / K) * (M * L ^ N * (√K / K ^ N)) := by ring
        _ ≤ (c * T + L) * (M * L ^ N * (√K / K ^ N)) := mul_le_mul_of_nonneg_right (by linarith) (by positivity)
        _ = _ := by ring
    have x1 : 0 ≤ A * (C ^ 5 + 1) * B := by positivity
    have x2 : 0 ≤ (c * T + L) * M * L ^ N := by positivity
    rw [mul_zero, zero_div, add_zero]
    have y1 := mul_nonneg x1 hb
    have y2 := mul_nonneg x2 (add_nonneg ha hd)
    linarith
  calc _ ≤ C * Real.exp (A * (C ^ 5 + 1)) * ((A * (C ^ 5 + 1) * B + (c * T + L) * M * L ^ N) * (κ ^ 4 * (K * √K) + √K / K ^ N + K * √K / (κ * 10 ^ 24))) := by
        refine mul_le_mul (mul_le_mul_of_nonneg_left (Real.exp_le_exp.2 hδ1) hC.le) hinner (by positivity) (by positivity)
    _ = _ := by ring

/-- **C122, rate.** For a profile that vanishes at and beyond the left end, on a fixed interval up to a fixed time, the printed error is at most a constant times `κ⁴ K^(3/2) + K^(1/2 - N)` (`κ` the Courant number, `K` the number of
elements), apart from the effect of the rounded coefficients: fourth order in time, `N - 1/2` in space.  The constants do not depend on `K` and `κ`. -/
theorem C122_rate (la : Lapack) (hla : la.Ok) (eps : ℝ) (h0 : 0 < eps) (h1 : eps ≤ 0.1) (N : ℕ) (hN : 1 ≤ N) (r0 : List ℝ) (hr0 : r0.length = N + 1) (Vinv0 : DMat ℝ)
    (hVi : Vinv0.rows = N + 1 ∧ Vinv0.cols = N + 1) (o : Ops) (ho : buildOps la eps N r0 Vinv0 = .ok o) :
    ∃ C : ℝ, 0 < C ∧ ∀ (xmin xmax c T : ℝ) (F : ℝ → ℝ), xmin < xmax → 0 < c → 0 ≤ T → ContDiff ℝ (N + 1) F → (∀ x ≤ xmin, F x = 0) →
    ∃ A B : ℝ, ∀ (wrap : Bool) (tol κ : ℝ) (K : ℕ) (t0 : Tables ℝ), 0 < tol → 0 < K → (K + 1) * (2 * K) ≤ intMax → Sized t0 K →
    0 < κ → κ ≤ 1 → C * κ ≤ 1 → κ ^ 4 * K ≤ 1 → K ≤ κ * 10 ^ 24 →
    ∃ n : ℕ, ∀ fuel, n < fuel →
    (advecMain la wrap eps tol xmin xmax N K r0 Vinv0 t0 c T κ F fuel = .throws ∧ 1e8 < A * (κ ^ 4 * (K * √K) + √K / K ^ N + K * √K / (κ * 10 ^ 24)) + B) ∨
    ∃ rep : AdvecReport, advecMain la wrap eps tol xmin xmax N K r0 Vinv0 t0 c T κ F fuel = .ok (some rep) ∧ T ≤ rep.t ∧
      rep.err ≤ A * (κ ^ 4 * (K * √K) + √K / K ^ N + K * √K / (κ * 10 ^ 24)) := by
  obtain ⟨C, γ, hC, hγ, hγ1, H⟩ := C122_error la hla eps h0 h1 N hN r0 hr0 Vinv0 hVi o ho
  refine ⟨C, hC, fun xmin xmax c T F hx hc hT hF hz => ?_⟩
  obtain ⟨M, hM⟩ := (isCompact_Icc (a := xmin - c * T - (xmax - xmin)) (b := xmax)).exists_bound_of_continuousOn (hF.continuous_iteratedDeriv (N + 1) (by exact_mod_cast le_refl _)).continuousOn
  obtain ⟨B, hB⟩ := (isCompact_Icc (a := xmin - c * T - (xmax - xmin)) (b := xmax)).exists_bound_of_continuousOn hF.continuous.continuousOn
  have hcT : 0 ≤ c * T := by positivity
  have hin : xmax ∈ Icc (xmin - c * T - (xmax - xmin)) xmax := ⟨by linarith, le_refl _⟩
  have hM0 : 0 ≤ M := le_trans (norm_nonneg _) (hM _ hin)
  have hB0 : 0 ≤ B := le_trans (norm_nonneg _) (hB _ hin)
  refine ⟨C * Real.exp ((c * T / (γ * (xmax - xmin)) + 1) * (C ^ 5 + 1)) * ((c * T / (γ * (xmax - xmin)) + 1) * (C ^ 5 + 1) * B + (c * T + (xmax - xmin)) * M * (xmax - xmin) ^ N), B,
    fun wrap tol κ K t0 htol hK hov ht0 hκ hκ1 hCκ hK1 hK2 => ⟨⌈T / (κ * (γ * ((xmax - xmin) / K)) / c)⌉₊, fun fuel hfuel => ?_⟩⟩
  · have hK0 : (0 : ℝ) < K := by exact_mod_cast hK
    have hKone : (1 : ℝ) ≤ K := by exact_mod_cast hK
    have hL : 0 < xmax - xmin := by linarith
    have hle : (xmax - xmin) / K ≤ xmax - xmin := div_le_self hL.le hKone
    have hbound := advecBound_rate (N := N) hC hγ hL hc hT hM0 hB0 hκ hκ1 hK hK1 hK2 rfl
    have hdt : 0 < κ * (γ * ((xmax - xmin) / K)) / c := by positivity
    rcases H wrap tol xmin xmax K t0 htol hx hK hov ht0 c T κ M B 0 _ _ F _ fuel hc hT hκ hκ1 hCκ rfl rfl hF
      (fun x hx' => ⟨hM x ⟨by linarith [hx'.1], hx'.2⟩, hB x ⟨by linarith [hx'.1], hx'.2⟩⟩) (fun x hx' => by rw [hz x hx'.2, abs_zero]) rfl hfuel with ⟨e1, e2⟩ | ⟨rep, us, e1, e2, e3, -⟩
    · exact .inl ⟨e1, lt_of_lt_of_le e2 (by gcongr)⟩
    · refine .inr ⟨rep, e1, ?_, le_trans e3 hbound⟩
      rw [e2, ← div_le_iff₀ hdt]
      exact Nat.le_ceil _

/-- The hypotheses of both theorems can be met: order, interval, elements, speed and time of the program, with a smooth profile that is zero up to the left end; for a small amplitude and Courant number the program returns. -/
example : ∃ (t0 : Tables ℝ) (a κ : ℝ) (n : ℕ) (rep : AdvecReport), 0 < a ∧ 0 < κ ∧
    advecMain exactLapack false 0.01 1e-5 (-1) 4 4 30 (zeros 5) (zeroMat 5 5) t0 0.1 20 κ (fun x => a * Real.smoothTransition (x + 1)) n = .ok (some rep) := by
  obtain ⟨o, ho, -⟩ := buildOps_returns 0.01 (by norm_num) (by norm_num) 4 (by norm_num) (zeros 5) (by simp [zeros]) (zeroMat 5 5) ⟨rfl, rfl⟩
  obtain ⟨C, γ, hC, hγ, -, H⟩ := C122_error exactLapack exactLapack_ok 0.01 (by norm_num) (by norm_num) 4 (by norm_num) (zeros 5) (by simp [zeros]) (zeroMat 5 5) ⟨rfl, rfl⟩ o ho
  set t0 : Tables ℝ := ⟨zeroMat 0 0, List.replicate (2 * 30) 0, List.replicate (2 * 30) 0, List.replicate (2 * 30) 0, zeros (2 * 30), [], [], zeros (2 * 30)⟩
  have ht0 : Sized t0 30 := by constructor <;> simp [t0, zeros]
  have hsm : ContDiff ℝ (4 + 1) fun x => Real.smoothTransition (x + 1) := Real.smoothTransition.contDiff.comp (contDiff_id.add contDiff_const)
  obtain ⟨M, hM⟩ := (isCompact_Icc (a := (-1 : ℝ) - 0.1 * 20 - (4 - -1) / 30) (b := 4)).exists_bound_of_continuousOn (hsm.continuous_iteratedDeriv (4 + 1) (by norm_num)).continuousOn
  have hM0 : 0 ≤ M := le_trans (norm_nonneg _) (hM 0 ⟨by norm_num, by norm_num⟩)
  obtain ⟨κ, hκ⟩ : ∃ κ, κ = 1 / (C + 1) := ⟨_, rfl⟩
  have hκ0 : 0 < κ := by rw [hκ]; positivity
  have hκ1 : κ ≤ 1 := by rw [hκ, div_le_one (by positivity)]; linarith
  have hCκ : C * κ ≤ 1 := by rw [hκ, mul_one_div, div_le_one (by positivity)]; linarith
  obtain ⟨n, hn⟩ : ∃ n, n = ⌈20 / (κ * (γ * ((4 - -1) / (30 : ℕ))) / 0.1)⌉₊ := ⟨_, rfl⟩
  have hlin : ∀ a : ℝ, advecBound C 4 30 n ((4 - -1) / (30 : ℕ)) 0.1 20 κ (a * M) a 0 = a * advecBound C 4 30 n ((4 - -1) / (30 : ℕ)) 0.1 20 κ M 1 0 := fun a => by unfold advecBound; ring
  obtain ⟨E, hE⟩ : ∃ E, E = advecBound C 4 30 n ((4 - -1) / (30 : ℕ)) 0.1 20 κ M 1 0 := ⟨_, rfl⟩
  have hE0 : 0 ≤ E := by rw [hE]; exact advecBound_nonneg hC.le (by norm_num) (by norm_num) (by norm_num) hκ0.le hM0 (by norm_num) (le_refl _)
  obtain ⟨a, ha⟩ : ∃ a, a = 1 / (E + 1) := ⟨_, rfl⟩
  have ha0 : 0 < a := by rw [ha]; positivity
  rcases H false 1e-5 (-1) 4 30 t0 (by norm_num) (by norm_num) (by norm_num) (by norm_num [intMax]) ht0 0.1 20 κ (a * M) a 0 _ _ (fun x => a * Real.smoothTransition (x + 1)) n (n + 1) (by norm_num) (by norm_num) hκ0 hκ1 hCκ rfl rfl
    (contDiff_const.mul hsm)
    (fun x hx => ⟨by
      rw [iteratedDeriv_const_mul_field, abs_mul, abs_of_pos ha0]
      exact mul_le_mul_of_nonneg_left (hM x ⟨by have := hx.1; norm_num at this ⊢; linarith, hx.2⟩) ha0.le, by
      rw [abs_mul, abs_of_pos ha0, abs_of_nonneg (Real.smoothTransition.nonneg _)]
      exact mul_le_of_le_one_right ha0.le (Real.smoothTransition.le_one _)⟩)
    (fun x hx => by rw [Real.smoothTransition.zero_of_nonpos (by linarith [hx.2]), mul_zero, abs_zero]) hn (by omega) with ⟨-, hb⟩ | ⟨rep, us, h, -⟩
  · exfalso
    rw [hlin, ← hE, ha] at hb
    have : 1 / (E + 1) * E + 1 / (E + 1) = 1 := by field_simp
    norm_num at this hb
    linarith
  · exact ⟨t0, a, κ, n + 1, rep, ha0, hκ0, h⟩

end Blitzdg.Drivers
