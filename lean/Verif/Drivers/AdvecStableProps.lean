import Verif.Time.TwoStep
import Verif.Drivers.AdvecRunProps
import Verif.Drivers.Inverse
import Verif.Drivers.PyAdvecProps

/-! Property C157: the advection programs are stable for every initial profile, smooth or not. -/

namespace Blitzdg.Drivers

open Polynomial Set
open Blitzdg.Sparse (DMat rowMajor)
open Blitzdg.Nodes1D
open scoped RealInnerProductSpace

variable {xmin xmax : ℝ} {p : Prov}

/-- Specification: `e` is the energy of the field `u`, given by its values at the nodes `r` of `K` elements of width `h`: the integral of the square of the piecewise polynomial of degree `N` with these values. -/
def HasEnergy (N K : ℕ) (r : List ℝ) (h : ℝ) (u : DMat ℝ) (e : ℝ) : Prop :=
  u.rows = N + 1 ∧ u.cols = K ∧ ∃ P : ℕ → ℝ[X], (∀ k < K, (P k).natDegree ≤ N) ∧ (∀ i ≤ N, ∀ k < K, u.at' i k = (P k).eval (r.getD i 0)) ∧
    e = ∑ k ∈ Finset.range K, h / 2 * ∫ x in (-1 : ℝ)..1, (P k).eval x ^ 2

theorem Rep.energy {u : DMat ℝ} {v : Pieces p.N p.K} (hu : Rep p u v) (h : ℝ) : HasEnergy p.N p.K p.o.r h u (h / 2 * ‖v‖ ^ 2) := by
  refine ⟨hu.rows, hu.cols, fun k => if hk : k < p.K then (v ⟨k, hk⟩).poly else 0, fun k hk => ?_, fun i hi k hk => ?_, ?_⟩
  · beta_reduce; rw [dif_pos hk]; exact Ref.deg _
  · beta_reduce; rw [dif_pos hk]; exact hu.val i hi ⟨k, hk⟩
  · rw [← Finset.mul_sum, PiLp.norm_sq_eq_of_L2, ← Fin.sum_univ_eq_sum_range (fun k => ∫ x in (-1 : ℝ)..1, (if hk : k < p.K then (v ⟨k, hk⟩).poly else 0).eval x ^ 2)]
    congr 1
    refine Finset.sum_congr rfl fun k _ => ?_
    rw [← real_inner_self_eq_norm_sq, Ref.inner_def]
    refine intervalIntegral.integral_congr fun x _ => ?_
    simp [sq]

/-- The energy of a field is determined by the field, if the nodes are. -/
theorem HasEnergy.unique {N K : ℕ} {r : List ℝ} (hr : Nodes N fun i => r.getD i 0) {h : ℝ} {u : DMat ℝ} {e e' : ℝ} (h1 : HasEnergy N K r h u e) (h2 : HasEnergy N K r h u e') : e = e' := by
  obtain ⟨-, -, P, p1, p2, rfl⟩ := h1
  obtain ⟨-, -, Q, q1, q2, rfl⟩ := h2
  refine Finset.sum_congr rfl fun k hk => ?_
  have hk := Finset.mem_range.1 hk
  have e := hr.unique (P := Ref.mk (P k) (p1 k hk)) (Q := Ref.mk (Q k) (q1 k hk)) fun i hi => by
    simp only [Ref.poly_mk]
    rw [← p2 i hi k hk, ← q2 i hi k hk]
  have e' := congrArg (fun X : Ref N => X.poly) e
  simp only [Ref.poly_mk] at e'
  rw [e']

/-- The steps of the advection programs are stable. -/
theorem wave_stable (hN : 1 ≤ p.N) (hx : xmin < xmax) (hp : ProvSpec xmin xmax p) {c CFL h dt : ℝ} (hc : 0 < c) (hF0 : 0 < CFL) (hh : h = (xmax - xmin) / p.K) (hdt : dt = CFL * (h * (p.o.r.getD 1 0 + 1) / 2) / c)
    (hs : c * dt / h ≤ 2 / (15 * (p.N + 1) ^ 2)) (F : ℝ → ℝ) :
    0 < h ∧ 0 < dt ∧ CFL * (p.t.x.at' 1 0 - p.t.x.at' 0 0) / |c| = dt ∧
    ∃ v, Rep p (p.sample F) v ∧ ∀ j, h / 2 * ‖wave p xmin xmax c dt v j‖ ^ 2 ≤ 9 / 4 * (1 + 1 / 10 ^ 24) ^ (2 * j) * (h / 2 * ‖v‖ ^ 2) ∧
      ∀ u, Rep p u (wave p xmin xmax c dt v j) → ∀ i ≤ p.N, ∀ k < p.K, h * u.at' i k ^ 2 ≤ 9 / 4 * ((p.N + 1) * (p.N + 2)) ^ 2 * (1 + 1 / 10 ^ 24) ^ (2 * j) * (h / 2 * ‖v‖ ^ 2) := by
  have hK : (0 : ℝ) < p.K := by exact_mod_cast hp.posK
  have hh0 : 0 < h := by rw [hh]; exact div_pos (by linarith) hK
  have hg1 : -1 < p.o.r.getD 1 0 := by rw [← hp.ops.nodes.2.1]; exact hp.ops.nodes.2.2.2 0 1 (by omega) hN
  have hdt0 : 0 < dt := by
    have : 0 < p.o.r.getD 1 0 + 1 := by linarith
    rw [hdt]; positivity
  have hdx : CFL * (p.t.x.at' 1 0 - p.t.x.at' 0 0) / |c| = dt := by
    rw [grid_pos hp, grid_pos hp, ← hh, hp.ops.nodes.2.1, abs_of_pos hc, hdt]
    unfold pos
    ring
  obtain ⟨v, hv⟩ := Rep.exists hp (p.sample F) ⟨rfl, rfl⟩
  have hop : dt * ‖advOp p.N p.K (c / ((xmax - xmin) / p.K / 2))‖ ≤ 2 / 5 := by
    rw [← hh]
    have e1 := mul_le_mul_of_nonneg_left (advOp_norm_le p.N p.K (s := c / (h / 2)) (by positivity)) hdt0.le
    have e2 : dt * (3 / 2 * ((p.N : ℝ) + 1) ^ 2 * (c / (h / 2))) = 3 * (p.N + 1) ^ 2 * (c * dt / h) := by field_simp
    have e3 := mul_le_mul_of_nonneg_left hs (show (0 : ℝ) ≤ 3 * (p.N + 1) ^ 2 by positivity)
    have e4 : 3 * ((p.N : ℝ) + 1) ^ 2 * (2 / (15 * (p.N + 1) ^ 2)) = 2 / 5 := by field_simp; norm_num
    linarith
  refine ⟨hh0, hdt0, hdx, v, hv, fun j => ?_⟩
  have hst := Time.scheme_stable (advOp_dissipative (N := p.N) (K := p.K) (s := c / ((xmax - xmin) / p.K / 2)) (by rw [← hh]; positivity)) hdt0.le hop (wave p xmin xmax c dt v) j fun k _ => ⟨0, by rw [wave]⟩
  rw [show wave p xmin xmax c dt v 0 = v from rfl] at hst
  have hsq : ‖wave p xmin xmax c dt v j‖ ^ 2 ≤ 9 / 4 * (1 + 1 / 10 ^ 24) ^ (2 * j) * ‖v‖ ^ 2 :=
    le_trans (pow_le_pow_left₀ (norm_nonneg _) hst 2) (le_of_eq (by ring))
  refine ⟨?_, fun u hu i hi k hk => ?_⟩
  · calc _ ≤ h / 2 * (9 / 4 * (1 + 1 / 10 ^ 24) ^ (2 * j) * ‖v‖ ^ 2) := mul_le_mul_of_nonneg_left hsq (by positivity)
      _ = _ := by ring
  · rw [hu.val i hi ⟨k, hk⟩]
    have hr := hp.nodes.range hi
    have e1 := pow_le_pow_left₀ (abs_nonneg _) ((wave p xmin xmax c dt v j ⟨k, hk⟩).sup_le hr.1 hr.2) 2
    rw [sq_abs, mul_pow, div_pow, Real.sq_sqrt (by norm_num)] at e1
    have e2 : ‖wave p xmin xmax c dt v j ⟨k, hk⟩‖ ^ 2 ≤ ‖wave p xmin xmax c dt v j‖ ^ 2 := pow_le_pow_left₀ (norm_nonneg _) (PiLp.norm_apply_le _ _) 2
    calc _ ≤ h * ((((p.N : ℝ) + 1) * (p.N + 2)) ^ 2 / 2 * (9 / 4 * (1 + 1 / 10 ^ 24) ^ (2 * j) * ‖v‖ ^ 2)) :=
          mul_le_mul_of_nonneg_left (le_trans e1 (mul_le_mul_of_nonneg_left (le_trans e2 hsq) (by positivity))) hh0.le
      _ = _ := by ring

/-- A field with a large value has a large energy. -/
theorem give_up {u : DMat ℝ} (hr : u.rows = p.N + 1) (hk : u.cols = p.K) {h G : ℝ} (hh : 0 < h) (hb : ∀ i ≤ p.N, ∀ k < p.K, h * u.at' i k ^ 2 ≤ G) (hbig : 1e8 < maxAbs u) : 1e16 * h < G := by
  by_contra hcon
  refine absurd hbig (not_lt.2 ((maxAbs_le_iff u _ (by norm_num)).2 fun i hi k hk' => ?_))
  rw [hr] at hi
  rw [hk] at hk'
  refine abs_le_of_sq_le_sq ?_ (by norm_num)
  have := hb i (by omega) k hk'
  have h2 : h * u.at' i k ^ 2 ≤ h * (1e8 : ℝ) ^ 2 := by
    norm_num at hcon this ⊢
    linarith
  exact le_of_mul_le_mul_left h2 hh

/-- **C157. The program advec1d is stable.** For every order `N ≥ 1`, interval, number of elements, speed `c > 0` and final time, every step size with `c dt / h ≤ 2 / (15 (N + 1)²)` (`dt` is the Courant number times the distance of the first
two nodes over `c`) and **every** profile `F` — steps, spikes, noise: the program makes `n = ⌈T / dt⌉` steps, and the energy of the field after step `j` is at most `(9/4)(1 + 10⁻²⁴)^(2j)` times the energy `E0` of the initial field, which holds
the values of `F` at the nodes.  It gives up only if `E0` is of the order of 10¹⁶ times the width of an element. -/
theorem C157_stable (la : Lapack) (hla : la.Ok) (eps : ℝ) (h0 : 0 < eps) (h1 : eps ≤ 0.1) (N : ℕ) (hN : 1 ≤ N) (r0 : List ℝ) (hr0 : r0.length = N + 1) (Vinv0 : DMat ℝ)
    (hVi : Vinv0.rows = N + 1 ∧ Vinv0.cols = N + 1) (o : Ops) (ho : buildOps la eps N r0 Vinv0 = .ok o)
    (wrap : Bool) (tol xmin xmax : ℝ) (htol : 0 < tol) (hx : xmin < xmax) (K : ℕ) (hK : 0 < K) (hov : (K + 1) * (2 * K) ≤ intMax) (t0 : Tables ℝ) (ht0 : Sized t0 K)
    (c T CFL h dt : ℝ) (hc : 0 < c) (hF0 : 0 < CFL) (hh : h = (xmax - xmin) / K) (hdt : dt = CFL * (h * (o.r.getD 1 0 + 1) / 2) / c) (hs : c * dt / h ≤ 2 / (15 * (N + 1) ^ 2))
    (F : ℝ → ℝ) (u0 : DMat ℝ) (hu0 : ∀ i ≤ N, ∀ k < K, u0.at' i k = F ((grid xmin xmax K o.r).at' i k)) (E0 : ℝ) (hE0 : HasEnergy N K o.r h u0 E0) (n fuel : ℕ) (hn : n = ⌈T / dt⌉₊) (hfuel : n < fuel) :
    (advecMain la wrap eps tol xmin xmax N K r0 Vinv0 t0 c T CFL F fuel = .throws ∧ 1e16 * h < 9 / 4 * ((N + 1) * (N + 2)) ^ 2 * (1 + 1 / 10 ^ 24) ^ (2 * n) * E0) ∨
    ∃ (rep : AdvecReport) (us : ℕ → DMat ℝ), advecMain la wrap eps tol xmin xmax N K r0 Vinv0 t0 c T CFL F fuel = .ok (some rep) ∧ rep.t = n * dt ∧
      rep.files = ("x.dat".toList, grid xmin xmax K o.r) :: ((List.range n).filter fun j => j % 10 = 0).map (fun j : ℕ => (Output.generateFileName ".dat".toList "u".toList (j : ℤ), us j)) ∧
      (∀ i ≤ N, ∀ k < K, (us 0).at' i k = F ((grid xmin xmax K o.r).at' i k)) ∧
      ∀ j, ∃ E, HasEnergy N K o.r h (us j) E ∧ E ≤ 9 / 4 * (1 + 1 / 10 ^ 24) ^ (2 * j) * E0 := by
  obtain ⟨p, hp, hpN, hpK, hpo, hps⟩ := buildProv_of (wrap := wrap) hla h0 h1 htol hx hN hK hov hr0 hVi ht0 ho
  have hm : advecMain la wrap eps tol xmin xmax N K r0 Vinv0 t0 c T CFL F fuel = advecProgram p c T CFL F fuel := by
    simp only [advecMain, hp, Out.bind_ok]
  have hgrid := hps.x
  rw [hpK, hpo] at hgrid
  rw [← hgrid] at hu0
  rw [hm, ← hgrid]
  subst hpN hpK hpo
  obtain ⟨hh0, hdt0, hdx, v, hv, hst⟩ := wave_stable hN hx hps hc hF0 hh hdt hs F
  have hE : E0 = h / 2 * ‖v‖ ^ 2 := by
    have hr : Rep p u0 v := ⟨hE0.1, hE0.2.1, fun i hi k => by rw [hu0 i hi k k.2, ← hv.val i hi k]; rfl⟩
    exact hE0.unique hps.nodes (hr.energy h)
  rw [← hE] at hst
  have hE00 : 0 ≤ E0 := by rw [hE]; positivity
  have hzero : Rep p (zeroMat (p.N + 1) p.K) 0 := ⟨rfl, rfl, fun i hi k => by simp [zeroMat]⟩
  have hNK : ¬ (p.N = 0 ∨ p.K = 0) := by omega
  have hrun := advecLoop_from hx hps hc.le hdt0 T v n 0 (by rw [zero_add, hn]) fuel ⟨p.sample F, zeroMat (p.N + 1) p.K, 0, 0, [("x.dat".toList, p.t.x)]⟩ hfuel hv ⟨0, hzero⟩ (by simp) rfl
  rw [← hn] at hrun
  rcases hrun with ⟨j, u, -, hj, hu, hbig, hthrow⟩ | ⟨s', us, a1, a2, a3, a4, a5⟩
  · left
    refine ⟨?_, ?_⟩
    · simp only [advecProgram, hNK, if_false, hdx, hthrow]
      rfl
    · refine lt_of_lt_of_le (give_up hu.rows hu.cols hh0 ((hst (j + 1)).2 u hu) hbig) ?_
      have : (1 + 1 / 10 ^ 24 : ℝ) ^ (2 * (j + 1)) ≤ (1 + 1 / 10 ^ 24) ^ (2 * n) := pow_le_pow_right₀ (by norm_num) (by omega)
      gcongr
  · right
    have hdone : advecProgram p c T CFL F fuel = .ok (some ⟨maxAbs (lin 1 s'.u (-1) (p.sample fun x => F (x - c * s'.t))), s'.t, s'.files⟩) := by
      simp only [advecProgram, hNK, if_false, hdx, a1, Out.bind_ok, Out.pure_eq, Option.map_some]
    refine ⟨_, us, hdone, a3, ?_, fun i hi k hk => ?_, fun j => ⟨_, (a4 j).energy h, (hst j).1⟩⟩
    · rw [a5, List.range_eq_range']
      rfl
    · rw [(a4 0).val i hi ⟨k, hk⟩]
      exact (hv.val i hi ⟨k, hk⟩).symm

/-- **C157, the script advec1d.py.** The same for the script: the energy of every plotted field and of the last one is at most `(9/4)(1 + 10⁻²⁴)^(2j)` times that of the initial field. -/
theorem C157_script (la : Lapack) (hla : la.Ok) (eps : ℝ) (h0 : 0 < eps) (h1 : eps ≤ 0.1) (N : ℕ) (hN : 1 ≤ N) (r0 : List ℝ) (hr0 : r0.length = N + 1) (Vinv0 : DMat ℝ)
    (hVi : Vinv0.rows = N + 1 ∧ Vinv0.cols = N + 1) (o : Ops) (ho : buildOps la eps N r0 Vinv0 = .ok o)
    (wrap : Bool) (tol xmin xmax : ℝ) (htol : 0 < tol) (hx : xmin < xmax) (K : ℕ) (hK : 0 < K) (hov : (K + 1) * (2 * K) ≤ intMax) (t0 : Tables ℝ) (ht0 : Sized t0 K)
    (c T CFL h dt : ℝ) (hc : 0 < c) (hF0 : 0 < CFL) (hh : h = (xmax - xmin) / K) (hdt : dt = CFL * (h * (o.r.getD 1 0 + 1) / 2) / c) (hs : c * dt / h ≤ 2 / (15 * (N + 1) ^ 2))
    (F : ℝ → ℝ) (u0 : DMat ℝ) (hu0 : ∀ i ≤ N, ∀ k < K, u0.at' i k = F ((grid xmin xmax K o.r).at' i k)) (E0 : ℝ) (hE0 : HasEnergy N K o.r h u0 E0) (n fuel : ℕ) (hn : n = ⌈T / dt⌉₊) (hfuel : n < fuel) :
    (pyAdvecMain la wrap eps tol xmin xmax N K r0 Vinv0 t0 c T CFL F fuel = .throws ∧ 1e16 * h < 9 / 4 * ((N + 1) * (N + 2)) ^ 2 * (1 + 1 / 10 ^ 24) ^ (2 * n) * E0) ∨
    ∃ (s : PyAdvecState) (us : ℕ → DMat ℝ), pyAdvecMain la wrap eps tol xmin xmax N K r0 Vinv0 t0 c T CFL F fuel = .ok (some s) ∧ s.t = n * dt ∧ s.plots = (List.range n).map (fun j => us (j + 1)) ∧
      (∃ E, HasEnergy N K o.r h s.u E ∧ E ≤ 9 / 4 * (1 + 1 / 10 ^ 24) ^ (2 * n) * E0) ∧
      ∀ j, 1 ≤ j → j ≤ n → ∃ E, HasEnergy N K o.r h (us j) E ∧ E ≤ 9 / 4 * (1 + 1 / 10 ^ 24) ^ (2 * j) * E0 := by
  obtain ⟨p, hp, hpN, hpK, hpo, hps⟩ := buildProv_of (wrap := wrap) hla h0 h1 htol hx hN hK hov hr0 hVi ht0 ho
  have hm : pyAdvecMain la wrap eps tol xmin xmax N K r0 Vinv0 t0 c T CFL F fuel = pyAdvecProgram p c T CFL F fuel := by
    simp only [pyAdvecMain, hp, Out.bind_ok]
  have hgrid := hps.x
  rw [hpK, hpo] at hgrid
  rw [← hgrid] at hu0
  rw [hm]
  subst hpN hpK hpo
  obtain ⟨hh0, hdt0, hdx, v, hv, hst⟩ := wave_stable hN hx hps hc hF0 hh hdt hs F
  have hE : E0 = h / 2 * ‖v‖ ^ 2 := by
    have hr : Rep p u0 v := ⟨hE0.1, hE0.2.1, fun i hi k => by rw [hu0 i hi k k.2, ← hv.val i hi k]; rfl⟩
    exact hE0.unique hps.nodes (hr.energy h)
  rw [← hE] at hst
  have hE00 : 0 ≤ E0 := by rw [hE]; positivity
  have hzero : Rep p (zeroMat (p.N + 1) p.K) 0 := ⟨rfl, rfl, fun i hi k => by simp [zeroMat]⟩
  have hNK : ¬ (p.N = 0 ∨ p.K = 0) := by omega
  have hrun := pyAdvecLoop_from hx hps hc.le hdt0 T v n 0 (by rw [zero_add, hn]) fuel ⟨p.sample F, zeroMat (p.N + 1) p.K, 0, []⟩ hfuel hv ⟨0, hzero⟩ (by simp)
  have hprog : pyAdvecProgram p c T CFL F fuel = pyAdvecLoop p c dt T fuel ⟨p.sample F, zeroMat (p.N + 1) p.K, 0, []⟩ := by
    simp only [pyAdvecProgram, hNK, if_false, hdx]
  rw [← hn] at hrun
  rw [hprog]
  rcases hrun with ⟨j, u, -, hj, hu, hbig, hthrow⟩ | ⟨s', us, a1, a2, a3, a4, a5⟩
  · left
    refine ⟨hthrow, ?_⟩
    · refine lt_of_lt_of_le (give_up hu.rows hu.cols hh0 ((hst (j + 1)).2 u hu) hbig) ?_
      have : (1 + 1 / 10 ^ 24 : ℝ) ^ (2 * (j + 1)) ≤ (1 + 1 / 10 ^ 24) ^ (2 * n) := pow_le_pow_right₀ (by norm_num) (by omega)
      gcongr
  · right
    refine ⟨s', us, a1, a3, ?_, ⟨_, a2.energy h, (hst n).1⟩, fun j hj hj' => ⟨_, (a4 j (by omega) (by omega)).energy h, (hst j).1⟩⟩
    rw [a5, List.nil_append, List.range_eq_range', List.range'_eq_map_range, List.range'_eq_map_range, List.map_map, List.map_map]
    refine List.map_congr_left fun j _ => ?_
    simp only [Function.comp, zero_add]
    rw [add_comm]

/-- The hypotheses can be met, and the bound rules the exception out: the script's order, elements, interval, speed and time, a Courant number of 1/30 and the step that is 1 left of the origin and 0 right of it, which no error estimate for smooth
profiles covers.  The script comes to its end after 1440 steps, with fields of an energy of at most 12. -/
example : ∃ (o : Ops) (t0 : Tables ℝ) (s : PyAdvecState), buildOps exactLapack 0.01 1 (zeros 2) (zeroMat 2 2) = .ok o ∧
    pyAdvecMain exactLapack false 0.01 1e-5 (-1) 4 1 60 (zeros 2) (zeroMat 2 2) t0 0.1 40 (1 / 30) (fun x => if x < 0 then 1 else 0) 1441 = .ok (some s) ∧ s.plots.length = 1440 ∧
      ∃ E, HasEnergy 1 60 o.r (1 / 12) s.u E ∧ E ≤ 12 := by
  obtain ⟨o, ho, hs⟩ := buildOps_returns 0.01 (by norm_num) (by norm_num) 1 (by norm_num) (zeros 2) (by simp [zeros]) (zeroMat 2 2) ⟨rfl, rfl⟩
  set t0 : Tables ℝ := ⟨zeroMat 0 0, List.replicate (2 * 60) 0, List.replicate (2 * 60) 0, List.replicate (2 * 60) 0, zeros (2 * 60), [], [], zeros (2 * 60)⟩
  have ht0 : Sized t0 60 := by constructor <;> simp [t0, zeros]
  obtain ⟨F, hF⟩ : ∃ F : ℝ → ℝ, F = fun x => if x < 0 then 1 else 0 := ⟨_, rfl⟩
  have hF01 : ∀ x, F x = 0 ∨ F x = 1 := fun x => by rw [hF]; by_cases h : x < 0 <;> simp [h]
  have hr0 : o.r.getD 0 0 = -1 := hs.nodes.2.1
  have hr1 : o.r.getD 1 0 = 1 := hs.nodes.2.2.1
  obtain ⟨g, hg⟩ : ∃ g : ℕ → ℕ → ℝ, g = fun i k => F ((grid (-1) 4 60 o.r).at' i k) := ⟨_, rfl⟩
  obtain ⟨q, hq⟩ : ∃ q : ℕ → ℝ[X], q = fun k => C ((g 1 k - g 0 k) / 2) * X + C ((g 0 k + g 1 k) / 2) := ⟨_, rfl⟩
  have hint : ∀ k, ∫ x in (-1 : ℝ)..1, (q k).eval x ^ 2 = 2 / 3 * (g 0 k ^ 2 + g 0 k * g 1 k + g 1 k ^ 2) := fun k => by
    obtain ⟨a, ha⟩ : ∃ a, a = (g 1 k - g 0 k) / 2 := ⟨_, rfl⟩
    obtain ⟨b, hb⟩ : ∃ b, b = (g 0 k + g 1 k) / 2 := ⟨_, rfl⟩
    have h := intervalIntegral.integral_eq_sub_of_hasDerivAt (f := fun x : ℝ => a ^ 2 * (x ^ 3 / 3) + a * b * x ^ 2 + b ^ 2 * x) (f' := fun x => (q k).eval x ^ 2) (a := -1) (b := 1)
      (fun x _ => by
        have := (((((hasDerivAt_id x).pow 3).div_const 3).const_mul (a ^ 2)).add (((hasDerivAt_id x).pow 2).const_mul (a * b))).add ((hasDerivAt_id x).const_mul (b ^ 2))
        refine this.congr_deriv ?_
        simp only [hq, eval_add, eval_mul, eval_C, eval_X, ← ha, ← hb, id]
        push_cast
        ring) (Continuous.intervalIntegrable (by fun_prop) _ _)
    rw [h, ha, hb]
    ring
  have hE : HasEnergy 1 60 o.r (1 / 12) ⟨2, 60, g⟩ (∑ k ∈ Finset.range 60, 1 / 12 / 2 * ∫ x in (-1 : ℝ)..1, (q k).eval x ^ 2) := by
    refine ⟨rfl, rfl, q, fun k _ => by rw [hq]; exact natDegree_linear_le, fun i hi k hk => ?_, rfl⟩
    rcases (show i = 0 ∨ i = 1 by omega) with rfl | rfl
    · rw [hr0, hq]; simp; ring
    · rw [hr1, hq]; simp; ring
  have hE5 : ∑ k ∈ Finset.range 60, 1 / 12 / 2 * ∫ x in (-1 : ℝ)..1, (q k).eval x ^ 2 ≤ 5 := by
    have : ∀ k ∈ Finset.range 60, 1 / 12 / 2 * ∫ x in (-1 : ℝ)..1, (q k).eval x ^ 2 ≤ 1 / 12 := fun k _ => by
      rw [hint]
      simp only [hg]
      rcases hF01 ((grid (-1) 4 60 o.r).at' 0 k) with h | h <;> rcases hF01 ((grid (-1) 4 60 o.r).at' 1 k) with h' | h' <;> rw [h, h'] <;> norm_num
    refine le_trans (Finset.sum_le_sum this) ?_
    norm_num
  have hE00 : 0 ≤ ∑ k ∈ Finset.range 60, 1 / 12 / 2 * ∫ x in (-1 : ℝ)..1, (q k).eval x ^ 2 :=
    Finset.sum_nonneg fun k _ => mul_nonneg (by norm_num) (intervalIntegral.integral_nonneg (by norm_num) fun x _ => sq_nonneg _)
  generalize ∑ k ∈ Finset.range 60, 1 / 12 / 2 * ∫ x in (-1 : ℝ)..1, (q k).eval x ^ 2 = E0 at hE hE5 hE00
  have hpow : ((1 : ℝ) + 1 / 10 ^ 24) ^ (2 * 1440) ≤ 1 + 1 / 100 := by
    have h1 : ((1 : ℝ) + 1 / 10 ^ 24) ≤ Real.exp (1 / 10 ^ 24) := by linarith [Real.add_one_le_exp (1 / 10 ^ 24 : ℝ)]
    have h2 := pow_le_pow_left₀ (by norm_num) h1 (2 * 1440)
    rw [← Real.exp_nat_mul] at h2
    have h3 := Real.exp_bound_div_one_sub_of_interval (x := ((2 * 1440 : ℕ) : ℝ) * (1 / 10 ^ 24)) (by positivity) (by norm_num)
    refine le_trans h2 (le_trans h3 ?_)
    norm_num
  rcases C157_script exactLapack exactLapack_ok 0.01 (by norm_num) (by norm_num) 1 (by norm_num) (zeros 2) (by simp [zeros]) (zeroMat 2 2) ⟨rfl, rfl⟩ o ho false 1e-5 (-1) 4 (by norm_num) (by norm_num) 60 (by norm_num)
      (by norm_num [intMax]) t0 ht0 0.1 40 (1 / 30) (1 / 12) (1 / 36) (by norm_num) (by norm_num) (by norm_num) (by rw [hr1]; norm_num) (by norm_num) F ⟨2, 60, g⟩ (fun i hi k hk => by rw [hg]) _ hE 1440 1441
      (by norm_num) (by norm_num) with ⟨-, h⟩ | ⟨s, us, h1, h2, h3, ⟨E, h4, h5⟩, -⟩
  · exfalso
    generalize ((1 : ℝ) + 1 / 10 ^ 24) ^ (2 * 1440) = w at hpow h
    have := mul_le_mul hpow hE5 hE00 (by norm_num)
    norm_num at h this
    linarith
  · rw [hF] at h1
    refine ⟨o, t0, s, ho, h1, by rw [h3]; simp, E, h4, le_trans h5 ?_⟩
    generalize ((1 : ℝ) + 1 / 10 ^ 24) ^ (2 * 1440) = w at hpow ⊢
    have := mul_le_mul hpow hE5 hE00 (by norm_num)
    linarith

end Blitzdg.Drivers
