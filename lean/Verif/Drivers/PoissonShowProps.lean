import Verif.Drivers.PoissonShow
import Verif.Drivers.PoissonRunProps
import Verif.Gmres.VerboseProps
import Mathlib.Analysis.SpecialFunctions.Integrals.Basic

/-!
C155 for the one-dimensional Poisson program: what is on the console when it ends.
-/

namespace Blitzdg.PoissonRun

open Blitzdg.Sparse (DMat)
open Blitzdg.Blitz (reshapeMatTo1D reshape1DToMat)
open Blitzdg.Gmres (Exact Valid Computes Params GOut Screen Look Line Shows Decreasing lastRel heading)
open Blitzdg.Drivers

/-- The closing line of the program, with the error in a notation and with a number of digits. -/
def closing (err : ℝ) (sci : Bool) (digits : ℕ) : List (Look ℝ) := [.text "Error: " 0, .num err sci digits 0, .text "\n" 0]

variable {xmin xmax : ℝ} {p : Prov}

/-- **C155, poisson1d.** On every line of elements, in exact arithmetic: the history does not change what the program computes and writes.  If the right-hand side `b` of the system is above the tolerance, the console shows the history, which
starts at 1, never goes up, and ends with the residual of the report unless the solver breaks down; the error is then printed in scientific notation with two digits after the point.  Otherwise there is no history, and the error is printed in
the notation the console was in. -/
theorem C155_poisson1d (hx : xmin < xmax) (hb : Built xmin xmax p) (S : Solver ((p.N + 1) * p.K)) (hS : Exact S.A) (vec0 : List ℝ) (h0 : vec0.length = (p.N + 1) * p.K) (u0 : DMat ℝ)
    (hu : u0.rows = p.N + 1 ∧ u0.cols = p.K) (scr : Screen ℝ) (hw : scr.fmt.width = 0) :
    ∃ (scr' : Screen ℝ) (r : Report1) (b : List ℝ) (f : DMat ℝ), program1V p S vec0 u0 scr = .ok (scr', r) ∧ program1 p S vec0 u0 = .ok r ∧
      At p (fun x => -Real.pi ^ 2 * Real.sin (Real.pi * x)) f ∧ poisson1dRhs p f vec0 = .ok b ∧
      (size b ≤ max (1e-6 * yard b) 1e-6 → scr'.cells = scr.cells ++ closing r.err scr.fmt.sci scr.fmt.prec) ∧
      (max (1e-6 * yard b) 1e-6 < size b → ∃ M : List (Line ℝ), scr'.cells = scr.cells ++ heading 1 ++ M.flatMap Line.cells ++ closing r.err true 2 ∧ Decreasing 1 M ∧
        (r.result.flag ≠ .breakdown → lastRel 1 M = r.result.relres)) := by
  have hp := hb.spec hx
  obtain ⟨L, hL⟩ := linear1 hp
  obtain ⟨b, b1, b2⟩ := flatten_flat (p := p) (p.massMul (p.sample fun x => -Real.pi * Real.pi * Real.sin (Real.pi * x))) ⟨rfl, rfl⟩ vec0 h0
  have hprod : ∀ (s : Out Unit) (v o : Vec ((p.N + 1) * p.K)), product (poisson1dOp p) s v o = (true, L v, s) := by
    intro s v o
    unfold product
    rw [hL (entries v) (entries o) (entries_length v) (entries_length o)]
    simp only [vec_entries]
  have hmv : Computes (product (n := (p.N + 1) * p.K) (poisson1dOp p)) L := fun s v o => by rw [hprod]; exact ⟨rfl, rfl⟩
  have hpc : Computes (copy (n := (p.N + 1) * p.K)) LinearMap.id := fun s v o => ⟨rfl, rfl⟩
  have hzv : vec ((p.N + 1) * p.K) (List.replicate ((p.N + 1) * p.K) 0) = 0 := by
    ext i
    simp [vec]
  have hex := Gmres.C155_exact hS hmv hpc ((p.N + 1) * p.K) S.w0 S.pv0 S.junk defaults (vec _ b) (vec _ (List.replicate ((p.N + 1) * p.K) 0)) (.ok ()) scr defaults_valid hw
  have hsame := (Gmres.C155_same (A := S.A) (mv := product (poisson1dOp p)) (pc := copy) defaults (vec _ b) ((p.N + 1) * p.K) S.w0 S.pv0 S.junk (vec _ (List.replicate ((p.N + 1) * p.K) 0)) ⟨.ok (), []⟩ scr true).1
  obtain ⟨o, v, g1, g2, g3, -⟩ := gmres_tells S hS (poisson1dOp p) L hL defaults defaults_valid (by norm_num [defaults]) b (List.replicate ((p.N + 1) * p.K) 0) b2.1
  obtain ⟨u, u1, u2, u3⟩ := unflat v g2 u0 hu
  have hfmt := Gmres.C155_format (A := S.A) (mv := product (poisson1dOp p)) (pc := copy) defaults (vec _ b) ((p.N + 1) * p.K) S.w0 S.pv0 S.junk (vec _ (List.replicate ((p.N + 1) * p.K) 0)) ⟨.ok (), []⟩ scr
    (Nat.mul_pos (Nat.succ_pos _) hp.posK) hw
  have hV : gmresV S (poisson1dOp p) defaults true b (List.replicate ((p.N + 1) * p.K) 0) scr =
      .ok ((Gmres.solveV S.A (product (poisson1dOp p)) copy ((p.N + 1) * p.K) S.w0 S.pv0 S.junk defaults true (vec _ b) (vec _ (List.replicate ((p.N + 1) * p.K) 0)) ⟨.ok (), []⟩ scr).1, o, v) := by
    unfold gmresV
    unfold gmres at g1
    simp only [hsame] at g1 ⊢
    generalize Gmres.solve S.A (product (poisson1dOp p)) copy ((p.N + 1) * p.K) S.w0 S.pv0 S.junk defaults (vec _ b) (vec _ (List.replicate ((p.N + 1) * p.K) 0)) ⟨.ok (), []⟩ = R at g1 ⊢
    cases hR : R.out with
    | none => rw [hR] at g1; cases g1
    | some o' =>
      rw [hR] at g1
      simp only at g1 ⊢
      cases hW : R.W.st with
      | ok _ => rw [hW] at g1; cases g1; rfl
      | throws => rw [hW] at g1; cases g1
      | ub => rw [hW] at g1; cases g1
  have hRo : (Gmres.solve S.A (product (poisson1dOp p)) copy ((p.N + 1) * p.K) S.w0 S.pv0 S.junk defaults (vec _ b) (vec _ (List.replicate ((p.N + 1) * p.K) 0)) ⟨.ok (), []⟩).out = some o ∧
      entries (Gmres.solve S.A (product (poisson1dOp p)) copy ((p.N + 1) * p.K) S.w0 S.pv0 S.junk defaults (vec _ b) (vec _ (List.replicate ((p.N + 1) * p.K) 0)) ⟨.ok (), []⟩).x = v := by
    unfold gmres at g1
    simp only at g1
    generalize Gmres.solve S.A (product (poisson1dOp p)) copy ((p.N + 1) * p.K) S.w0 S.pv0 S.junk defaults (vec _ b) (vec _ (List.replicate ((p.N + 1) * p.K) 0)) ⟨.ok (), []⟩ = R at g1 ⊢
    cases hR : R.out with
    | none => rw [hR] at g1; cases g1
    | some o' =>
      rw [hR] at g1
      simp only at g1
      cases hW : R.W.st with
      | ok _ => rw [hW] at g1; cases g1; exact ⟨rfl, rfl⟩
      | throws => rw [hW] at g1; cases g1
      | ub => rw [hW] at g1; cases g1
  obtain ⟨ho, hv⟩ := hRo
  have hbe := entries_vec b2.1
  have hy : yard b = Gmres.scaleOf (vec ((p.N + 1) * p.K) b) := by rw [← yard_entries, hbe]
  have hn : size b = ‖vec ((p.N + 1) * p.K) b‖ := by rw [← size_entries, hbe]
  have hyp : 0 < yard b := by rw [hy]; exact Gmres.scaleOf_pos _
  unfold Gmres.ExactHistory at hex
  rw [hzv, map_zero, sub_zero, ← hn, ← hy] at hex
  rw [hzv] at hfmt hV ho hv
  refine ⟨(((Gmres.solveV S.A (product (poisson1dOp p)) copy ((p.N + 1) * p.K) S.w0 S.pv0 S.junk defaults true (vec _ b) 0 ⟨.ok (), []⟩ scr).1.put (.text "Error: ")).put
      (.num (maxAbs (lin 1 u (-1) (p.sample fun x => Real.sin (Real.pi * x)))))).put (.text "\n"), ⟨o, [("x.dat".toList, p.t.x), ("u.dat".toList, u), ("uexact.dat".toList, p.sample fun x => Real.sin (Real.pi * x)),
      ("RHS.dat".toList, p.sample fun x => -Real.pi * Real.pi * Real.sin (Real.pi * x))], maxAbs (lin 1 u (-1) (p.sample fun x => Real.sin (Real.pi * x)))⟩,
    b, p.sample fun x => -Real.pi * Real.pi * Real.sin (Real.pi * x), ?_, ?_, ⟨⟨rfl, rfl⟩, fun i _ k _ => ?_⟩, b1, ?_, ?_⟩
  · unfold program1V poisson1dRhs
    simp only
    rw [b1]
    show (gmresV S (poisson1dOp p) defaults true b (List.replicate ((p.N + 1) * p.K) 0) scr >>= _) = _
    rw [hV]
    show (reshape1DToMat v u0 false >>= _) = _
    rw [u1]
    rfl
  · unfold program1 poisson1dRhs
    simp only
    rw [b1]
    show (gmres S (poisson1dOp p) defaults b (List.replicate ((p.N + 1) * p.K) 0) >>= _) = _
    rw [g1]
    show (reshape1DToMat v u0 false >>= _) = _
    rw [u1]
    rfl
  · simp only [Prov.sample]
    ring
  · intro h
    rw [hex.1 h]
    simp [Screen.put, closing, hw]
  · intro h
    obtain ⟨M, o', k1, k2, k3, k4⟩ := hex.2 h
    rw [ho] at k1
    cases k1
    have hb1 : size b / yard b = 1 := by
      have : vec ((p.N + 1) * p.K) b ≠ 0 := by
        intro h0
        rw [hn, h0, norm_zero] at h
        exact absurd h (not_lt.2 (le_trans (by norm_num) (le_max_right _ _)))
      rw [hy, hn, Gmres.scaleOf, if_neg this, div_self (norm_ne_zero_iff.2 this)]
    rw [hb1] at k2 k3 k4
    have hne : (Gmres.solveV S.A (product (poisson1dOp p)) copy ((p.N + 1) * p.K) S.w0 S.pv0 S.junk defaults true (vec _ b) 0 ⟨.ok (), []⟩ scr).1 ≠ scr := by
      intro e
      rw [e] at k2
      simp [Shows, heading] at k2
    refine ⟨M, ?_, k3, fun hf => ?_⟩
    · have hf := hfmt hne
      generalize (Gmres.solveV S.A (product (poisson1dOp p)) copy ((p.N + 1) * p.K) S.w0 S.pv0 S.junk defaults true (vec _ b) 0 ⟨.ok (), []⟩ scr).1 = t at hf k2 ⊢
      simp [Screen.put, closing, hf, show t.cells = _ from k2]
    · rw [k4 hf]
      have := g3.reported
      rw [← hv, vec_entries] at this
      have e : size (minus b (entries (L (Gmres.solve S.A (product (poisson1dOp p)) copy ((p.N + 1) * p.K) S.w0 S.pv0 S.junk defaults (vec _ b) 0 ⟨.ok (), []⟩).x))) =
          ‖vec ((p.N + 1) * p.K) b - L (Gmres.solve S.A (product (poisson1dOp p)) copy ((p.N + 1) * p.K) S.w0 S.pv0 S.junk defaults (vec _ b) 0 ⟨.ok (), []⟩).x‖ := by
        rw [← size_entries, ← minus_entries, hbe]
      rw [e] at this
      rw [← this]
      field_simp

/-! ### The program as shipped -/

section Shipped

open Polynomial

theorem le_size {b : List ℝ} {x : ℝ} (h : x ∈ b) : |x| ≤ size b := by
  unfold size
  refine Real.abs_le_sqrt (List.single_le_sum ?_ _ (List.mem_map.2 ⟨x, h, rfl⟩))
  intro y hy
  obtain ⟨t, -, rfl⟩ := List.mem_map.1 hy
  exact sq_nonneg t

/-- The polynomial whose scalar product with a polynomial of degree at most four is the value of the latter at 1. -/
noncomputable def kernel4 : ℝ[X] := C (15 / 16) - C (15 / 4) * X - C (105 / 8) * X ^ 2 + C (35 / 4) * X ^ 3 + C (315 / 16) * X ^ 4

theorem kernel4_deg : kernel4.natDegree ≤ 4 := by
  unfold kernel4
  compute_degree

theorem kernel4_bound {r : ℝ} (h0 : -1 ≤ r) (h1 : r ≤ 1) : |kernel4.eval r| ≤ 50 := by
  have e : kernel4.eval r = 15 / 16 - 15 / 4 * r - 105 / 8 * r ^ 2 + 35 / 4 * r ^ 3 + 315 / 16 * r ^ 4 := by simp [kernel4]
  have a1 : |r| ≤ 1 := abs_le.2 ⟨h0, h1⟩
  have a (n : ℕ) : |r ^ n| ≤ 1 := by rw [abs_pow]; exact pow_le_one₀ (abs_nonneg _) a1
  have b2 := abs_le.1 (a 2)
  have b3 := abs_le.1 (a 3)
  have b4 := abs_le.1 (a 4)
  rw [e, abs_le]
  constructor <;> linarith

theorem kernel4_moment (i : ℕ) (hi : i < 5) : ∫ r in (-1 : ℝ)..1, r ^ i * kernel4.eval r = 1 := by
  have e : (fun r : ℝ => r ^ i * kernel4.eval r) = fun r => 15 / 16 * r ^ i - 15 / 4 * r ^ (i + 1) - 105 / 8 * r ^ (i + 2) + 35 / 4 * r ^ (i + 3) + 315 / 16 * r ^ (i + 4) := by
    funext r
    simp only [kernel4, eval_add, eval_sub, eval_mul, eval_C, eval_X, eval_pow]
    ring
  have hc (a : ℝ) (n : ℕ) : IntervalIntegrable (fun r : ℝ => a * r ^ n) MeasureTheory.volume (-1) 1 := Continuous.intervalIntegrable (by fun_prop) _ _
  rw [e, intervalIntegral.integral_add ((((hc _ _).sub (hc _ _)).sub (hc _ _)).add (hc _ _)) (hc _ _), intervalIntegral.integral_add (((hc _ _).sub (hc _ _)).sub (hc _ _)) (hc _ _),
    intervalIntegral.integral_sub ((hc _ _).sub (hc _ _)) (hc _ _), intervalIntegral.integral_sub (hc _ _) (hc _ _)]
  simp only [intervalIntegral.integral_const_mul, integral_pow]
  interval_cases i <;> norm_num

theorem kernel4_eval (F : ℝ[X]) (hF : F.natDegree ≤ 4) : ∫ r in (-1 : ℝ)..1, F.eval r * kernel4.eval r = F.eval 1 := by
  have e (r : ℝ) : F.eval r * kernel4.eval r = ∑ i ∈ Finset.range 5, F.coeff i * (r ^ i * kernel4.eval r) := by
    rw [Polynomial.eval_eq_sum_range' (Nat.lt_succ_of_le hF), Finset.sum_mul]
    exact Finset.sum_congr rfl fun i _ => by ring
  simp only [e]
  rw [intervalIntegral.integral_finsetSum fun i _ => Continuous.intervalIntegrable (by fun_prop) _ _, Polynomial.eval_eq_sum_range' (Nat.lt_succ_of_le hF)]
  refine Finset.sum_congr rfl fun i hi => ?_
  rw [intervalIntegral.integral_const_mul, kernel4_moment i (Finset.mem_range.1 hi), one_pow]

/-- With order four and 15 elements on [-1, 1] the right-hand side of the system is far above the tolerance. -/
theorem shipped_large (hp : ProvSpec (-1) 1 p) (hN : p.N = 4) (hK : p.K = 15) {f : DMat ℝ} (hf : At p (fun x => -Real.pi ^ 2 * Real.sin (Real.pi * x)) f) {vec0 b : List ℝ} (h0 : vec0.length = (p.N + 1) * p.K)
    (hb : poisson1dRhs p f vec0 = .ok b) : 1e-3 < size b := by
  obtain ⟨b', b1, b2⟩ := flatten_flat (p := p) (p.massMul f) ⟨rfl, rfl⟩ vec0 h0
  unfold poisson1dRhs at hb
  rw [hb] at b1
  cases b1
  obtain ⟨F, hF⟩ := nodal_exists hp f hf.1
  let T : ℕ → ℝ[X] := fun k => if k = 10 then kernel4 else 0
  have hT : Nodal p ⟨p.N + 1, p.K, fun i k => (T k).eval (p.o.r.getD i 0)⟩ T := by
    refine ⟨rfl, rfl, fun k => ?_, fun i _ k _ => rfl⟩
    simp only [T]
    split_ifs
    · rw [hN]; exact kernel4_deg
    · simp
  obtain ⟨z, -, hz⟩ := flatten_flat (p := p) ⟨p.N + 1, p.K, fun i k => (T k).eval (p.o.r.getD i 0)⟩ ⟨rfl, rfl⟩ vec0 h0
  have hd := dot_mass hp hT hF hz b2.2
  rw [dot_flat hz b2.2] at hd
  have hr := hp.ops.nodes
  have hint : domainInt (-1) 1 p (fun k r => (F k).eval r * (T k).eval r) = 1 / 15 * (F 10).eval 1 := by
    unfold domainInt elemInt
    rw [Finset.sum_eq_single 10]
    · simp only [T, if_true]
      rw [kernel4_eval (F 10) (hN ▸ hF.deg 10), hK]
      norm_num
    · intro k _ hk
      simp [T, hk]
    · intro h
      rw [hK] at h
      exact absurd (Finset.mem_range.2 (by norm_num)) h
  have hval : (F 10).eval 1 = -Real.pi ^ 2 * Real.sin (Real.pi * (7 / 15)) := by
    have := hF.val p.N (le_refl _) 10 (by omega)
    rw [hr.2.2.1] at this
    rw [← this, hf.2 p.N (le_refl _) 10 (by omega), hp.x]
    simp only [Nodes1D.grid, hr.2.2.1, hK]
    norm_num
  have hsin : 1 / 2 ≤ Real.sin (Real.pi * (7 / 15)) := by
    rw [← Real.sin_pi_div_six]
    have := Real.pi_pos
    exact Real.sin_le_sin_of_le_of_le_pi_div_two (by linarith) (by linarith) (by linarith)
  have hpi := Real.pi_gt_three
  have hsum : |∑ k ∈ Finset.range p.K, ∑ i ∈ Finset.range (p.N + 1), (T k).eval (p.o.r.getD i 0) * (p.massMul f).at' i k| ≤ 250 * size b := by
    rw [Finset.sum_eq_single 10]
    · refine le_trans (Finset.abs_sum_le_sum_abs _ _) ?_
      have : ∀ i ∈ Finset.range (p.N + 1), |(T 10).eval (p.o.r.getD i 0) * (p.massMul f).at' i 10| ≤ 50 * size b := by
        intro i hi
        have hi := Finset.mem_range.1 hi
        have hlo : -1 ≤ p.o.r.getD i 0 := by
          rcases Nat.eq_zero_or_pos i with rfl | h
          · rw [hr.2.1]
          · rw [← hr.2.1]; exact (hr.2.2.2 0 i h (by omega)).le
        have hhi : p.o.r.getD i 0 ≤ 1 := by
          rcases Nat.lt_or_ge i p.N with h | h
          · rw [← hr.2.2.1]; exact (hr.2.2.2 i p.N h (le_refl _)).le
          · rw [show i = p.N by omega, hr.2.2.1]
        rw [abs_mul]
        exact mul_le_mul (by simpa [T] using kernel4_bound hlo hhi) (le_size (List.mem_of_getElem? (b2.2 i 10 (by omega) (by omega)))) (abs_nonneg _) (by norm_num)
      refine le_trans (Finset.sum_le_sum this) ?_
      rw [Finset.sum_const, Finset.card_range, hN, nsmul_eq_mul]
      push_cast
      linarith
    · intro k _ hk
      simp [T, hk]
    · intro h
      rw [hK] at h
      exact absurd (Finset.mem_range.2 (by norm_num)) h
  rw [hd, hint, hval] at hsum
  have hlow : 3 / 10 ≤ |1 / 15 * (-Real.pi ^ 2 * Real.sin (Real.pi * (7 / 15)))| := by
    rw [le_abs]
    right
    nlinarith
  norm_num
  linarith

/-- **C155, poisson1d as shipped.** With order 4 and 15 elements on [-1, 1], unless the nodes cannot be found: the program, run on a console in the usual format, shows a history that starts at 1 and prints its error with two digits after the point. -/
theorem C155_shipped (la : Nodes1D.Lapack) (wrap : Bool) (eps tol : ℝ) (r0 : List ℝ) (V0 : DMat ℝ) (t0 : Nodes1D.Tables ℝ) (hM : Machine la eps tol 4 15 r0 V0 t0) (S : (n : ℕ) → Solver n)
    (hS : ∀ n, Exact (S n).A) (vec0 : List ℝ) (h0 : vec0.length = 75) (u0 : DMat ℝ) (hu : u0.rows = 5 ∧ u0.cols = 15) (before : List (Look ℝ)) :
    main1 la wrap eps tol r0 V0 t0 S vec0 u0 = .throws ∨
    ∃ (p : Prov) (r : Report1) (scr : Screen ℝ) (M : List (Line ℝ)), main1 la wrap eps tol r0 V0 t0 S vec0 u0 = .ok r ∧ buildProv la wrap eps tol (-1) 1 4 15 r0 V0 t0 = .ok p ∧ program1V p (S _) vec0 u0 ⟨⟨false, 6, 0⟩, before⟩ = .ok (scr, r) ∧
      scr.cells = before ++ heading 1 ++ M.flatMap Line.cells ++ closing r.err true 2 ∧ Decreasing 1 M := by
  rcases buildProv_spec la hM.lapack wrap eps tol (-1) 1 hM.eps_pos hM.eps_le hM.tol_pos (by norm_num) 4 15 (by norm_num) (by norm_num) (by norm_num [intMax]) r0 hM.r0 V0 hM.Vinv0 t0 hM.t0 with
    ⟨h1, h2⟩ | ⟨p, h1, h2, h3, -⟩
  · left
    unfold main1; rw [h2]; rfl
  · right
    have hb : Built (-1) 1 p := ⟨la, wrap, eps, tol, 4, 15, r0, V0, t0, hM.lapack, hM.eps_pos, hM.eps_le, hM.tol_pos, by norm_num, by norm_num, by norm_num [intMax], hM.r0, hM.Vinv0, hM.t0, h1⟩
    obtain ⟨scr, r, b, f, k1, k2, k3, k4, -, k5⟩ := C155_poisson1d (by norm_num) hb (S _) (hS _) vec0 (by rw [h2, h3, h0]) u0 (by rw [h2, h3]; exact hu) ⟨⟨false, 6, 0⟩, before⟩ rfl
    have hl := shipped_large (hb.spec (by norm_num)) h2 h3 k3 (by rw [h2, h3, h0]) k4
    have hy : yard b = size b := by
      unfold yard
      rw [if_neg]
      intro h
      have : size b = 0 := by
        unfold size
        rw [List.sum_eq_zero, Real.sqrt_zero]
        intro y hy
        obtain ⟨t, ht, rfl⟩ := List.mem_map.1 hy
        simp [h t ht]
      rw [this] at hl
      norm_num at hl
    obtain ⟨M, m1, m2, -⟩ := k5 (by
      rw [hy]
      norm_num at hl
      refine max_lt ?_ ?_ <;> norm_num <;> linarith)
    refine ⟨p, r, scr, M, ?_, h1, k1, m1, m2⟩
    unfold main1
    rw [h1]
    exact k2

/-- The hypotheses of `C155_shipped` hold for an exact LAPACK and the exact solver, and the program does not throw there. -/
example : ∃ (p : Prov) (r : Report1) (t0 : Nodes1D.Tables ℝ) (scr : Screen ℝ) (M : List (Line ℝ)), main1 Nodes1D.exactLapack false 0.01 1e-5 (Drivers.zeros 5) (Drivers.zeroMat 5 5) t0 exactSolver (Drivers.zeros 75) (Drivers.zeroMat 5 15) = .ok r ∧
    program1V p (exactSolver _) (Drivers.zeros 75) (Drivers.zeroMat 5 15) ⟨⟨false, 6, 0⟩, []⟩ = .ok (scr, r) ∧ scr.cells = heading 1 ++ M.flatMap Line.cells ++ closing r.err true 2 := by
  obtain ⟨o, ho, -⟩ := Nodes1D.buildOps_returns 0.01 (by norm_num) (by norm_num) 4 (by norm_num) (Drivers.zeros 5) (by simp [Drivers.zeros]) (Drivers.zeroMat 5 5) ⟨rfl, rfl⟩
  rcases C155_shipped Nodes1D.exactLapack false 0.01 1e-5 _ _ _ (Drivers.machine_exists 4 15) exactSolver (fun n => Gmres.realArith_exact _) (Drivers.zeros 75) (by simp [Drivers.zeros])
    (Drivers.zeroMat 5 15) ⟨rfl, rfl⟩ [] with h | ⟨p, r, scr, M, h1, -, h2, h3, -⟩
  · rcases C148_main1 Nodes1D.exactLapack false 0.01 1e-5 _ _ _ (Drivers.machine_exists 4 15) exactSolver (fun n => Gmres.realArith_exact _) (Drivers.zeros 75) (by simp [Drivers.zeros])
      (Drivers.zeroMat 5 15) ⟨rfl, rfl⟩ with ⟨h', -⟩ | ⟨_, _, -, -, -, -, h'⟩
    · rw [ho] at h'; cases h'
    · rw [h] at h'; cases h'
  · exact ⟨p, r, _, scr, M, h1, h2, by simpa using h3⟩

end Shipped

end Blitzdg.PoissonRun
