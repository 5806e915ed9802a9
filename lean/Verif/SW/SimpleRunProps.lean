import Verif.SW.SimpleRun
import Verif.SW.PyLoopProps

/-!
C143: what src/sw2d-simple starts from, which states it writes, and how it ends.
-/

namespace Blitzdg.SW

open Blitzdg.Nodes1D (Lapack)
open Blitzdg.Sparse (DMat)
open Blitzdg.DG2D

variable {la : Lapack} {eps ztol tol : ℝ} {N : ℕ} {m : Mesh} {P : ℕ → ℕ} {x : List ℝ} {bt : List Int} {g : Grid}

/-! ### The start -/

/-- Elevation of the surface at the start: a bump of height one around the origin. -/
noncomputable def bump (x y : ℝ) : ℝ := Real.exp (-(10 * (x ^ 2 + y ^ 2)))

theorem bump_bounds (x y : ℝ) : 0 < bump x y ∧ bump x y ≤ 1 := ⟨Real.exp_pos _, Real.exp_le_one_iff.2 (by have : 0 ≤ x ^ 2 + y ^ 2 := by positivity
                                                                                                          linarith)⟩

/-- What the loop is entered with. -/
structure StartOk (g : Grid) (s : Sim) : Prop where
  fits : s.q.Fits g
  clock : s.t = 0
  state : ∀ i k, s.q.at' i k = ⟨10 + bump (gridX (g.tri k) g.n i) (gridY (g.tri k) g.n i), 0, 0⟩
  step : StepSize g 9.81 0.65 s.q s.dt

theorem StartOk.wet {s : Sim} (h : StartOk g s) : Wet g s.q := by
  intro i _ k _
  have := congrArg State.h (h.state i k)
  simp only [Fields.at'] at this
  rw [this]
  linarith [(bump_bounds (gridX (g.tri k) g.n i) (gridY (g.tri k) g.n i)).1]

/-- **C143, start.** On every mesh and for every order the filter and the first step are computed without an error; at every node the water is at rest and its depth is ten plus the bump, so above 10 and at most 11; the first step is positive and the largest
respecting the Courant condition, hence the Courant number of the deepest possible water bounds it from below. -/
theorem C143_start (h : Provisioned la eps ztol tol N m P g) (hK : 0 < m.K) :
    ∃ (F : Matrix (Fin g.np) (Fin g.np) ℝ) (s : Sim), g.filter (0.9 * g.N) g.N = .ok (fun i j => some (F i j)) ∧ g.startSimple 9.81 0.65 = .ok s ∧ StartOk g s ∧
      (∀ i k, 10 < s.q.h.at' i k ∧ s.q.h.at' i k ≤ 11) ∧
      (∀ R, (∀ e < 3 * g.K, faceLen g e / area g (e / 3) ≤ R) → 0.65 ≤ s.dt * ((g.N + 1) ^ 2 / 2) * (√(9.81 * 11) * R)) ∧
      ∀ e < 3 * g.K, s.dt * ((g.N + 1) ^ 2 / 2) * (√(9.81 * 10) * (faceLen g e / area g (e / 3))) ≤ 0.65 := by
  obtain ⟨x, hg, hN, hKe, -⟩ := h.spec
  have hN1 := h.order
  have hNr : (1 : ℝ) ≤ g.N := by rw [hN]; exact_mod_cast hN1
  obtain ⟨F, hF, -⟩ := C85_product h (0.9 * g.N) (by positivity) (by rw [← hN]; intro hh; nlinarith) g.N (by rw [hN]; exact_mod_cast hN1)
  obtain ⟨q, hq⟩ : ∃ q : Fields, q = ⟨⟨g.np, g.K, fun i k => 10 + Real.exp (-10 * (gridX (g.tri k) g.n i * gridX (g.tri k) g.n i) - 10 * (gridY (g.tri k) g.n i * gridY (g.tri k) g.n i))⟩,
    ⟨g.np, g.K, fun i k => (10 + Real.exp (-10 * (gridX (g.tri k) g.n i * gridX (g.tri k) g.n i) - 10 * (gridY (g.tri k) g.n i * gridY (g.tri k) g.n i))) * 0⟩,
    ⟨g.np, g.K, fun i k => (10 + Real.exp (-10 * (gridX (g.tri k) g.n i * gridX (g.tri k) g.n i) - 10 * (gridY (g.tri k) g.n i * gridY (g.tri k) g.n i))) * 0⟩⟩ := ⟨_, rfl⟩
  have hst : ∀ i k, q.at' i k = ⟨10 + bump (gridX (g.tri k) g.n i) (gridY (g.tri k) g.n i), 0, 0⟩ := by
    intro i k
    rw [hq]
    simp only [Fields.at', mul_zero]
    unfold bump
    congr 3
    ring
  have hh : ∀ i k, q.h.at' i k = 10 + bump (gridX (g.tri k) g.n i) (gridY (g.tri k) g.n i) := fun i k => congrArg State.h (hst i k)
  have hwet : Wet g q := fun i _ k _ => by
    rw [hh]
    linarith [(bump_bounds (gridX (g.tri k) g.n i) (gridY (g.tri k) g.n i)).1]
  have hfit : q.Fits g := by rw [hq]; exact ⟨⟨rfl, rfl⟩, ⟨rfl, rfl⟩, rfl, rfl⟩
  obtain ⟨dt, h1, h2⟩ := C83_simple h hK 9.81 0.65 (by norm_num) (by norm_num) q hfit hwet
  have hsp : ∀ e i, speed 9.81 (inner g q e i) = √(9.81 * (inner g q e i).h) := by
    intro e i
    have : inner g q e i = q.at' (g.n.mask i (e % 3)) (e / 3) := rfl
    rw [this, hst]
    unfold speed
    simp
  have hb : ∀ e i, 10 < (inner g q e i).h ∧ (inner g q e i).h ≤ 11 := by
    intro e i
    have : (inner g q e i).h = q.h.at' (g.n.mask i (e % 3)) (e / 3) := rfl
    rw [this, hh]
    have := bump_bounds (gridX (g.tri (e / 3)) g.n (g.n.mask i (e % 3))) (gridY (g.tri (e / 3)) g.n (g.n.mask i (e % 3)))
    constructor <;> linarith [this.1, this.2]
  have hratio : ∀ e < 3 * g.K, 0 < faceLen g e / area g (e / 3) := fun e he => by
    rw [← hg.fscale_geo he (Nat.zero_le _)]
    exact hg.fscale_pos he (Nat.zero_le _)
  refine ⟨F, ⟨q, 0, dt⟩, hF, ?_, ⟨hfit, rfl, hst, h2⟩, fun i k => ?_, fun R hR => ?_, fun e he => ?_⟩
  · unfold Grid.startSimple
    simp only []
    rw [← hq, h1]
    rfl
  · rw [hh]
    have := bump_bounds (gridX (g.tri k) g.n i) (gridY (g.tri k) g.n i)
    constructor <;> linarith [this.1, this.2]
  · obtain ⟨h3, -, e, he, i, hi, h4⟩ := h2
    rw [← h4, hsp]
    have h5 := hR e he
    have h6 := hratio e he
    have h7 : √(9.81 * (inner g q e i).h) ≤ √(9.81 * 11) := Real.sqrt_le_sqrt (by linarith [(hb e i).2])
    show dt * _ * _ ≤ dt * _ * _
    gcongr
  · obtain ⟨h3, h4, -⟩ := h2
    refine le_trans ?_ (h4 e he 0 (Nat.zero_le _))
    rw [hsp]
    have h6 := hratio e he
    have h7 : √(9.81 * 10) ≤ √(9.81 * (inner g q e 0).h) := Real.sqrt_le_sqrt (by linarith [(hb e 0).1])
    show dt * _ * _ ≤ dt * _ * _
    gcongr

/-! ### What is written -/

/-- Elevation of the surface above the level `H`. -/
def elevation (g : Grid) (H : ℝ) (s : Sim) : DMat ℝ := ⟨g.np, g.K, fun i k => s.q.h.at' i k - H⟩

/-- The first `c` files: every tenth state with its number. -/
def tenths (g : Grid) (H : ℝ) (S : ℕ → Sim) (c : ℕ) : List (ℕ × DMat ℝ) := (List.range c).map fun j => (10 * j, elevation g H (S (10 * j)))

theorem output_tenths {H : ℝ} {S : ℕ → Sim} {r : SimpleRun} (hs : r.s = S r.count) (hf : r.files = tenths g H S ((r.count + 9) / 10)) : (g.outputSimple H r).files = tenths g H S (r.count / 10 + 1) ∧
    (g.outputSimple H r).s = r.s ∧ (g.outputSimple H r).count = r.count := by
  unfold Grid.outputSimple
  split_ifs with hc
  · refine ⟨?_, rfl, rfl⟩
    show r.files ++ _ = _
    rw [hf]
    unfold tenths
    rw [List.range_succ, List.map_append, show (r.count + 9) / 10 = r.count / 10 by omega]
    congr 1
    simp only [List.map_cons, List.map_nil]
    rw [show 10 * (r.count / 10) = r.count by omega, ← hs]
    rfl
  · refine ⟨?_, rfl, rfl⟩
    rw [hf, show (r.count + 9) / 10 = r.count / 10 + 1 by omega]

/-- The end of a run of the loop: `S j` is the state after `j` passes. -/
structure Ran (g : Grid) (grav CFL H T : ℝ) (F : Matrix (Fin g.np) (Fin g.np) ℝ) (n : ℕ) (s : Sim) (r : SimpleRun) (e : Left) (S : ℕ → Sim) : Prop where
  first : S 0 = s
  last : S r.count = r.s
  passes : Passes Sim.t (g.stepSimple grav CFL H F) T r.count S
  finished : e = .finished → T ≤ r.s.t ∧ r.files = tenths g H S ((r.count + 9) / 10)
  goingOn : e = .goingOn → r.count = n ∧ r.files = tenths g H S ((r.count + 9) / 10)
  threw : e = .threw → r.s.t < T ∧ g.stepSimple grav CFL H F r.s = .throws ∧ r.files = tenths g H S (r.count / 10 + 1)
  undefined : e = .undefined → r.s.t < T ∧ g.stepSimple grav CFL H F r.s = .ub

theorem loop_ran (grav CFL H T : ℝ) (F : Matrix (Fin g.np) (Fin g.np) ℝ) (n c : ℕ) (S : ℕ → Sim) (hS : Passes Sim.t (g.stepSimple grav CFL H F) T c S) (r : SimpleRun) (hc : r.count = c) (hs : r.s = S c)
    (hf : r.files = tenths g H S ((c + 9) / 10)) : ∃ S', Ran g grav CFL H T F (c + n) (S 0) (g.loopSimple grav CFL H T F n r).1 (g.loopSimple grav CFL H T F n r).2 S' := by
  induction n generalizing c S r with
  | zero => exact ⟨S, rfl, by rw [← hc] at hs; exact hs.symm, by rw [← hc] at hS; exact hS, nofun, fun _ => ⟨hc, by rw [← hc] at hf; exact hf⟩, nofun, nofun⟩
  | succ n ih =>
    unfold Grid.loopSimple
    split_ifs with ht
    · obtain ⟨o1, o2, o3⟩ := output_tenths (g := g) (H := H) (S := S) (r := r) (by rw [hc]; exact hs) (by rw [hc]; exact hf)
      simp only []
      cases hst : g.stepSimple grav CFL H F (g.outputSimple H r).s with
      | ok s' =>
        obtain ⟨S', hS'⟩ : ∃ S' : ℕ → Sim, (∀ j ≤ c, S' j = S j) ∧ S' (c + 1) = s' := ⟨fun j => if j ≤ c then S j else s', fun j hj => if_pos hj, if_neg (by omega)⟩
        have hpass : Passes Sim.t (g.stepSimple grav CFL H F) T (c + 1) S' := by
          intro j hj
          rcases Nat.lt_or_ge j c with hjc | hjc
          · rw [hS'.1 j (by omega), hS'.1 (j + 1) (by omega)]
            exact hS j hjc
          · obtain rfl : j = c := by omega
            rw [hS'.1 j le_rfl, hS'.2, ← hs]
            rw [o2] at hst
            exact ⟨ht, hst⟩
        obtain ⟨S'', h''⟩ := ih (c + 1) S' hpass ⟨s', (g.outputSimple H r).count + 1, (g.outputSimple H r).files⟩ (by show _ + 1 = _; rw [o3, hc]) hS'.2.symm (by
          show (g.outputSimple H r).files = _
          rw [o1, hc, show (c + 1 + 9) / 10 = c / 10 + 1 by omega]
          unfold tenths
          apply List.map_congr_left
          intro j hj
          rw [List.mem_range] at hj
          rw [hS'.1 (10 * j) (by omega)])
        refine ⟨S'', ?_⟩
        rw [hS'.1 0 (by omega), show c + 1 + n = c + (n + 1) by omega] at h''
        exact h''
      | throws =>
        refine ⟨S, rfl, by show S (g.outputSimple H r).count = _; rw [o3, o2, hc, hs], by show Passes _ _ _ (g.outputSimple H r).count _; rw [o3, hc]; exact hS, nofun, nofun, fun _ => ⟨?_, hst, ?_⟩, nofun⟩
        · show (g.outputSimple H r).s.t < T
          rw [o2]; exact ht
        · show (g.outputSimple H r).files = tenths g H S ((g.outputSimple H r).count / 10 + 1)
          rw [o1, o3]
      | ub =>
        refine ⟨S, rfl, by show S (g.outputSimple H r).count = _; rw [o3, o2, hc, hs], by show Passes _ _ _ (g.outputSimple H r).count _; rw [o3, hc]; exact hS, nofun, nofun, nofun, fun _ => ⟨?_, hst⟩⟩
        show (g.outputSimple H r).s.t < T
        rw [o2]; exact ht
    · exact ⟨S, rfl, by rw [← hc] at hs; exact hs.symm, by rw [← hc] at hS; exact hS, fun _ => ⟨not_lt.1 ht, by rw [← hc] at hf; exact hf⟩, nofun, nofun, nofun⟩

/-- The program is its start followed by the loop. -/
theorem main_eq (h : Provisioned la eps ztol tol N m P g) (hK : 0 < m.K) :
    ∃ (F : Matrix (Fin g.np) (Fin g.np) ℝ) (s : Sim), g.filter (0.9 * g.N) g.N = .ok (fun i j => some (F i j)) ∧ StartOk g s ∧ ∀ n, g.mainSimple n = .ok (g.loopSimple 9.81 0.65 10 1000 F n ⟨s, 0, []⟩) := by
  obtain ⟨F, s, h1, h2, h3, -⟩ := C143_start h hK
  refine ⟨F, s, h1, h3, fun n => ?_⟩
  unfold Grid.mainSimple asMatrix
  rw [h1]
  simp only [Out.bind_ok, Option.isSome_some, implies_true, if_true, h2, Option.getD_some]
  rfl

/-- **C143, files.** On every mesh and for every number `n` of passes allowed the program reaches the loop, and what it has written then are the elevations of the states after 0, 10, 20, ... passes, under these numbers, in order and each once; `S j` is the state
after `j` passes of the scheme from the start, all begun before the final time.  A run that reaches the final time has written every tenth state before the last one; the last file before an exception is that of the pass that failed or of an
earlier one. -/
theorem C143_files (h : Provisioned la eps ztol tol N m P g) (hK : 0 < m.K) (n : ℕ) :
    ∃ (F : Matrix (Fin g.np) (Fin g.np) ℝ) (s : Sim) (S : ℕ → Sim) (r : SimpleRun) (e : Left), g.filter (0.9 * g.N) g.N = .ok (fun i j => some (F i j)) ∧ StartOk g s ∧ g.mainSimple n = .ok (r, e) ∧ Ran g 9.81 0.65 10 1000 F n s r e S := by
  obtain ⟨F, s, h1, h2, h3⟩ := main_eq h hK
  obtain ⟨S, hS⟩ := loop_ran (g := g) 9.81 0.65 10 1000 F n 0 (fun _ => s) (fun j hj => by omega) ⟨s, 0, []⟩ rfl rfl rfl
  rw [zero_add] at hS
  exact ⟨F, s, S, _, _, h1, h2, h3 n, hS⟩

/-- **C143, the last state.** A run that reaches the final time makes at least one pass, ends less than its last step size after the final time, and does not write its last state: every file holds a state from before the final time. -/
theorem C143_last (h : Provisioned la eps ztol tol N m P g) (hK : 0 < m.K) (n : ℕ) (r : SimpleRun) (hr : g.mainSimple n = .ok (r, .finished)) :
    0 < r.count ∧ 1000 ≤ r.s.t ∧ r.s.t - r.s.dt < 1000 ∧ (∀ f ∈ r.files, f.1 < r.count) ∧ r.count ∉ r.files.map Prod.fst := by
  obtain ⟨F, s, S, r', e, -, hs, h1, hR⟩ := C143_files h hK n
  rw [hr] at h1
  obtain ⟨rfl, rfl⟩ : r = r' ∧ Left.finished = e := by simpa using h1
  obtain ⟨h2, h3⟩ := hR.finished rfl
  have h4 : ∀ f ∈ r.files, f.1 < r.count := by
    intro f hf
    rw [h3] at hf
    obtain ⟨j, hj, rfl⟩ := List.mem_map.1 hf
    rw [List.mem_range] at hj
    show 10 * j < r.count
    omega
  have h0 : 0 < r.count := by
    rcases Nat.eq_zero_or_pos r.count with h0 | h0
    · have := hR.last
      rw [h0, hR.first] at this
      rw [← this, hs.clock] at h2
      norm_num at h2
    · exact h0
  refine ⟨h0, h2, ?_, h4, fun hh => ?_⟩
  · obtain ⟨h5, h6⟩ := hR.passes (r.count - 1) (by omega)
    rw [show r.count - 1 + 1 = r.count by omega, hR.last] at h6
    rw [stepSimple_t h6]
    linarith
  · obtain ⟨f, hf, hfe⟩ := List.mem_map.1 hh
    have := h4 f hf
    omega

/-! ### How it ends -/

/-- `q` are the fields one step of `s` later: the midpoint rule with filtered rates. -/
def Advanced (g : Grid) (grav : ℝ) (F : Matrix (Fin g.np) (Fin g.np) ℝ) (s : Sim) (q : Fields) : Prop :=
  ∃ r r' : Fields, g.rhsSimple grav s.q = .ok r ∧ g.rhsSimple grav (Fields.axpy (s.dt / 2) (r.filtered F) s.q) = .ok r' ∧ q = Fields.axpy s.dt (r'.filtered F) s.q

/-- A pass on fields of the shape of the grid. -/
theorem step_outcome (h : Provisioned la eps ztol tol N m P g) (hw : ∃ e < 3 * m.K, m.bcType[e]? = some 3) (grav CFL H : ℝ) (F : Matrix (Fin g.np) (Fin g.np) ℝ) (s : Sim) (hq : s.q.Fits g) :
    ∃ q : Fields, q.Fits g ∧ Advanced g grav F s q ∧ ((∃ dt, g.stepSimple grav CFL H F s = .ok ⟨q, s.t + dt, dt⟩ ∧ g.dtSimple grav CFL q = .ok dt) ∨ g.stepSimple grav CFL H F s = .throws ∧ 1e8 < g.etaMax H q) := by
  obtain ⟨x, hg, -, hKe, -⟩ := h.spec
  rw [← hKe] at hw
  obtain ⟨Λ, d1, d2, d3, r, h1, -⟩ := hg.rhsSimple_ok grav s.q hq.1 hq.2.1 hq.2.2 hw
  obtain ⟨Λ2, d12, d22, d32, r2, h2, -⟩ := hg.rhsSimple_ok grav (Fields.axpy (0.5 * s.dt) (r.filtered F) s.q) hq.1 hq.2.1 hq.2.2 hw
  have hdt : ∀ q, ∃ dt, g.dtSimple grav CFL q = .ok dt := by
    intro q
    obtain ⟨fs, f1, -, -⟩ := flat_ok (g := g) ⟨3 * (g.N + 1), g.K, g.fscale⟩ ⟨rfl, rfl⟩
    obtain ⟨sM, sP, s1, -, -, -⟩ := hg.traces_ok ⟨g.np, g.K, fun i k => speed grav (q.at' i k)⟩ ⟨rfl, rfl⟩
    unfold Grid.dtSimple
    rw [f1]
    simp only [Out.bind_ok, s1, Out.pure_eq]
    exact ⟨_, rfl⟩
  refine ⟨Fields.axpy s.dt (r2.filtered F) s.q, hq, ⟨r, r2, h1, by rw [show s.dt / 2 = 0.5 * s.dt by ring]; exact h2, rfl⟩, ?_⟩
  obtain ⟨dt, hdt⟩ := hdt (Fields.axpy s.dt (r2.filtered F) s.q)
  unfold Grid.stepSimple
  rw [h1]
  simp only [Out.bind_ok, h2, hdt]
  have hnn : 0 ≤ g.etaMax H (Fields.axpy s.dt (r2.filtered F) s.q) := by
    unfold Grid.etaMax
    generalize hl : (List.range (g.np * g.K)).map (fun c => |(Fields.axpy s.dt (r2.filtered F) s.q).h.at' (c / g.K) (c % g.K) - H|) = l
    rcases eq_or_ne l [] with rfl | hne
    · unfold listMax; simp
    · have := (listMax_spec l hne).2
      rw [← hl] at this
      obtain ⟨c, -, hc⟩ := List.mem_map.1 this
      rw [← hl, ← hc]
      exact abs_nonneg _
  split_ifs with h3
  · rw [gt_iff_lt, abs_of_nonneg hnn] at h3
    exact Or.inr ⟨rfl, h3⟩
  · exact Or.inl ⟨dt, rfl, rfl⟩

/-- The fields of every state of a run have the shape of the grid, and the step size is that of the fields. -/
theorem ran_fits (h : Provisioned la eps ztol tol N m P g) (hw : ∃ e < 3 * m.K, m.bcType[e]? = some 3) {grav CFL H T : ℝ} {F : Matrix (Fin g.np) (Fin g.np) ℝ} {c : ℕ} {S : ℕ → Sim} (h0 : (S 0).q.Fits g)
    (hS : Passes Sim.t (g.stepSimple grav CFL H F) T c S) : ∀ j ≤ c, (S j).q.Fits g ∧ (0 < j → g.dtSimple grav CFL (S j).q = .ok (S j).dt) := by
  intro j
  induction j with
  | zero => exact fun _ => ⟨h0, fun h => absurd h (by omega)⟩
  | succ j ih =>
    intro hj
    obtain ⟨q, hq, -, ⟨dt, h1, h2⟩ | ⟨h1, -⟩⟩ := step_outcome h hw grav CFL H F (S j) (ih (by omega)).1
    · have := (hS j (by omega)).2
      rw [h1, Out.ok.injEq] at this
      rw [← this]
      exact ⟨hq, fun _ => h2⟩
    · have := (hS j (by omega)).2
      rw [h1] at this
      cases this

/-- **C143, outcomes.** On a mesh with a wall the program never does anything undefined, and it raises only if a pass lifts or lowers the surface at some node by more than 1e8. -/
theorem C143_outcomes (h : Provisioned la eps ztol tol N m P g) (hK : 0 < m.K) (hw : ∃ e < 3 * m.K, m.bcType[e]? = some 3) (n : ℕ) :
    ∃ (F : Matrix (Fin g.np) (Fin g.np) ℝ) (r : SimpleRun) (e : Left), g.filter (0.9 * g.N) g.N = .ok (fun i j => some (F i j)) ∧ g.mainSimple n = .ok (r, e) ∧ e ≠ .undefined ∧
      (e = .threw → ∃ q : Fields, Advanced g 9.81 F r.s q ∧ ∃ i < g.np, ∃ k < g.K, 1e8 < |q.h.at' i k - 10|) := by
  obtain ⟨F, s, S, r, e, hF, hs, h1, hR⟩ := C143_files h hK n
  have hf := (ran_fits h hw (by rw [hR.first]; exact hs.fits) hR.passes r.count le_rfl).1
  rw [hR.last] at hf
  obtain ⟨q, -, hq, hst⟩ := step_outcome h hw 9.81 0.65 10 F r.s hf
  refine ⟨F, r, e, hF, h1, fun he => ?_, fun he => ⟨q, hq, ?_⟩⟩
  · have h2 := (hR.undefined he).2
    rcases hst with ⟨dt, h3, -⟩ | ⟨h3, -⟩ <;> rw [h3] at h2 <;> cases h2
  · have h2 := (hR.threw he).2.1
    rcases hst with ⟨dt, h3, -⟩ | ⟨h3, h4⟩
    · rw [h3] at h2; cases h2
    · have hne : (List.range (g.np * g.K)).map (fun c => |q.h.at' (c / g.K) (c % g.K) - 10|) ≠ [] := by
        intro h0
        unfold Grid.etaMax at h4
        rw [h0] at h4
        unfold listMax at h4
        norm_num at h4
      have hmem := (listMax_spec _ hne).2
      obtain ⟨c, hc, hce⟩ := List.mem_map.1 hmem
      rw [List.mem_range] at hc
      have hk : 0 < g.K := Nat.pos_of_ne_zero fun h0 => by rw [h0] at hc; omega
      refine ⟨c / g.K, (Nat.div_lt_iff_lt_mul hk).2 hc, c % g.K, Nat.mod_lt _ hk, ?_⟩
      rw [hce]
      exact h4

/-- **C143, no wall.** On a mesh without wall faces the program writes the elevation at the start under number 0 and raises. -/
theorem C143_no_wall (h : Provisioned la eps ztol tol N m P g) (hK : 0 < m.K) (hw : ¬ ∃ e < 3 * m.K, m.bcType[e]? = some 3) (n : ℕ) (hn : 0 < n) :
    ∃ r f, g.mainSimple n = .ok (r, .threw) ∧ r.files = [(0, f)] ∧ ∀ i k, f.at' i k = bump (gridX (g.tri k) g.n i) (gridY (g.tri k) g.n i) := by
  obtain ⟨F, s, -, hs, h3⟩ := main_eq h hK
  obtain ⟨n, rfl⟩ : ∃ k, n = k + 1 := ⟨n - 1, by omega⟩
  have hst : g.stepSimple 9.81 0.65 10 F s = .throws := by
    unfold Grid.stepSimple
    rw [C82_no_wall h hw]
    rfl
  refine ⟨g.outputSimple 10 ⟨s, 0, []⟩, elevation g 10 s, ?_, ?_, fun i k => ?_⟩
  · rw [h3]
    unfold Grid.loopSimple
    rw [if_pos (by show s.t < 1000; rw [hs.clock]; norm_num)]
    have : (g.outputSimple 10 ⟨s, 0, []⟩).s = s := rfl
    simp only [this, hst]
  · rfl
  · show s.q.h.at' i k - 10 = _
    have := congrArg State.h (hs.state i k)
    simp only [Fields.at'] at this
    rw [this]
    ring

/-- **C143, the end.** If the water stays deeper than zero, waves and current together never get faster than `c` at a face node, and `R` bounds the ratios of face length to area, then the loop is left within `T/δ + 1` passes, `δ` being the Courant step of these
bounds. -/
theorem C143_ends (h : Provisioned la eps ztol tol N m P g) (hK : 0 < m.K) (hw : ∃ e < 3 * m.K, m.bcType[e]? = some 3) {grav CFL H T c R : ℝ} (hgr : 0 < grav) (hC : 0 < CFL) (hc : 0 < c) (hT0 : 0 ≤ T) (F : Matrix (Fin g.np) (Fin g.np) ℝ)
    (hR : ∀ e < 3 * g.K, faceLen g e / area g (e / 3) ≤ R) (n : ℕ) (s : Sim) (hs : s.q.Fits g) (ht : s.t = 0) (r : SimpleRun) (e : Left) (S : ℕ → Sim) (hran : Ran g grav CFL H T F n s r e S)
    (hslow : ∀ j ≤ r.count, Wet g (S j).q ∧ ∀ e < 3 * g.K, ∀ i ≤ g.N, speed grav (inner g (S j).q e i) ≤ c) (hn : T / (CFL / ((g.N + 1) ^ 2 / 2 * (c * R))) + 1 < n) : e ≠ .goingOn := by
  intro he
  obtain ⟨hcount, -⟩ := hran.goingOn he
  obtain ⟨x, hg, -, hKe, -⟩ := h.spec
  have hK' : 0 < g.K := by omega
  have hR0 : 0 < R := lt_of_lt_of_le (by rw [← hg.fscale_geo (e := 0) (i := 0) (by omega) (by omega)]; exact hg.fscale_pos (by omega) (by omega)) (hR 0 (by omega))
  obtain ⟨δ, hδ⟩ : ∃ δ, δ = CFL / ((g.N + 1) ^ 2 / 2 * (c * R)) := ⟨_, rfl⟩
  have hδ0 : 0 < δ := by rw [hδ]; positivity
  rw [← hδ] at hn
  have hfit := ran_fits h hw (by rw [hran.first]; exact hs) hran.passes
  have hlow : ∀ j ≤ r.count, 0 < j → δ ≤ (S j).dt := by
    intro j hj h0
    obtain ⟨f1, f2⟩ := hfit j hj
    obtain ⟨w1, w2⟩ := hslow j hj
    obtain ⟨dt, h1, h2, -, e, he, i, hi, heq⟩ := C83_simple h hK grav CFL hgr hC (S j).q f1 w1
    obtain rfl : (S j).dt = dt := by rw [f2 h0] at h1; injection h1
    rw [hδ, div_le_iff₀ (by positivity), ← heq, mul_assoc]
    have h5 : 0 < faceLen g e / area g (e / 3) := by rw [← hg.fscale_geo he hi]; exact hg.fscale_pos he hi
    have h6 := w2 e he i hi
    have h7 := hR e he
    have h8 : 0 ≤ speed grav (inner g (S j).q e i) := by unfold speed; positivity
    gcongr
  have hclock : ∀ j ≤ r.count, (j : ℝ) * δ ≤ (S j).t := by
    intro j
    induction j with
    | zero => intro _; rw [hran.first, ht]; simp
    | succ j ih =>
      intro hj
      have h1 := ih (by omega)
      have h2 := stepSimple_t (hran.passes j (by omega)).2
      have h3 := hlow (j + 1) hj (by omega)
      rw [h2]
      push_cast
      linarith
  have hT : (0 : ℝ) < r.count := by
    rcases Nat.eq_zero_or_pos r.count with h0 | h0
    · exfalso
      rw [← hcount, h0] at hn
      have : 0 ≤ T / δ := by positivity
      simp at hn
      linarith
    · exact_mod_cast h0
  have hpos : 0 < r.count := by exact_mod_cast hT
  have h1 := hclock (r.count - 1) (by omega)
  have h2 := (hran.passes (r.count - 1) (by omega)).1
  rw [hcount] at h1 h2
  rw [Nat.cast_sub (by omega), Nat.cast_one] at h1
  have : (T / δ + 1 - 1) * δ < ((n : ℝ) - 1) * δ := by
    apply mul_lt_mul_of_pos_right _ hδ0
    linarith
  rw [add_sub_cancel_right, div_mul_cancel₀ _ hδ0.ne'] at this
  linarith

/-- Water of depth `d` at rest, at every node. -/
def Still (g : Grid) (d : ℝ) (q : Fields) : Prop := ∀ i < g.np, ∀ k < g.K, q.at' i k = ⟨d, 0, 0⟩

theorem inPlace_vanish {n K : ℕ} (F : Matrix (Fin n) (Fin n) ℝ) (u : ℕ → ℕ → ℝ) (hu : ∀ i < n, ∀ k < K, u i k = 0) : ∀ i < n, ∀ k < K, filterInPlace F u i k = 0 := by
  unfold filterInPlace
  generalize List.finRange n = l
  induction l generalizing u with
  | nil => exact hu
  | cons a l ih =>
    rw [List.foldl_cons]
    refine ih _ fun i hi k hk => ?_
    unfold filterRow
    split_ifs
    · exact Finset.sum_eq_zero fun j _ => by rw [hu j j.2 k hk, mul_zero]
    · exact hu i hi k hk

theorem still_axpy {d c : ℝ} {F : Matrix (Fin g.np) (Fin g.np) ℝ} {q r : Fields} (hq : Still g d q) (hr : ∀ i < g.np, ∀ k < g.K, r.at' i k = ⟨0, 0, 0⟩) : Still g d (Fields.axpy c (r.filtered F) q) := by
  intro i hi k hk
  have h1 := inPlace_vanish F r.h.at' (K := g.K) (fun i hi k hk => congrArg State.h (hr i hi k hk)) i hi k hk
  have h2 := inPlace_vanish F r.hu.at' (K := g.K) (fun i hi k hk => congrArg State.hu (hr i hi k hk)) i hi k hk
  have h3 := inPlace_vanish F r.hv.at' (K := g.K) (fun i hi k hk => congrArg State.hv (hr i hi k hk)) i hi k hk
  rw [← hq i hi k hk]
  simp only [Fields.at', Fields.axpy, Fields.filtered, h1, h2, h3, mul_zero, add_zero]

/-- **C143, water at rest.** Started from water of any depth at rest, within 1e8 of the level `H`, on a mesh with a wall and with any filter, the loop is left because the final time is reached, within the number of passes of `C143_ends`; the water is still at rest,
and so it is in all files. -/
theorem C143_rest (h : Provisioned la eps ztol tol N m P g) (hK : 0 < m.K) (hw : ∃ e < 3 * m.K, m.bcType[e]? = some 3) {grav CFL H T d R : ℝ} (hgr : 0 < grav) (hC : 0 < CFL) (hT0 : 0 ≤ T) (hd : 0 < d) (hH : |d - H| ≤ 1e8)
    (F : Matrix (Fin g.np) (Fin g.np) ℝ) (hR : ∀ e < 3 * g.K, faceLen g e / area g (e / 3) ≤ R) (s : Sim) (hs : s.q.Fits g) (ht : s.t = 0) (hq : Still g d s.q) (n : ℕ) (hn : T / (CFL / ((g.N + 1) ^ 2 / 2 * (√(grav * d) * R))) + 1 < n) :
    ∃ r, g.loopSimple grav CFL H T F n ⟨s, 0, []⟩ = (r, .finished) ∧ Still g d r.s.q ∧ T ≤ r.s.t ∧ ∀ f ∈ r.files, ∀ i < g.np, ∀ k < g.K, f.2.at' i k = d - H := by
  obtain ⟨x, hg, -, hKe, -⟩ := h.spec
  obtain ⟨S, hS⟩ := loop_ran (g := g) grav CFL H T F n 0 (fun _ => s) (fun j hj => by omega) ⟨s, 0, []⟩ rfl rfl rfl
  rw [zero_add] at hS
  obtain ⟨⟨r, e⟩, hre⟩ : ∃ p, p = g.loopSimple grav CFL H T F n ⟨s, 0, []⟩ := ⟨_, rfl⟩
  rw [← hre] at hS ⊢
  simp only at hS
  have hstep : ∀ s : Sim, s.q.Fits g → Still g d s.q → ∃ s', g.stepSimple grav CFL H F s = .ok s' ∧ Still g d s'.q := by
    intro s hs hq
    obtain ⟨r1, h1, h2⟩ := C81_rest h hw grav s.q hs d hd hq
    have hq1 := still_axpy (c := 0.5 * s.dt) (F := F) hq h2
    obtain ⟨r2, h3, h4⟩ := C81_rest h hw grav (Fields.axpy (0.5 * s.dt) (r1.filtered F) s.q) hs d hd hq1
    have hq2 := still_axpy (c := s.dt) (F := F) hq h4
    obtain ⟨dt, h5, -⟩ := C83_simple h hK grav CFL hgr hC (Fields.axpy s.dt (r2.filtered F) s.q) hs (fun i hi k hk => by
      have := congrArg State.h (hq2 i hi k hk)
      simp only [Fields.at'] at this
      rw [this]; exact hd)
    refine ⟨⟨Fields.axpy s.dt (r2.filtered F) s.q, s.t + dt, dt⟩, ?_, hq2⟩
    unfold Grid.stepSimple
    rw [h1]
    simp only [Out.bind_ok, h3, h5]
    rw [if_neg]
    · rfl
    · have hmem : g.etaMax H (Fields.axpy s.dt (r2.filtered F) s.q) = |d - H| := by
        have hpos : 0 < g.np * g.K := Nat.mul_pos (Nat.lt_of_le_of_lt (Nat.zero_le _) (hg.maskLt 0 (by omega) 0 (Nat.zero_le _))) (by omega)
        have hne : (List.range (g.np * g.K)).map (fun c => |(Fields.axpy s.dt (r2.filtered F) s.q).h.at' (c / g.K) (c % g.K) - H|) ≠ [] := by
          intro h0
          have := congrArg List.length h0
          rw [List.length_map, List.length_range, List.length_nil] at this
          omega
        obtain ⟨c, hc, hce⟩ := List.mem_map.1 (listMax_spec _ hne).2
        rw [List.mem_range] at hc
        unfold Grid.etaMax
        rw [← hce]
        have hk : 0 < g.K := by omega
        have := congrArg State.h (hq2 (c / g.K) ((Nat.div_lt_iff_lt_mul hk).2 hc) (c % g.K) (Nat.mod_lt _ hk))
        simp only [Fields.at'] at this
        rw [this]
      rw [hmem, abs_abs]
      linarith
  have hstill : ∀ j ≤ r.count, Still g d (S j).q := by
    intro j
    induction j with
    | zero => intro _; rw [hS.first]; exact hq
    | succ j ih =>
      intro hj
      obtain ⟨s', h1, h2⟩ := hstep (S j) (ran_fits h hw (by rw [hS.first]; exact hs) hS.passes j (by omega)).1 (ih (by omega))
      have := (hS.passes j (by omega)).2
      rw [h1, Out.ok.injEq] at this
      rw [← this]
      exact h2
  have hlast := hstill r.count le_rfl
  rw [hS.last] at hlast
  have hfit := (ran_fits h hw (by rw [hS.first]; exact hs) hS.passes r.count le_rfl).1
  rw [hS.last] at hfit
  obtain ⟨s', hs', -⟩ := hstep r.s hfit hlast
  have hfin : e = .finished := by
    cases e with
    | finished => rfl
    | threw => have := (hS.threw rfl).2.1; rw [hs'] at this; cases this
    | undefined => have := (hS.undefined rfl).2; rw [hs'] at this; cases this
    | goingOn =>
      exfalso
      refine C143_ends h hK hw hgr hC (c := √(grav * d)) (Real.sqrt_pos.2 (mul_pos hgr hd)) hT0 F hR n s hs ht r _ S hS (fun j hj => ⟨fun i hi k hk => ?_, fun e he i hi => ?_⟩) hn rfl
      · have := congrArg State.h (hstill j hj i hi k hk)
        simp only [Fields.at'] at this
        rw [this]; exact hd
      · have : inner g (S j).q e i = ⟨d, 0, 0⟩ := hstill j hj _ (hg.maskLt (e % 3) (by omega) i hi) (e / 3) (by omega)
        rw [this]
        unfold speed
        simp
  subst hfin
  obtain ⟨f1, f2⟩ := hS.finished rfl
  refine ⟨r, rfl, hlast, f1, fun f hf i hi k hk => ?_⟩
  rw [f2] at hf
  obtain ⟨j, hj, rfl⟩ := List.mem_map.1 hf
  rw [List.mem_range] at hj
  show (S (10 * j)).q.h.at' i k - H = d - H
  have := congrArg State.h (hstill (10 * j) (by omega) i hi k hk)
  simp only [Fields.at'] at this
  rw [this]

/-- The unit square of two triangles with four walls: the program starts and writes its first file, and from water at rest the loop runs to the end. -/
example : ∃ g, Provisioned Nodes1D.exactLapack (1 / 2 ^ 52) 1e-10 1e-5 1 square twoTri g ∧ (∃ r e, g.mainSimple 1 = .ok (r, e) ∧ e ≠ .undefined) ∧
    ∃ (n : ℕ) (r : SimpleRun), g.loopSimple 9.81 0.65 10 1000 1 n ⟨⟨⟨⟨g.np, g.K, fun _ _ => 10⟩, ⟨g.np, g.K, fun _ _ => 0⟩, ⟨g.np, g.K, fun _ _ => 0⟩⟩, 0, 1⟩, 0, []⟩ = (r, .finished) ∧ 1000 ≤ r.s.t := by
  obtain ⟨g, hg, -⟩ := square_grid
  have hw : ∃ e < 3 * square.K, square.bcType[e]? = some 3 := ⟨0, by decide, rfl⟩
  obtain ⟨R, hR⟩ : ∃ R, ∀ e < 3 * g.K, faceLen g e / area g (e / 3) ≤ R := by
    obtain ⟨R, hR⟩ := ((Finset.range (3 * g.K)).image fun e => faceLen g e / area g (e / 3)).bddAbove
    exact ⟨R, fun e he => hR (Finset.mem_coe.2 (Finset.mem_image.2 ⟨e, Finset.mem_range.2 he, rfl⟩))⟩
  obtain ⟨n, hn⟩ := exists_nat_gt (1000 / (0.65 / (((g.N : ℝ) + 1) ^ 2 / 2 * (√(9.81 * 10) * R))) + 1)
  obtain ⟨-, r, e, -, h1, h2, -⟩ := C143_outcomes hg (by decide) hw 1
  obtain ⟨r', h3, -, h4, -⟩ := C143_rest hg (by decide) hw (grav := 9.81) (CFL := 0.65) (H := 10) (T := 1000) (d := 10) (R := R) (by norm_num) (by norm_num) (by norm_num) (by norm_num) (by norm_num) 1 hR
    ⟨⟨⟨g.np, g.K, fun _ _ => 10⟩, ⟨g.np, g.K, fun _ _ => 0⟩, ⟨g.np, g.K, fun _ _ => 0⟩⟩, 0, 1⟩ ⟨⟨rfl, rfl⟩, ⟨rfl, rfl⟩, rfl, rfl⟩ rfl (fun _ _ _ _ => rfl) n hn
  exact ⟨g, hg, ⟨r, e, h1, h2⟩, n, r', h3, h4⟩

end Blitzdg.SW
