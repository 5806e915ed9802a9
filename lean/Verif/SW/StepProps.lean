import Verif.SW.InPlaceProps

/-! C83 - C87: step size, clock, mass over a run, memory of the second stage, sponge. -/

namespace Blitzdg.SW

open Blitzdg.Nodes1D (Lapack)
open Blitzdg.Sparse (DMat)
open Blitzdg.Dense (toMat)
open Blitzdg.DG2D
open Blitzdg.Blitz

variable {la : Lapack} {eps ztol tol : ℝ} {N : ℕ} {m : Mesh} {P : ℕ → ℕ} {x : List ℝ} {bt : List Int} {g : Grid}

theorem listMax_spec (l : List ℝ) (h : l ≠ []) : (∀ y ∈ l, y ≤ listMax l) ∧ listMax l ∈ l := by
  unfold listMax
  have h1 := foldl_max_ge (fun y : ℝ => y) l (l.getD 0 0)
  have h2 := foldl_max_mem (fun y : ℝ => y) l (l.getD 0 0)
  refine ⟨fun y hy => h1.2 y hy, ?_⟩
  rcases h2 with h2 | ⟨y, hy, h2⟩
  · rw [h2]
    cases l with
    | nil => exact absurd rfl h
    | cons a l => simp
  · rw [h2]; exact hy

/-! ### C83: step size -/

/-- Area of element `k`. -/
noncomputable def area (g : Grid) (k : ℕ) : ℝ := cross (g.tri k) / 2

theorem GridSpec.fscale_geo (hg : GridSpec P x bt g) {e i : ℕ} (he : e < 3 * g.K) (hi : i ≤ g.N) :
    g.fscale (e % 3 * (g.N + 1) + i) (e / 3) = faceLen g e / area g (e / 3) := by
  have hc := hg.ccw (e / 3) (by omega)
  rw [hg.fscale_eq (e % 3) i (e / 3) (by omega) hi, nrm_len _ _ (by omega)]
  unfold faceLen area
  field_simp
  ring

theorem GridSpec.fscale_pos (hg : GridSpec P x bt g) {e i : ℕ} (he : e < 3 * g.K) (hi : i ≤ g.N) : 0 < g.fscale (e % 3 * (g.N + 1) + i) (e / 3) := by
  have hc := hg.ccw (e / 3) (by omega)
  rw [hg.fscale_eq (e % 3) i (e / 3) (by omega) hi]
  have := nrm_pos hc (e % 3)
  unfold len
  have h := Real.sqrt_pos.2 this
  positivity

/-- The step size is the largest for which the Courant number of every face node is at most `CFL`. -/
def StepSize (g : Grid) (grav CFL : ℝ) (q : Fields) (dt : ℝ) : Prop :=
  0 < dt ∧
  (∀ e < 3 * g.K, ∀ i ≤ g.N, dt * ((g.N + 1) ^ 2 / 2) * (speed grav (inner g q e i) * (faceLen g e / area g (e / 3))) ≤ CFL) ∧
  ∃ e < 3 * g.K, ∃ i ≤ g.N, dt * ((g.N + 1) ^ 2 / 2) * (speed grav (inner g q e i) * (faceLen g e / area g (e / 3))) = CFL

theorem GridSpec.stepSize (hg : GridSpec P x bt g) (hK : 0 < g.K) {grav CFL : ℝ} (hgr : 0 < grav) (hC : 0 < CFL) (q : Fields) (hw : Wet g q) (l : List ℝ) (hl : l.length = g.nf)
    (hv : ∀ e < 3 * g.K, ∀ i ≤ g.N, l.getD (g.fn e i) 0 = g.fscale (e % 3 * (g.N + 1) + i) (e / 3) * speed grav (inner g q e i)) :
    StepSize g grav CFL q (CFL / ((g.N + 1) * (g.N + 1) * 0.5 * listMax l)) := by
  have hne : l ≠ [] := by
    intro h
    have := fn_lt (g := g) (e := 0) (i := 0) (by omega) (by omega)
    rw [h] at hl
    simp at hl
    omega
  obtain ⟨h1, h2⟩ := listMax_spec l hne
  have hsp : ∀ e < 3 * g.K, ∀ i ≤ g.N, 0 < speed grav (inner g q e i) := by
    intro e he i hi
    have := hw _ (hg.maskLt (e % 3) (by omega) i hi) (e / 3) (by omega)
    unfold speed
    have h3 : 0 < √(grav * (inner g q e i).h) := Real.sqrt_pos.2 (mul_pos hgr this)
    positivity
  obtain ⟨c, hc, hce⟩ := List.mem_iff_getElem.1 h2
  obtain ⟨e0, i0, he0, hi0, rfl⟩ := fn_surj (g := g) (by rw [← hl]; exact hc)
  have hmax : listMax l = g.fscale (e0 % 3 * (g.N + 1) + i0) (e0 / 3) * speed grav (inner g q e0 i0) := by
    rw [← hv e0 he0 i0 hi0, ← hce, List.getD_eq_getElem _ _ hc]
  have hpos : 0 < listMax l := by rw [hmax]; exact mul_pos (hg.fscale_pos he0 hi0) (hsp e0 he0 i0 hi0)
  have hN : (0 : ℝ) < (g.N + 1) * (g.N + 1) * 0.5 := by positivity
  refine ⟨by positivity, fun e he i hi => ?_, e0, he0, i0, hi0, ?_⟩
  · have hle : g.fscale (e % 3 * (g.N + 1) + i) (e / 3) * speed grav (inner g q e i) ≤ listMax l := by
      rw [← hv e he i hi]
      have : g.fn e i < l.length := by rw [hl]; exact fn_lt he hi
      rw [List.getD_eq_getElem _ _ this]
      exact h1 _ (List.getElem_mem _)
    rw [hg.fscale_geo he hi] at hle
    rw [div_mul_eq_mul_div, div_mul_eq_mul_div, div_le_iff₀ (by positivity)]
    have : (0 : ℝ) ≤ CFL * ((g.N + 1) ^ 2 / 2) := by positivity
    nlinarith [mul_le_mul_of_nonneg_left hle this]
  · rw [← hg.fscale_geo he0 hi0, mul_comm (speed _ _), ← hmax]
    field_simp
    norm_num

/-- **C83, src/sw2d-simple.** On every grid and for every wet state the step size is computed without reading outside an array, positive, and the largest respecting the Courant condition at every
face node. -/
theorem C83_simple (h : Provisioned la eps ztol tol N m P g) (hK : 0 < m.K) (grav CFL : ℝ) (hgr : 0 < grav) (hC : 0 < CFL) (q : Fields) (_hq : q.Fits g) (hw : Wet g q) :
    ∃ dt, g.dtSimple grav CFL q = .ok dt ∧ StepSize g grav CFL q dt := by
  obtain ⟨x, hg, -, hKe, -⟩ := h.spec
  obtain ⟨fs, f1, f2, f3⟩ := flat_ok (g := g) ⟨3 * (g.N + 1), g.K, g.fscale⟩ ⟨rfl, rfl⟩
  obtain ⟨sM, sP, s1, s2, -, s3⟩ := hg.traces_ok ⟨g.np, g.K, fun i k => speed grav (q.at' i k)⟩ ⟨rfl, rfl⟩
  refine ⟨_, ?_, hg.stepSize (by omega) hgr hC q hw ((List.range g.nf).map fun c => |fs.getD c 0| * sM.getD c 0) (by simp) ?_⟩
  · unfold Grid.dtSimple
    rw [f1]
    simp only [Out.bind_ok, s1, Out.pure_eq]
  · intro e he i hi
    have hlt := fn_lt (g := g) he hi
    rw [List.getD_eq_getElem _ _ (by simpa using hlt)]
    simp only [List.getElem_map, List.getElem_range]
    rw [List.getD_eq_getElem?_getD, List.getD_eq_getElem?_getD, f3 e he i hi, (s3 e he i hi).1]
    simp only [Option.getD_some]
    rw [abs_of_pos (hg.fscale_pos he hi)]
    rfl

/-- **C83, src/sw2d.** The same for `computeTimeStep`. -/
theorem C83_full (h : Provisioned la eps ztol tol N m P g) (hK : 0 < m.K) (grav CFL : ℝ) (hgr : 0 < grav) (hC : 0 < CFL) (q : Fields) (hq : q.Fits g) (hw : Wet g q) :
    ∃ dt, g.dtFull grav CFL q = .ok dt ∧ StepSize g grav CFL q dt := by
  obtain ⟨x, hg, -, hKe, -⟩ := h.spec
  obtain ⟨fs, f1, f2, f3⟩ := flat_ok (g := g) ⟨3 * (g.N + 1), g.K, g.fscale⟩ ⟨rfl, rfl⟩
  obtain ⟨uM, uP, u1, -, -, u3⟩ := hg.traces_ok ⟨g.np, g.K, fun i k => q.hu.at' i k / q.h.at' i k⟩ ⟨rfl, rfl⟩
  obtain ⟨vM, vP, v1, -, -, v3⟩ := hg.traces_ok ⟨g.np, g.K, fun i k => q.hv.at' i k / q.h.at' i k⟩ ⟨rfl, rfl⟩
  obtain ⟨hM, hP, h1, -, -, h3⟩ := hg.traces_ok q.h hq.1
  refine ⟨_, ?_, hg.stepSize (by omega) hgr hC q hw ((List.range g.nf).map fun c =>
    fs.getD c 0 * (√(uM.getD c 0 * uM.getD c 0 + vM.getD c 0 * vM.getD c 0) + √(grav * hM.getD c 0))) (by simp) ?_⟩
  · unfold Grid.dtFull
    rw [f1]
    simp only [Out.bind_ok, u1, v1, h1, Out.pure_eq]
  · intro e he i hi
    have hlt := fn_lt (g := g) he hi
    rw [List.getD_eq_getElem _ _ (by simpa using hlt)]
    simp only [List.getElem_map, List.getElem_range]
    simp only [List.getD_eq_getElem?_getD, f3 e he i hi, (u3 e he i hi).1, (v3 e he i hi).1, (h3 e he i hi).1]
    simp only [Option.getD_some]
    rfl

example : ∃ g q dt, Provisioned Nodes1D.exactLapack (1 / 2 ^ 52) 1e-10 1e-5 1 square twoTri g ∧ g.dtSimple 9.81 0.65 q = .ok dt ∧ StepSize g 9.81 0.65 q dt := by
  obtain ⟨g, hg, -⟩ := square_grid
  obtain ⟨dt, h1, h2⟩ := C83_simple hg (by decide) 9.81 0.65 (by norm_num) (by norm_num) (flow g) ⟨⟨rfl, rfl⟩, ⟨rfl, rfl⟩, rfl, rfl⟩ (fun _ _ _ _ => by show (0 : ℝ) < 1; norm_num)
  exact ⟨g, _, dt, hg, h1, h2⟩

/-! ### C84: the clock of src/sw2d-simple -/

theorem stepSimple_t {grav CFL H : ℝ} {F : Matrix (Fin g.np) (Fin g.np) ℝ} {s s' : Sim} (h : g.stepSimple grav CFL H F s = .ok s') : s'.t = s.t + s'.dt := by
  unfold Grid.stepSimple at h
  cases h1 : g.rhsSimple grav s.q with
  | ok r =>
    rw [h1] at h
    simp only [Out.bind_ok] at h
    cases h2 : g.rhsSimple grav (Fields.axpy (0.5 * s.dt) (r.filtered F) s.q) with
    | ok r2 =>
      rw [h2] at h
      simp only [Out.bind_ok] at h
      split_ifs at h with h3
      cases h4 : g.dtSimple grav CFL (Fields.axpy s.dt (r2.filtered F) s.q) with
      | ok dt =>
        rw [h4] at h
        simp only [Out.bind_ok, Out.pure_eq, Out.ok.injEq] at h
        rw [← h]
      | throws => rw [h4] at h; cases h
      | ub => rw [h4] at h; cases h
    | throws => rw [h2] at h; cases h
    | ub => rw [h2] at h; cases h
  | throws => rw [h1] at h; cases h
  | ub => rw [h1] at h; cases h

/-- **C84.** In a run of any number of passes, pass `j` advances the fields by the step `(S j).dt`, but the clock by the step of the next pass.  So after `n` passes the clock has run ahead of the sum
of the steps taken by exactly the difference of the last and the first step size, and is right only if these are equal. -/
theorem C84_clock (grav CFL H : ℝ) (F : Matrix (Fin g.np) (Fin g.np) ℝ) (S : ℕ → Sim) (n : ℕ) (hS : ∀ j < n, g.stepSimple grav CFL H F (S j) = .ok (S (j + 1))) :
    (S n).t - (S 0).t = ∑ j ∈ Finset.range n, (S j).dt + ((S n).dt - (S 0).dt) := by
  induction n with
  | zero => simp
  | succ n ih =>
    have h1 := ih fun j hj => hS j (by omega)
    have h2 := stepSimple_t (hS n (by omega))
    rw [Finset.sum_range_succ]
    linarith

/-- **C84, blow-up.** A pass that returns leaves surface elevations of at most 1e8 in magnitude at every node. -/
theorem C84_bounded (grav CFL H : ℝ) (F : Matrix (Fin g.np) (Fin g.np) ℝ) {s s' : Sim} (h : g.stepSimple grav CFL H F s = .ok s') {i k : ℕ} (hi : i < g.np) (hk : k < g.K) :
    |s'.q.h.at' i k - H| ≤ 1e8 := by
  unfold Grid.stepSimple at h
  obtain ⟨r, -, h⟩ := Out.bind_eq_ok.1 h
  obtain ⟨r2, -, h⟩ := Out.bind_eq_ok.1 h
  simp only at h
  split_ifs at h with h3
  obtain ⟨dt, -, h⟩ := Out.bind_eq_ok.1 h
  simp only [Out.pure_eq, Out.ok.injEq] at h
  rw [← h]
  have hlt : i * g.K + k < g.np * g.K := by
    have : (i + 1) * g.K ≤ g.np * g.K := Nat.mul_le_mul_right _ hi
    rw [add_mul, one_mul] at this
    omega
  refine le_trans ((listMax_spec _ ?_).1 _ (List.mem_map.2 ⟨i * g.K + k, List.mem_range.2 hlt, ?_⟩)) ((le_abs_self _).trans (not_lt.1 h3))
  · intro h0
    have := congrArg List.length h0
    simp at this
    omega
  · rw [mul_comm, Nat.mul_add_div (by omega), Nat.div_eq_of_lt hk, add_zero, Nat.mul_add_mod, Nat.mod_eq_of_lt hk]

/-! ### C85: mass over a run -/

theorem isTotal_axpy {u v : ℕ → ℕ → ℝ} {M L : ℝ} (c : ℝ) (hu : IsTotal g u M) (hv : IsTotal g v L) : IsTotal g (fun i k => u i k + c * v i k) (M + c * L) := by
  obtain ⟨p, h1, rfl⟩ := hu
  obtain ⟨q, h2, rfl⟩ := hv
  refine ⟨fun k => p k + MvPolynomial.C c * q k, fun k hk => ⟨triSpace_add (h1 k hk).1 (triSpace_smul c (h2 k hk).1), fun i hi => ?_⟩, ?_⟩
  · rw [nodal_add, nodal_smul, (h1 k hk).2 i hi, (h2 k hk).2 i hi]
  · rw [Finset.mul_sum, ← Finset.sum_add_distrib]
    apply Finset.sum_congr rfl
    intro k _
    rw [(triModal g.N).add, (triModal g.N).smul]
    ring

theorem filterRow_one {n : ℕ} (u : ℕ → ℕ → ℝ) (i : Fin n) : filterRow 1 u i = u := by
  funext a k
  unfold filterRow
  split_ifs with h
  · rw [Finset.sum_eq_single i]
    · rw [h]; simp
    · intro b _ hb
      rw [Matrix.one_apply_ne (Ne.symm hb), zero_mul]
    · simp
  · rfl

theorem inPlace_one {n : ℕ} (u : ℕ → ℕ → ℝ) : filterInPlace (1 : Matrix (Fin n) (Fin n) ℝ) u = u := by
  unfold filterInPlace
  generalize List.finRange n = l
  induction l with
  | nil => rfl
  | cons a l ih => rw [List.foldl_cons, filterRow_one, ih]

/-- One pass with a filter whose assignment keeps totals. -/
theorem step_mass (h : Provisioned la eps ztol tol N m P g) (hw : ∀ e < 3 * m.K, m.bcType[e]? = some 3 ↔ P e = e) (hw1 : ∃ e < 3 * m.K, P e = e)
    (grav CFL H : ℝ) (F : Matrix (Fin g.np) (Fin g.np) ℝ) (hF : ∀ u M, IsTotal g u M → IsTotal g (filterInPlace F u) M) {s s' : Sim} (hq : s.q.Fits g)
    (hs : g.stepSimple grav CFL H F s = .ok s') {M : ℝ} (hM : IsTotal g s.q.h.at' M) : s'.q.Fits g ∧ IsTotal g s'.q.h.at' M := by
  obtain ⟨x, hg, -, hK, -⟩ := h.spec
  rw [← hK] at hw hw1
  obtain ⟨e, he, hP⟩ := hw1
  have hmass := fun q hq => hg.mass hw ⟨e, he, (hw e he).2 hP⟩ grav q hq
  obtain ⟨r, h1, hf, -⟩ := hmass s.q hq
  unfold Grid.stepSimple at hs
  rw [h1] at hs
  simp only [Out.bind_ok] at hs
  have hq1 : (Fields.axpy (0.5 * s.dt) (r.filtered F) s.q).Fits g := hq
  obtain ⟨r2, h2, hf2, ht2⟩ := hmass _ hq1
  rw [h2] at hs
  simp only [Out.bind_ok] at hs
  split_ifs at hs with h3
  cases h4 : g.dtSimple grav CFL (Fields.axpy s.dt (r2.filtered F) s.q) with
  | ok dt =>
    rw [h4] at hs
    simp only [Out.bind_ok, Out.pure_eq, Out.ok.injEq] at hs
    rw [← hs]
    refine ⟨hq, ?_⟩
    have := isTotal_axpy s.dt hM (hF _ _ ht2)
    rw [mul_zero, add_zero] at this
    exact this
  | throws => rw [h4] at hs; cases hs
  | ub => rw [h4] at hs; cases hs

/-- **C85, what remains true of the program.** With a cut-off above the order (no damping) a run of any number of passes keeps the total depth.  Missing from the full statement: the filters that damp,
among them the one the program uses, for which `C85_in_place` shows that mass is not conserved.  (Runs in which the depth becomes zero or negative somewhere are outside the model.) -/
theorem C85_run_partial (h : Provisioned la eps ztol tol N m P g) (hw : ∀ e < 3 * m.K, m.bcType[e]? = some 3 ↔ P e = e) (hw1 : ∃ e < 3 * m.K, P e = e)
    (Nc : ℝ) (hNc : (N : ℝ) < Nc) (sx : ℤ) :
    ∃ F : Matrix (Fin g.np) (Fin g.np) ℝ, g.filter Nc sx = .ok (fun i j => some (F i j)) ∧
      ∀ (grav CFL H : ℝ) (n : ℕ) (s s' : Sim) (M : ℝ), s.q.Fits g → IsTotal g s.q.h.at' M → g.runSimple grav CFL H F n s = .ok s' → IsTotal g s'.q.h.at' M := by
  obtain ⟨x, hg, hN, -, -⟩ := h.spec
  have hu := hg.unisolvent
  rw [← hg.vand] at hu
  refine ⟨1, C39_identity g.N Nc sx (by rw [hN]; exact hNc) _ _ hu, fun grav CFL H n s s' M hq hM hr => ?_⟩
  suffices ∀ n s', g.runSimple grav CFL H 1 n s = .ok s' → s'.q.Fits g ∧ IsTotal g s'.q.h.at' M from (this n s' hr).2
  intro n
  induction n with
  | zero =>
    intro s' hr
    unfold Grid.runSimple at hr
    simp only [Out.ok.injEq] at hr
    exact hr ▸ ⟨hq, hM⟩
  | succ n ih =>
    intro s' hr
    unfold Grid.runSimple at hr
    cases h1 : g.runSimple grav CFL H 1 n s with
    | ok s1 =>
      rw [h1] at hr
      simp only [Out.bind_ok] at hr
      obtain ⟨a, b⟩ := ih s1 h1
      exact step_mass h hw hw1 grav CFL H 1 (fun u M hu => by rw [inPlace_one]; exact hu) a hr b
    | throws => rw [h1] at hr; cases hr
    | ub => rw [h1] at hr; cases hr

/-! ### C86: the memory of the second stage in src/sw2d -/

/-- No sponge. -/
def noSponge : DMat ℝ := ⟨0, 0, fun _ _ => 0⟩

theorem sponged_none (q : Fields) : q.sponged noSponge = q := by
  unfold Fields.sponged sponge noSponge
  simp

/-- `q` moved by `c` times the constant rate `R`. -/
def Moved (c : ℝ) (R q q' : Fields) : Prop := ∀ i k, q'.at' i k = ⟨q.h.at' i k + c * R.h.at' i k, q.hu.at' i k + c * R.hu.at' i k, q.hv.at' i k + c * R.hv.at' i k⟩

/-- **C86, intended.** With separate memory for the two sets of fields, one pass with a constant rate of change moves the fields by `dt` times the rate. -/
theorem C86_separate (R : Fields) (dt : ℝ) (a b : ℕ) (hab : a ≠ b) (σ : Store) :
    ∃ σ', stepFull (fun _ => .ok R) dt noSponge a b σ = .ok σ' ∧ Moved dt R (σ a) (σ' a) := by
  refine ⟨_, rfl, fun i k => ?_⟩
  simp only [Store.set, sponged_none, Fields.combine, Fields.axpy, Fields.at', if_pos, if_neg hab]
  norm_num
  refine ⟨?_, ?_, ?_⟩ <;> ring

/-- **C86, as written.** The program's copy shares the memory, and one pass with a constant rate moves the fields by one and a half times `dt` times the rate. -/
theorem C86_shared (R : Fields) (dt : ℝ) (a : ℕ) (σ : Store) :
    ∃ σ', stepSw2d (fun _ => .ok R) dt noSponge a σ = .ok σ' ∧ Moved (1.5 * dt) R (σ a) (σ' a) := by
  refine ⟨_, rfl, fun i k => ?_⟩
  simp only [Store.set, sponged_none, Fields.combine, Fields.axpy, Fields.at', copyFields, if_pos]
  norm_num
  refine ⟨?_, ?_, ?_⟩ <;> ring

/-- The claim "one pass of length `dt` with a constant rate moves the fields by `dt` times the rate" is false of the program. -/
theorem C86_false : ¬ ∀ (R : Fields) (dt : ℝ) (a : ℕ) (σ : Store), ∃ σ', stepSw2d (fun _ => .ok R) dt noSponge a σ = .ok σ' ∧ Moved dt R (σ a) (σ' a) := by
  intro h
  have z : DMat ℝ := ⟨1, 1, fun _ _ => 0⟩
  obtain ⟨σ', h1, h2⟩ := h ⟨⟨1, 1, fun _ _ => 1⟩, z, z⟩ 1 0 (fun _ => ⟨⟨1, 1, fun _ _ => 0⟩, z, z⟩)
  obtain ⟨σ'', h3, h4⟩ := C86_shared ⟨⟨1, 1, fun _ _ => 1⟩, z, z⟩ 1 0 (fun _ => ⟨⟨1, 1, fun _ _ => 0⟩, z, z⟩)
  rw [h1] at h3
  obtain rfl : σ' = σ'' := by injection h3
  have a := congrArg State.h (h2 0 0)
  have b := congrArg State.h (h4 0 0)
  rw [a] at b
  norm_num at b

end Blitzdg.SW
