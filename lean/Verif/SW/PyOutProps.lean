import Verif.SW.PyInitProps

/-!
C139: which states of a run of sw2d_curved.py are written to files.
-/

namespace Blitzdg.SW

open Blitzdg.Sparse (DMat)
open Blitzdg.DG2D

variable {P : ℕ → ℕ} {x : List ℝ} {bt : List Int} {g : Grid}

theorem passCurved_inv {rhs : PyRhs} {grav CFL : ℝ} {H : DMat ℝ} {F : Matrix (Fin g.np) (Fin g.np) ℝ} {ns : ℕ} {r r' : PyRun} (h : g.passCurved rhs grav CFL H F ns r = .ok r') :
    g.stepCurved rhs grav CFL H F r.s = .ok r'.s ∧ r'.step = r.step + 1 ∧ r'.files = r.files ++ if (r.step + 1) % 50 = 0 ∨ r.step + 1 = ns then [r.step + 1] else [] := by
  unfold Grid.passCurved at h
  obtain ⟨s, h1, h2⟩ := Out.bind_eq_ok.1 h
  split_ifs at h2 with hc <;> rw [Out.pure_eq, Out.ok.injEq] at h2 <;> subst h2
  · exact ⟨h1, rfl, by rw [if_pos hc]⟩
  · exact ⟨h1, rfl, by rw [if_neg hc, List.append_nil]⟩

theorem curved_files {rhs : PyRhs} {grav CFL T : ℝ} {H : DMat ℝ} {F : Matrix (Fin g.np) (Fin g.np) ℝ} {ns m : ℕ} {S : ℕ → PyRun} {s : PySim} (h0 : S 0 = ⟨s, 0, [0]⟩) (hS : Passes (fun r => r.s.t) (g.passCurved rhs grav CFL H F ns) T m S) :
    (S m).step = m ∧ (S m).files.Pairwise (· < ·) ∧ ∀ i, i ∈ (S m).files ↔ i ≤ m ∧ (50 ∣ i ∨ i = ns) ∨ i = 0 := by
  induction m with
  | zero =>
    rw [h0]
    refine ⟨rfl, by simp, fun i => ?_⟩
    simp only [List.mem_singleton, Nat.le_zero]
    exact ⟨Or.inr, fun h => h.elim (fun h => h.1) id⟩
  | succ k ih =>
    obtain ⟨i1, i4, i5⟩ := ih fun j hj => hS j (by omega)
    obtain ⟨-, p2, p4⟩ := passCurved_inv (hS k (by omega)).2
    refine ⟨by rw [p2, i1], ?_, fun i => ?_⟩
    · rw [p4, List.pairwise_append]
      refine ⟨i4, by split_ifs <;> simp, fun a ha b hb => ?_⟩
      split_ifs at hb
      · rw [List.mem_singleton] at hb
        have := (i5 a).1 ha
        omega
      · simp at hb
    · rw [p4, List.mem_append, i5, i1]
      constructor
      · rintro (h | hi)
        · omega
        · split_ifs at hi with hc
          · rw [List.mem_singleton] at hi
            omega
          · simp at hi
      · intro h
        by_cases hk : i ≤ k
        · left
          omega
        · right
          have hc : (k + 1) % 50 = 0 ∨ k + 1 = ns := by omega
          rw [if_pos hc, List.mem_singleton]
          omega

/-- **C139, files of a run.** Whatever the rates, a run that has taken `r.step` passes has written file 0, a file for every multiple of 50 and one for the number of steps planned with the first step, as far as they were reached, each once and in order; the
state it holds is that after `r.step` passes of the scheme, and it was written last exactly if `r.step` is such a number. -/
theorem C139_files (rhs : PyRhs) (grav CFL T : ℝ) (H : DMat ℝ) (F : Matrix (Fin g.np) (Fin g.np) ℝ) (n : ℕ) (s : PySim) (r : PyRun) (hr : g.curvedPy rhs grav CFL H F T n s = .ok r) :
    (∃ S : ℕ → PySim, S 0 = s ∧ S r.step = r.s ∧ Passes PySim.t (g.stepCurved rhs grav CFL H F) T r.step S ∧ (r.step = n ∨ T ≤ r.s.t)) ∧ r.files.Pairwise (· < ·) ∧
      (∀ i, i ∈ r.files ↔ i ≤ r.step ∧ (50 ∣ i ∨ i = ⌈T / s.dt⌉₊) ∨ i = 0) ∧ (r.step ∈ r.files ↔ 50 ∣ r.step ∨ r.step = ⌈T / s.dt⌉₊) := by
  unfold Grid.curvedPy at hr
  obtain ⟨m, hm, S, h0, h1, hS, hend⟩ := (while_passes _ _ _ _ _ _).1 hr
  obtain ⟨a1, a4, a5⟩ := curved_files h0 hS
  rw [h1] at a1 a4 a5
  subst a1
  refine ⟨⟨fun j => (S j).s, by show (S 0).s = s; rw [h0], by show (S r.step).s = r.s; rw [h1], fun j hj => ⟨(hS j hj).1, (passCurved_inv (hS j hj).2).1⟩, hend⟩, a4, a5, ?_⟩
  rw [a5]
  constructor
  · rintro (h | h)
    · exact h.2
    · left; rw [h]; exact dvd_zero _
  · exact fun h => Or.inl ⟨le_refl _, h⟩

/-- **C139, unchanged steps.** If all steps of the run equal the first one, the run that reaches the final time takes the planned number of steps and its last state is written. -/
theorem C139_last_partial (rhs : PyRhs) (grav CFL : ℝ) (T : ℝ) (H : DMat ℝ) (F : Matrix (Fin g.np) (Fin g.np) ℝ) (n : ℕ) (s : PySim) (hdt : 0 < s.dt) (ht : s.t = 0) (r : PyRun) (hr : g.curvedPy rhs grav CFL H F T n s = .ok r)
    (hend : T ≤ r.s.t) (hsame : ∀ (j : ℕ) (S : ℕ → PySim), S 0 = s → Passes PySim.t (g.stepCurved rhs grav CFL H F) T j S → (S j).dt = s.dt) : r.step = ⌈T / s.dt⌉₊ ∧ r.step ∈ r.files := by
  obtain ⟨⟨S, h0, h1, hS, -⟩, -, -, hl⟩ := C139_files rhs grav CFL T H F n s r hr
  have hclock : ∀ m ≤ r.step, (S m).t = m * s.dt := by
    intro m hm
    have hp : Passes PySim.t (g.stepCurved rhs grav CFL H F) T m S := fun j hj => hS j (by omega)
    rw [(C118_clock rhs grav CFL T H F S m hp).1, h0, ht, zero_add, Finset.sum_congr rfl fun j hj => hsame j S h0 fun i hi => hp i (by have := Finset.mem_range.1 hj; omega)]
    simp
  have e : r.step = ⌈T / s.dt⌉₊ := by
    apply le_antisymm
    · by_contra hlt
      have h2 := (hS ⌈T / s.dt⌉₊ (by omega)).1
      rw [hclock _ (by omega)] at h2
      have := Nat.le_ceil (T / s.dt)
      rw [div_le_iff₀ hdt] at this
      linarith
    · rw [← h1, hclock _ (le_refl _)] at hend
      rw [Nat.ceil_le, div_le_iff₀ hdt]
      exact hend
  exact ⟨e, hl.2 (Or.inr e)⟩

/-- **C139, the last state, refuted.** Whenever the flow slows down in the first pass, so that the second step is longer than the first, the run up to the time reached after two passes takes these two passes, while three or more had been planned: it ends
without error and the only file is the one written before the loop. -/
theorem C139_last_false (rhs : PyRhs) (grav CFL : ℝ) (H : DMat ℝ) (F : Matrix (Fin g.np) (Fin g.np) ℝ) (s s1 s2 : PySim) (ht : s.t = 0) (hdt : 0 < s.dt) (h1 : g.stepCurved rhs grav CFL H F s = .ok s1) (h2 : g.stepCurved rhs grav CFL H F s1 = .ok s2)
    (hslow : s.dt < s1.dt) (n : ℕ) (hn : 2 ≤ n) : ∃ r, g.curvedPy rhs grav CFL H F (s.dt + s1.dt) n s = .ok r ∧ r.s = s2 ∧ s.dt + s1.dt ≤ r.s.t ∧ r.step = 2 ∧ 3 ≤ ⌈(s.dt + s1.dt) / s.dt⌉₊ ∧ r.files = [0] := by
  have t1 := (C118_clock rhs grav CFL (s.dt + s1.dt) H F (fun j => if j = 0 then s else s1) 1 (fun j hj => by
    obtain rfl : j = 0 := by omega
    exact ⟨by simp [ht]; linarith, by simpa using h1⟩)).1
  simp [ht] at t1
  have t2 := (C118_clock rhs grav CFL (s1.t + s.dt + s1.dt) H F (fun j => if j = 0 then s1 else s2) 1 (fun j hj => by
    obtain rfl : j = 0 := by omega
    exact ⟨by simp; linarith, by simpa using h2⟩)).1
  simp at t2
  have hc : 3 ≤ ⌈(s.dt + s1.dt) / s.dt⌉₊ := by
    have : ((2 : ℕ) : ℝ) < (s.dt + s1.dt) / s.dt := by
      rw [lt_div_iff₀ hdt]
      push_cast
      linarith
    exact Nat.lt_ceil.2 this
  have p1 : g.passCurved rhs grav CFL H F ⌈(s.dt + s1.dt) / s.dt⌉₊ ⟨s, 0, [0]⟩ = .ok ⟨s1, 1, [0]⟩ := by
    unfold Grid.passCurved
    simp only [h1, Out.bind_ok]
    rw [if_neg (by omega)]
    rfl
  have p2 : g.passCurved rhs grav CFL H F ⌈(s.dt + s1.dt) / s.dt⌉₊ ⟨s1, 1, [0]⟩ = .ok ⟨s2, 2, [0]⟩ := by
    unfold Grid.passCurved
    simp only [h2, Out.bind_ok]
    rw [if_neg (by omega)]
    rfl
  refine ⟨⟨s2, 2, [0]⟩, (while_passes _ _ _ _ _ _).2 ⟨2, hn, fun j => if j = 0 then ⟨s, 0, [0]⟩ else if j = 1 then ⟨s1, 1, [0]⟩ else ⟨s2, 2, [0]⟩, rfl, rfl, fun j hj => ?_, Or.inr ?_⟩, rfl, ?_, rfl, hc, rfl⟩
  · rcases (by omega : j = 0 ∨ j = 1) with rfl | rfl
    · exact ⟨by simp [ht]; linarith, by simpa using p1⟩
    · exact ⟨by simp [t1]; linarith, by simpa using p2⟩
  · show _ ≤ s2.t
    rw [t2, t1]
  · show _ ≤ s2.t
    rw [t2, t1]

/-! ### A case that meets the hypotheses -/

/-- Linear friction, the momentum along x lost at rate `c`. -/
def friction (g : Grid) (c : ℝ) : PyRhs := fun q _ => .ok (⟨⟨g.np, g.K, fun _ _ => 0⟩, ⟨g.np, g.K, fun i k => -c * q.hu.at' i k⟩, ⟨g.np, g.K, fun _ _ => 0⟩⟩, ⟨g.np, g.K, fun _ _ => 0⟩)

/-- Water of depth one flowing along x in the square of two triangles, slowed down by friction: two passes are made, three were planned, and only the state at the start is written. -/
example : ∃ g rhs F s r, Provisioned Nodes1D.exactLapack (1 / 2 ^ 52) 1e-10 1e-5 1 square twoTri g ∧ 0 < s.dt ∧ s.t = 0 ∧ g.dtPy 0.75 (g.meanWave 9.81 ⟨g.np, g.K, fun _ _ => 1⟩) (g.velocity s.q.hu s.q.h) (g.velocity s.q.hv s.q.h) = .ok s.dt ∧
    ∃ T, g.curvedPy rhs 9.81 0.75 ⟨g.np, g.K, fun _ _ => 1⟩ F T 10 s = .ok r ∧ T ≤ r.s.t ∧ r.step = 2 ∧ r.files = [0] := by
  obtain ⟨g, c, ga, hg, h0, hw⟩ := square_weak
  obtain ⟨x, hs, hN, hK, -⟩ := hg.spec
  have hK : g.K = 2 := hK
  obtain ⟨H, hH⟩ : ∃ H : DMat ℝ, H = ⟨g.np, g.K, fun _ _ => 1⟩ := ⟨_, rfl⟩
  have hm : g.mean H = 1 := by rw [hH]; exact mean_one (by omega)
  obtain ⟨q, hq⟩ : ∃ q : Fields, q = ⟨⟨g.np, g.K, fun _ _ => 1⟩, ⟨g.np, g.K, fun _ _ => 1⟩, ⟨g.np, g.K, fun _ _ => 0⟩⟩ := ⟨_, rfl⟩
  have hdt := fun q => C118_dt hs (by omega) (show (0 : ℝ) < 9.81 by norm_num) (show (0 : ℝ) < 0.75 by norm_num) H (by rw [hm]; norm_num) q
  obtain ⟨dt, d1, d2⟩ := hdt q
  obtain ⟨s, hsd⟩ : ∃ s : PySim, s = ⟨q, ⟨g.np, g.K, fun _ _ => 0⟩, 0, dt⟩ := ⟨_, rfl⟩
  have hpass : ∀ s : PySim, (∀ i k, s.q.h.at' i k = 1) → ∃ s', g.stepCurved (friction g (1 / dt)) 9.81 0.75 H 1 s = .ok s' ∧ (∀ i k, s'.q.h.at' i k = 1) := by
    intro s hh
    obtain ⟨q', hq'⟩ : ∃ q', pyAdvance (friction g (1 / dt)) (1 : Matrix (Fin g.np) (Fin g.np) ℝ) s = .ok q' := ⟨_, rfl⟩
    obtain ⟨r1, q1, r2, hr1, hmid, hq1, hr2, hqe⟩ := advance_inv hq'
    have hone : ∀ i k, q'.1.h.at' i k = 1 := by
      intro i k
      have e2 : r2.1.h = ⟨g.np, g.K, fun _ _ => 0⟩ := by
        injection hr2 with hr2
        rw [← hr2]
      rw [hqe]
      simp [Fields.axpy, npFilter4, npFilter, e2, hh]
    obtain ⟨dt', e1, -⟩ := hdt q'.1
    refine ⟨⟨q'.1, q'.2, s.t + s.dt, dt'⟩, ?_, hone⟩
    unfold Grid.stepCurved
    rw [hq', Out.bind_ok, e1, Out.bind_ok, if_neg]
    · rfl
    · unfold Grid.hMax
      have hl : (List.range (g.np * g.K)).map (fun c => |q'.1.h.at' (c / g.K) (c % g.K)|) = (List.range (g.np * g.K)).map fun _ => 1 := by simp [hone]
      rw [hl]
      by_cases hl0 : (List.range (g.np * g.K)).map (fun _ => (1 : ℝ)) = []
      · rw [hl0]; norm_num [listMax]
      · obtain ⟨p, hp, hpe⟩ := List.mem_map.1 (listMax_spec _ hl0).2
        rw [← hpe]
        norm_num
  obtain ⟨s1, hs1, o1⟩ := hpass s fun i k => by rw [hsd, hq]
  obtain ⟨s2, hs2, o2⟩ := hpass s1 o1
  have hu1 : ∀ i < g.np, ∀ k, s1.q.hu.at' i k = 1 / 2 ∧ s1.q.hv.at' i k = 0 := by
    intro i hi k
    have hq' := (curved_inv hs1).1
    obtain ⟨r1, q1, r2, hr1, hmid, hq1, hr2, hqe⟩ := advance_inv hq'
    injection hr1 with hr1
    injection hr2 with hr2
    have hid : ∀ (u : DMat ℝ) (i k : ℕ), i < g.np → (npFilter (1 : Matrix (Fin g.np) (Fin g.np) ℝ) u).at' i k = u.at' i k := by
      intro u i k hi
      unfold npFilter
      simp only [dif_pos hi, Matrix.one_apply, ite_mul, one_mul, zero_mul]
      rw [Finset.sum_ite_eq]
      simp
    have a1 : q1.1.hu.at' i k = 1 / 2 := by
      rw [hq1]
      simp only [Fields.axpy, npFilter4, hid _ _ _ hi, ← hr1, hsd, hq]
      have := d2.1
      field_simp
      norm_num
    have hu : s1.q.hu.at' i k = 1 / 2 := by
      have : s1.q = (Fields.axpy s.dt (npFilter4 (1 : Matrix (Fin g.np) (Fin g.np) ℝ) r2).1 s.q) := by
        have := congrArg Prod.fst hqe
        simpa using this
      rw [this]
      simp only [Fields.axpy, npFilter4, hid _ _ _ hi, ← hr2, a1]
      rw [hsd, hq]
      have := d2.1
      field_simp
      norm_num
    refine ⟨hu, ?_⟩
    have : s1.q = (Fields.axpy s.dt (npFilter4 (1 : Matrix (Fin g.np) (Fin g.np) ℝ) r2).1 s.q) := by
      have := congrArg Prod.fst hqe
      simpa using this
    rw [this]
    simp only [Fields.axpy, npFilter4, hid _ _ _ hi, ← hr2, hsd, hq]
    simp
  have hslow : s.dt < s1.dt := by
    obtain ⟨dt', e1, w1⟩ := hdt s1.q
    have e2 := (curved_inv hs1).2.2.1
    rw [e1] at e2
    injection e2 with e2
    subst e2
    obtain ⟨e, he, i, hi, heq⟩ := w1.2.2
    have hle := d2.2.1 e he i hi
    have hR : 0 < faceLen g e / area g (e / 3) := by rw [← hs.fscale_geo he hi]; exact hs.fscale_pos he hi
    have hw : 0 < √(9.81 * g.mean H) := Real.sqrt_pos.2 (by rw [hm]; norm_num)
    have f0 : (inner g q e i).flow = 1 := by
      rw [hq]
      unfold State.flow inner Fields.at'
      norm_num
    have f1 : (inner g s1.q e i).flow = 1 / 2 := by
      have hmk := hs.maskLt (e % 3) (by omega) i hi
      unfold State.flow inner Fields.at'
      simp only [(hu1 _ hmk (e / 3)).1, (hu1 _ hmk (e / 3)).2, o1]
      norm_num
      rw [show (4 : ℝ) = 2 ^ 2 by norm_num, Real.sqrt_sq (by norm_num)]
      norm_num
    rw [f1] at heq
    rw [f0] at hle
    rw [hsd]
    show dt < s1.dt
    set w := √(9.81 * g.mean H)
    set R := faceLen g e / area g (e / 3)
    by_contra hcon
    push Not at hcon
    have hp1 := w1.1
    have hp : (0 : ℝ) < (g.N + 1) ^ 2 / 2 := by positivity
    have : s1.dt * ((g.N + 1) ^ 2 / 2) * ((w + 1 / 2) * R) < dt * ((g.N + 1) ^ 2 / 2) * ((w + 1) * R) := by
      apply mul_lt_mul' (mul_le_mul_of_nonneg_right hcon hp.le) _ (by positivity) (by have := d2.1; positivity)
      exact mul_lt_mul_of_pos_right (by linarith) hR
    linarith
  obtain ⟨r, hr, hrs, hrt, hst, -, hf⟩ := C139_last_false (friction g (1 / dt)) 9.81 0.75 H 1 s s1 s2 (by rw [hsd]) (by rw [hsd]; exact d2.1) hs1 hs2 hslow 10 (by norm_num)
  refine ⟨g, friction g (1 / dt), 1, s, r, hg, by rw [hsd]; exact d2.1, by rw [hsd], by rw [← hH, hsd]; exact d1, s.dt + s1.dt, by rw [← hH]; exact hr, hrt, hst, hf⟩

/-- Rates that vanish, as in still water: the velocities, and with them the steps, stay what they were. -/
example (g : Grid) (hs : GridSpec P x bt g) (hK : 0 < g.K) : ∃ dt, 0 < dt ∧ ∀ (T : ℝ) (j : ℕ) (S : ℕ → PySim), S 0 = ⟨⟨⟨g.np, g.K, fun _ _ => 1⟩, ⟨g.np, g.K, fun _ _ => 0⟩, ⟨g.np, g.K, fun _ _ => 0⟩⟩, ⟨g.np, g.K, fun _ _ => 0⟩, 0, dt⟩ →
    Passes PySim.t (g.stepCurved (friction g 1) 9.81 0.75 ⟨g.np, g.K, fun _ _ => 1⟩ 1) T j S → (S j).dt = dt := by
  obtain ⟨q, hq⟩ : ∃ q : Fields, q = ⟨⟨g.np, g.K, fun _ _ => 1⟩, ⟨g.np, g.K, fun _ _ => 0⟩, ⟨g.np, g.K, fun _ _ => 0⟩⟩ := ⟨_, rfl⟩
  obtain ⟨dt, d1, d2⟩ := C118_dt hs hK (show (0 : ℝ) < 9.81 by norm_num) (show (0 : ℝ) < 0.75 by norm_num) ⟨g.np, g.K, fun _ _ => 1⟩ (by rw [mean_one hK]; norm_num) q
  refine ⟨dt, d2.1, fun T j S h0 hS => ?_⟩
  have key : ∀ j, Passes PySim.t (g.stepCurved (friction g 1) 9.81 0.75 ⟨g.np, g.K, fun _ _ => 1⟩ 1) T j S → (S j).q = q ∧ (S j).dt = dt := by
    intro j hS
    induction j with
    | zero => rw [h0, hq]; exact ⟨rfl, rfl⟩
    | succ j ih =>
      obtain ⟨i1, i2⟩ := ih fun i hi => hS i (by omega)
      obtain ⟨c1, -, c3, -⟩ := curved_inv (hS j (by omega)).2
      obtain ⟨r1, q1, r2, hr1, -, hq1, hr2, hqe⟩ := advance_inv c1
      injection hr1 with hr1
      injection hr2 with hr2
      have hqq : (S (j + 1)).q = q := by
        have := congrArg Prod.fst hqe
        simp only at this
        rw [this, ← hr2, hq1, ← hr1, i1, hq]
        simp [Fields.axpy, npFilter4, npFilter]
      refine ⟨hqq, ?_⟩
      rw [hqq, d1] at c3
      injection c3 with c3
      exact c3.symm
  exact (key j hS).2

end Blitzdg.SW
