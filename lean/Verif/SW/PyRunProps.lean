import Verif.SW.PyLoopProps

/-!
C119: runs of sw2d.py.
-/

namespace Blitzdg.SW

open Blitzdg.Sparse (DMat)
open Blitzdg.Nodes1D (Lapack)
open Blitzdg.DG2D

variable {la : Lapack} {eps ztol tol : ℝ} {N : ℕ} {m : Mesh} {P : ℕ → ℕ} {x : List ℝ} {bt : List Int} {g : Grid}

/-! ### The right-hand side -/

theorem pick_mem {a : List ℝ} {idx : List ℕ} {r : List ℝ} (h : pick a idx = .ok r) : r.length = idx.length ∧ ∀ c : ℕ, c < idx.length → ∃ i, i < a.length ∧ idx[c]? = some i ∧ r.getD c 0 = a.getD i 0 := by
  induction idx generalizing r with
  | nil =>
    simp only [pick, Out.ok.injEq] at h
    subst h
    exact ⟨rfl, fun c hc => by simp at hc⟩
  | cons j l ih =>
    unfold pick at h
    cases hj : a[j]? with
    | none => rw [hj] at h; cases h
    | some v =>
      rw [hj] at h
      obtain ⟨r', h1, h2⟩ := Out.bind_eq_ok.1 h
      rw [Out.pure_eq, Out.ok.injEq] at h2
      subst h2
      obtain ⟨i1, i2⟩ := ih h1
      refine ⟨by simp [i1], fun c hc => ?_⟩
      cases c with
      | zero => exact ⟨j, (List.getElem?_eq_some_iff.1 hj).1, rfl, by simp [List.getD_eq_getElem?_getD, hj]⟩
      | succ c => simpa using i2 c (by simpa using hc)

theorem flatF_at (a : DMat ℝ) {i : ℕ} (h : i < (flatF a).length) : (flatF a).getD i 0 = a.at' (i % a.rows) (i / a.rows) := by
  rw [flatF_length] at h
  unfold flatF
  rw [List.getD_eq_getElem _ _ (by simpa using h)]
  simp

theorem sideDirect_eq (q : Fields) (hN : DMat ℝ) (hq : q.Fits g) (hwet : Wet g q) (vmap : List ℕ) : sideDirect q hN vmap = sideOf q hN vmap := by
  unfold sideDirect sideOf
  cases h1 : pick (flatF q.h) vmap with
  | ok h =>
    simp only [Out.bind_ok]
    cases h2 : pick (flatF q.hu) vmap with
    | ok hu =>
      simp only [Out.bind_ok]
      cases h3 : pick (flatF q.hv) vmap with
      | ok hv =>
        simp only [Out.bind_ok]
        cases h4 : pick (flatF hN) vmap with
        | ok n =>
          simp only [Out.bind_ok]
          congr 1
          apply List.map_congr_left
          intro c hc
          obtain ⟨i, hi, -, e⟩ := (pick_mem h1).2 c (List.mem_range.1 hc)
          have hpos : h.getD c 0 ≠ 0 := by
            rw [e, flatF_at _ hi]
            rw [flatF_length, hq.1.1, hq.1.2] at hi
            rw [hq.1.1]
            have h0 : 0 < g.np := by
              rcases Nat.eq_zero_or_pos g.np with h0 | h0
              · rw [h0] at hi; omega
              · exact h0
            exact (hwet _ (Nat.mod_lt _ h0) _ ((Nat.div_lt_iff_lt_mul h0).2 (by rw [mul_comm]; exact hi))).ne'
          rw [mul_div_cancel₀ _ hpos, mul_div_cancel₀ _ hpos]
        | throws => rfl
        | ub => rfl
      | throws => rfl
      | ub => rfl
    | throws => rfl
    | ub => rfl
  | throws => rfl
  | ub => rfl

/-- **C119, the same right-hand side.** For every state with positive depth the right-hand side in sw2d.py is that of swhelpers/rhs.py without drag over a level bed. -/
theorem C119_same (g : Grid) (grav f : ℝ) (q : Fields) (hN : DMat ℝ) (hq : q.Fits g) (hwet : Wet g q) :
    g.rhsSw2dPy grav f q hN = g.rhsPy grav f 0 (zeroMat g.np g.K) (zeroMat g.np g.K) g.maps.vmapM g.maps.vmapP q hN := by
  unfold Grid.rhsSw2dPy Grid.rhsPy
  rw [sideDirect_eq q hN hq hwet, sideDirect_eq q hN hq hwet]
  have e1 : ∀ a i k, a + f * q.hv.at' i k = a + (sourcePy 0 f (q.at' i k)).1 - grav * q.h.at' i k * (zeroMat g.np g.K).at' i k := by
    intro a i k
    simp [sourcePy, zeroMat, Fields.at']
  have e2 : ∀ a i k, a - f * q.hu.at' i k = a + (sourcePy 0 f (q.at' i k)).2 - grav * q.h.at' i k * (zeroMat g.np g.K).at' i k := by
    intro a i k
    simp [sourcePy, zeroMat, Fields.at', sub_eq_add_neg]
  simp only [e1, e2]

/-! ### Passes -/

theorem sw_inv {rhs : PyRhs} {F : Matrix (Fin g.np) (Fin g.np) ℝ} {s s' : PySim} (h : g.stepSw2dPy rhs F s = .ok s') :
    pyAdvance rhs F s = .ok (s'.q, s'.hN) ∧ s'.t = s.t + s.dt ∧ s'.dt = s.dt ∧ ¬ g.hMax s'.q.h > 1e8 := by
  unfold Grid.stepSw2dPy at h
  obtain ⟨q, h1, h⟩ := Out.bind_eq_ok.1 h
  split_ifs at h with h3
  rw [Out.pure_eq, Out.ok.injEq] at h
  subst h
  exact ⟨h1, rfl, rfl, h3⟩

theorem pass_inv {rhs : PyRhs} {F : Matrix (Fin g.np) (Fin g.np) ℝ} {ns oi : ℕ} {r r' : PyRun} (h : g.passSw2dPy rhs F ns oi r = .ok r') :
    g.stepSw2dPy rhs F r.s = .ok r'.s ∧ r'.step = r.step + 1 ∧ 0 < oi ∧ r'.files = r.files ++ (if (r.step + 1) % oi = 0 ∨ r.step + 1 = ns then [r.step + 1] else []) := by
  unfold Grid.passSw2dPy at h
  obtain ⟨s, h1, h⟩ := Out.bind_eq_ok.1 h
  split_ifs at h with h2 h3
  · rw [Out.pure_eq, Out.ok.injEq] at h
    subst h
    exact ⟨h1, rfl, by omega, by rw [if_pos h3]⟩
  · rw [Out.pure_eq, Out.ok.injEq] at h
    subst h
    exact ⟨h1, rfl, by omega, by rw [if_neg h3, List.append_nil]⟩

/-! ### Clock and files -/

/-- State of the loop after `j` passes. -/
theorem run_state {rhs : PyRhs} {F : Matrix (Fin g.np) (Fin g.np) ℝ} {T : ℝ} {ns oi k : ℕ} {S : ℕ → PyRun} {s : PySim} (h0 : S 0 = ⟨s, 0, [0]⟩) (hS : Passes (fun r => r.s.t) (g.passSw2dPy rhs F ns oi) T k S) :
    (S k).step = k ∧ (S k).s.dt = s.dt ∧ (S k).s.t = s.t + k * s.dt ∧ (S k).files.Pairwise (· < ·) ∧ ∀ i, i ∈ (S k).files ↔ i ≤ k ∧ (oi ∣ i ∨ i = ns ∨ i = 0) := by
  induction k with
  | zero =>
    rw [h0]
    refine ⟨rfl, rfl, by simp, by simp, fun i => ?_⟩
    simp only [List.mem_singleton, Nat.le_zero]
    exact ⟨fun h => ⟨h, Or.inr (Or.inr h)⟩, fun h => h.1⟩
  | succ k ih =>
    obtain ⟨i1, i2, i3, i4, i5⟩ := ih fun j hj => hS j (by omega)
    obtain ⟨p1, p2, p3, p4⟩ := pass_inv (hS k (by omega)).2
    obtain ⟨-, q2, q3, -⟩ := sw_inv p1
    refine ⟨by rw [p2, i1], by rw [q3, i2], by rw [q2, i2, i3]; push_cast; ring, ?_, fun i => ?_⟩
    · rw [p4, List.pairwise_append]
      refine ⟨i4, by split_ifs <;> simp, fun a ha b hb => ?_⟩
      split_ifs at hb
      · rw [List.mem_singleton] at hb
        have := ((i5 a).1 ha).1
        omega
      · simp at hb
    · rw [p4, List.mem_append, i5, i1]
      have hd : (k + 1) % oi = 0 ↔ oi ∣ k + 1 := (Nat.dvd_iff_mod_eq_zero).symm
      simp only [hd]
      constructor
      · rintro (⟨a, b⟩ | hi)
        · exact ⟨by omega, b⟩
        · split_ifs at hi with hc
          · rw [List.mem_singleton] at hi
            subst hi
            exact ⟨le_refl _, hc.imp_right Or.inl⟩
          · simp at hi
      · rintro ⟨a, b⟩
        by_cases hk : i ≤ k
        · exact Or.inl ⟨hk, b⟩
        · obtain rfl : i = k + 1 := by omega
          right
          rw [if_pos (b.imp_right fun h => h.resolve_right (by omega))]
          simp

/-- **C119, length of a run and files.** A run which is given enough passes and does not raise takes exactly `⌈finalTime/dt⌉` of them.  The clock then shows that number times `dt`, at least the final time and less than a step beyond it.
The files written are number 0, every multiple of the output interval and the last step, each once and in order. -/
theorem C119_run (rhs : PyRhs) (F : Matrix (Fin g.np) (Fin g.np) ℝ) {T : ℝ} (hT : 0 < T) (numOuts n : ℕ) (s : PySim) (hdt : 0 < s.dt) (ht : s.t = 0) (hn : ⌈T / s.dt⌉₊ ≤ n) (r : PyRun)
    (hr : g.sw2dPy rhs F T numOuts n s = .ok r) :
    r.step = ⌈T / s.dt⌉₊ ∧ r.s.t = ⌈T / s.dt⌉₊ * s.dt ∧ T ≤ r.s.t ∧ r.s.t < T + s.dt ∧ r.files.Pairwise (· < ·) ∧
      ∀ i, i ∈ r.files ↔ i ≤ ⌈T / s.dt⌉₊ ∧ ((⌈T / s.dt⌉₊ / numOuts) ∣ i ∨ i = ⌈T / s.dt⌉₊ ∨ i = 0) := by
  unfold Grid.sw2dPy at hr
  obtain ⟨m, hm, S, h0, h1, hS, hend⟩ := (while_passes _ _ _ _ _ _).1 hr
  obtain ⟨a1, a2, a3, a4, a5⟩ := run_state h0 hS
  rw [ht, zero_add] at a3
  have hup : T ≤ ⌈T / s.dt⌉₊ * s.dt := by
    have := Nat.le_ceil (T / s.dt)
    rwa [div_le_iff₀ hdt] at this
  have hle : m ≤ ⌈T / s.dt⌉₊ := by
    by_contra hlt
    have h2 := (hS ⌈T / s.dt⌉₊ (by omega)).1
    obtain ⟨-, -, b3, -⟩ := run_state h0 fun j (hj : j < ⌈T / s.dt⌉₊) => hS j (by omega)
    simp only at h2
    rw [b3, ht, zero_add] at h2
    linarith
  have hge : ⌈T / s.dt⌉₊ ≤ m := by
    rcases hend with h | h
    · omega
    · rw [← h1, a3] at h
      rw [Nat.ceil_le, div_le_iff₀ hdt]
      exact h
  obtain rfl : m = ⌈T / s.dt⌉₊ := le_antisymm hle hge
  rw [← h1]
  refine ⟨a1, a3, by rw [a3]; exact hup, ?_, a4, a5⟩
  rw [a3]
  have hlt := Nat.ceil_lt_add_one (show 0 ≤ T / s.dt by positivity)
  have := mul_lt_mul_of_pos_right hlt hdt
  rw [add_mul, div_mul_cancel₀ _ hdt.ne', one_mul] at this
  exact this

/-- The number of files: the first one, and between `numOuts` and twice as many. -/
theorem C119_files (rhs : PyRhs) (F : Matrix (Fin g.np) (Fin g.np) ℝ) {T : ℝ} (hT : 0 < T) {numOuts : ℕ} (ho : 0 < numOuts) (n : ℕ) (s : PySim) (hdt : 0 < s.dt) (ht : s.t = 0) (hn : ⌈T / s.dt⌉₊ ≤ n) (r : PyRun)
    (hr : g.sw2dPy rhs F T numOuts n s = .ok r) : numOuts + 1 ≤ r.files.length ∧ r.files.length ≤ 2 * numOuts + 1 := by
  obtain ⟨-, -, -, -, h1, h2⟩ := C119_run rhs F hT numOuts n s hdt ht hn r hr
  obtain ⟨ns, hns⟩ : ∃ ns, ns = ⌈T / s.dt⌉₊ := ⟨_, rfl⟩
  rw [← hns] at h2 hn
  have hns0 : 0 < ns := by rw [hns, Nat.ceil_pos]; positivity
  have hoi : 0 < ns / numOuts := by
    unfold Grid.sw2dPy at hr
    rw [← hns] at hr
    obtain ⟨m, hm, S, h0, h1, hS, hend⟩ := (while_passes _ _ _ _ _ _).1 hr
    have : 0 < m := by
      rcases Nat.eq_zero_or_pos m with h | h
      · subst h
        rcases hend with h | h
        · omega
        · rw [← h1, h0] at h
          simp only at h
          linarith
      · exact h
    exact (pass_inv (hS 0 this).2).2.2.1
  obtain ⟨oi, hoie⟩ : ∃ oi, oi = ns / numOuts := ⟨_, rfl⟩
  rw [← hoie] at h2 hoi
  have hnd : r.files.Nodup := h1.imp fun h => Nat.ne_of_lt h
  have hcard : r.files.length = r.files.toFinset.card := (List.toFinset_card_of_nodup hnd).symm
  have q1 : numOuts ≤ ns / oi := (Nat.le_div_iff_mul_le hoi).2 (by rw [hoie, mul_comm]; exact Nat.div_mul_le_self _ _)
  have q2 : ns / oi < 2 * numOuts := by
    rw [Nat.div_lt_iff_lt_mul hoi]
    have : ns < numOuts * (ns / numOuts + 1) := Nat.lt_mul_div_succ ns ho
    rw [← hoie] at this
    nlinarith
  have himg : ((Finset.range (ns / oi + 1)).image fun j => oi * j).card = ns / oi + 1 := by
    rw [Finset.card_image_of_injective _ fun a b h => Nat.eq_of_mul_eq_mul_left hoi h, Finset.card_range]
  have sub1 : (Finset.range (ns / oi + 1)).image (fun j => oi * j) ⊆ r.files.toFinset := by
    intro i hi
    obtain ⟨j, hj, rfl⟩ := Finset.mem_image.1 hi
    rw [Finset.mem_range] at hj
    rw [List.mem_toFinset, h2]
    refine ⟨?_, Or.inl (Dvd.intro _ rfl)⟩
    rw [mul_comm]
    exact (Nat.le_div_iff_mul_le hoi).1 (by omega)
  have sub2 : r.files.toFinset ⊆ insert ns ((Finset.range (ns / oi + 1)).image fun j => oi * j) := by
    intro i hi
    rw [List.mem_toFinset, h2] at hi
    obtain ⟨a, b⟩ := hi
    have hd : ∀ j, i = oi * j → i ∈ (Finset.range (ns / oi + 1)).image fun j => oi * j := by
      rintro j rfl
      refine Finset.mem_image.2 ⟨j, Finset.mem_range.2 ?_, rfl⟩
      have : j ≤ ns / oi := (Nat.le_div_iff_mul_le hoi).2 (by rw [mul_comm]; exact a)
      omega
    rcases b with ⟨j, hj⟩ | b | b
    · exact Finset.mem_insert_of_mem (hd j hj)
    · rw [b]; exact Finset.mem_insert_self _ _
    · exact Finset.mem_insert_of_mem (hd 0 (by rw [b, mul_zero]))
  have c1 := Finset.card_le_card sub1
  have c2 := Finset.card_le_card sub2
  have c3 := Finset.card_insert_le ns ((Finset.range (ns / oi + 1)).image fun j => oi * j)
  omega

/-- **C119, short runs, refuted.** A run of fewer steps than the number of outputs wanted never returns: the output interval is zero and the first pass raises ZeroDivisionError (or an error before that). -/
theorem C119_short_false (rhs : PyRhs) (F : Matrix (Fin g.np) (Fin g.np) ℝ) {T : ℝ} (numOuts n : ℕ) (hn : 0 < n) (s : PySim) (ht : s.t < T) (hshort : ⌈T / s.dt⌉₊ < numOuts) (r : PyRun) :
    g.sw2dPy rhs F T numOuts n s ≠ .ok r := by
  intro hr
  unfold Grid.sw2dPy at hr
  obtain ⟨m, hm, S, h0, h1, hS, hend⟩ := (while_passes _ _ _ _ _ _).1 hr
  have : 0 < m := by
    rcases Nat.eq_zero_or_pos m with h | h
    · subst h
      rcases hend with h | h
      · omega
      · rw [← h1, h0] at h
        simp only at h
        linarith
    · exact h
  have := (pass_inv (hS 0 this).2).2.2.1
  rw [Nat.div_eq_of_lt hshort] at this
  omega

/-! ### Totals and concentration -/

/-- A state and its predicted state have positive depth at every node. -/
def WetPass (g : Grid) (rhs : PyRhs) (F : Matrix (Fin g.np) (Fin g.np) ℝ) (s : PySim) : Prop := Wet g s.q ∧ ∀ q1, pyMid rhs F s = .ok q1 → Wet g q1.1

theorem advance_fits {rhs : PyRhs} {F : Matrix (Fin g.np) (Fin g.np) ℝ} {s : PySim} {q : Fields × DMat ℝ} (h : pyAdvance rhs F s = .ok q) (hf : s.q.Fits g ∧ Fits g s.hN) : q.1.Fits g ∧ Fits g q.2 := by
  obtain ⟨r1, q1, r2, -, -, -, -, rfl⟩ := advance_inv h
  exact hf

theorem mid_fits {rhs : PyRhs} {F : Matrix (Fin g.np) (Fin g.np) ℝ} {s : PySim} {q : Fields × DMat ℝ} (h : pyMid rhs F s = .ok q) (hf : s.q.Fits g ∧ Fits g s.hN) : q.1.Fits g ∧ Fits g q.2 := by
  unfold pyMid at h
  obtain ⟨r1, -, h1⟩ := Out.bind_eq_ok.1 h
  rw [Out.pure_eq, Out.ok.injEq] at h1
  subst h1
  exact hf

/-- **C119, totals over a run.** Between walls, a run of any number of passes keeps the totals of volume and of tracer, as long as the depth is positive at the nodes of the states and of the predicted states. -/
theorem C119_total (h : Provisioned la eps ztol tol N m P g) (hw : ∀ e < 3 * m.K, m.bcType[e]? = some 3 ↔ P e = e) (hw1 : ∃ e < 3 * m.K, P e = e) (Nc : ℝ) (h0 : 0 ≤ Nc) (hNc : Nc ≠ N) (sx : ℤ) (hsx : 1 ≤ sx) :
    ∃ F : Matrix (Fin g.np) (Fin g.np) ℝ, g.filter Nc sx = .ok (fun i j => some (F i j)) ∧
      ∀ (grav f T : ℝ) (ns oi k : ℕ) (S : ℕ → PyRun) (M L : ℝ), (S 0).s.q.Fits g → Fits g (S 0).s.hN → Passes (fun r => r.s.t) (g.passSw2dPy (g.rhsSw2dPy grav f) F ns oi) T k S →
        (∀ j < k, WetPass g (g.rhsSw2dPy grav f) F (S j).s) → IsTotal g (S 0).s.q.h.at' M → IsTotal g (S 0).s.hN.at' L → IsTotal g (S k).s.q.h.at' M ∧ IsTotal g (S k).s.hN.at' L := by
  obtain ⟨x, hg, hN, -, -⟩ := h.spec
  obtain ⟨F, hF, hFt⟩ := hg.filter_total Nc h0 (by rw [hN]; exact hNc) sx hsx
  refine ⟨F, hF, fun grav f T ns oi k S M L f1 f2 hS hwet hM hL => ?_⟩
  suffices ((S k).s.q.Fits g ∧ Fits g (S k).s.hN) ∧ IsTotal g (S k).s.q.h.at' M ∧ IsTotal g (S k).s.hN.at' L from this.2
  induction k with
  | zero => exact ⟨⟨f1, f2⟩, hM, hL⟩
  | succ k ih =>
    obtain ⟨i0, i1, i2⟩ := ih (fun j hj => hS j (by omega)) fun j hj => hwet j (by omega)
    obtain ⟨w1, w2⟩ := hwet k (by omega)
    have ha := (sw_inv (pass_inv (hS k (by omega)).2).1).1
    obtain ⟨r1, q1, r2, -, hmid, -, hr2, hq⟩ := advance_inv ha
    have hf1 := mid_fits hmid i0
    rw [C119_same g grav f q1.1 q1.2 hf1.1 (w2 q1 hmid)] at hr2
    obtain ⟨r, n, hr, e1, e2⟩ := C114_total h hw hw1 grav f 0 (zeroMat g.np g.K) (zeroMat g.np g.K) q1.1 q1.2 hf1.1 hf1.2 (w2 q1 hmid)
    obtain rfl : r2 = (r, n) := by rw [hr] at hr2; injection hr2 with h; exact h.symm
    rw [Prod.mk.injEq] at hq
    have t1 := isTotal_axpy (S k).s.dt i1 (hFt r.h _ ((e1 0).2 rfl))
    have t2 := isTotal_axpy (S k).s.dt i2 (hFt n _ ((e2 0).2 rfl))
    rw [mul_zero, add_zero] at t1 t2
    refine ⟨advance_fits ha i0, ?_, ?_⟩
    · rw [hq.1]; exact t1
    · rw [hq.2]; exact t2

/-- **C119, concentration over a run.** A tracer of constant concentration keeps it through any number of passes, whatever the filter, as long as the depth is positive at the nodes. -/
theorem C119_constant (h : Provisioned la eps ztol tol N m P g) (hw : ∃ e < 3 * m.K, m.bcType[e]? = some 3) (F : Matrix (Fin g.np) (Fin g.np) ℝ) (grav f T : ℝ) (ns oi k : ℕ) (S : ℕ → PyRun) (f1 : (S 0).s.q.Fits g)
    (f2 : Fits g (S 0).s.hN) (hS : Passes (fun r => r.s.t) (g.passSw2dPy (g.rhsSw2dPy grav f) F ns oi) T k S) (hwet : ∀ j < k, WetPass g (g.rhsSw2dPy grav f) F (S j).s) (c0 : ℝ)
    (hc0 : Mixed g c0 (S 0).s.q.h (S 0).s.hN) : Mixed g c0 (S k).s.q.h (S k).s.hN := by
  suffices ((S k).s.q.Fits g ∧ Fits g (S k).s.hN) ∧ Mixed g c0 (S k).s.q.h (S k).s.hN from this.2
  induction k with
  | zero => exact ⟨⟨f1, f2⟩, hc0⟩
  | succ k ih =>
    obtain ⟨i0, i1⟩ := ih (fun j hj => hS j (by omega)) fun j hj => hwet j (by omega)
    obtain ⟨w1, w2⟩ := hwet k (by omega)
    have ha := (sw_inv (pass_inv (hS k (by omega)).2).1).1
    obtain ⟨r1, q1, r2, hr1, hmid, hq1, hr2, hq⟩ := advance_inv ha
    have hf1 := mid_fits hmid i0
    rw [C119_same g grav f _ _ i0.1 w1] at hr1
    rw [C119_same g grav f q1.1 q1.2 hf1.1 (w2 q1 hmid)] at hr2
    obtain ⟨r, n, hr, e1⟩ := C114_constant h hw grav f 0 (zeroMat g.np g.K) (zeroMat g.np g.K) (S k).s.q (S k).s.hN i0.1 i0.2 w1 c0 i1
    obtain rfl : r1 = (r, n) := by rw [hr] at hr1; injection hr1 with h; exact h.symm
    have hm1 : Mixed g c0 q1.1.h q1.2 := by rw [hq1]; exact mixed_add i1 (mixed_filter e1)
    obtain ⟨r', n', hr', e1'⟩ := C114_constant h hw grav f 0 (zeroMat g.np g.K) (zeroMat g.np g.K) q1.1 q1.2 hf1.1 hf1.2 (w2 q1 hmid) c0 hm1
    obtain rfl : r2 = (r', n') := by rw [hr'] at hr2; injection hr2 with h; exact h.symm
    rw [Prod.mk.injEq] at hq
    refine ⟨advance_fits ha i0, ?_⟩
    rw [hq.1, hq.2]
    exact mixed_add i1 (mixed_filter e1')

/-! ### Still water -/

/-- Water at rest of depth `d` with tracer `n` at the nodes. -/
def AtRest (g : Grid) (d : ℝ) (n : DMat ℝ) (q : Fields) (hN : DMat ℝ) : Prop := ∀ i < g.np, ∀ k < g.K, q.at' i k = ⟨d, 0, 0⟩ ∧ hN.at' i k = n.at' i k

theorem rest_add {F : Matrix (Fin g.np) (Fin g.np) ℝ} {d : ℝ} {n : DMat ℝ} {q r : Fields} {hN rN : DMat ℝ} (dt : ℝ) (h : AtRest g d n q hN) (hr : ∀ i < g.np, ∀ k < g.K, r.at' i k = ⟨0, 0, 0⟩ ∧ rN.at' i k = 0) :
    AtRest g d n (Fields.axpy dt (npFilter4 F (r, rN)).1 q) (addTo dt (npFilter4 F (r, rN)).2 hN) := by
  have z : ∀ a : DMat ℝ, (∀ i < g.np, ∀ k < g.K, a.at' i k = 0) → ∀ i < g.np, ∀ k < g.K, (npFilter F a).at' i k = 0 := by
    intro a ha i hi k hk
    unfold npFilter
    simp only [dif_pos hi]
    exact Finset.sum_eq_zero fun j _ => by rw [ha j j.2 k hk, mul_zero]
  intro i hi k hk
  obtain ⟨h1, h2⟩ := h i hi k hk
  have z1 := z r.h (fun i hi k hk => congrArg State.h (hr i hi k hk).1) i hi k hk
  have z2 := z r.hu (fun i hi k hk => congrArg State.hu (hr i hi k hk).1) i hi k hk
  have z3 := z r.hv (fun i hi k hk => congrArg State.hv (hr i hi k hk).1) i hi k hk
  have z4 := z rN (fun i hi k hk => (hr i hi k hk).2) i hi k hk
  refine ⟨?_, ?_⟩
  · rw [← h1]
    show State.mk (q.h.at' i k + dt * (npFilter F r.h).at' i k) (q.hu.at' i k + dt * (npFilter F r.hu).at' i k) (q.hv.at' i k + dt * (npFilter F r.hv).at' i k) = _
    rw [z1, z2, z3]
    simp [Fields.at']
  · show hN.at' i k + dt * (npFilter F rN).at' i k = _
    rw [z4, mul_zero, add_zero, h2]

theorem rest_rhs (h : Provisioned la eps ztol tol N m P g) (hw : ∃ e < 3 * m.K, m.bcType[e]? = some 3) (grav f : ℝ) {d : ℝ} (hd : 0 < d) {n : DMat ℝ} (hcont : Continuous' P g n) {q : Fields} {hN : DMat ℝ} (hq : q.Fits g)
    (hN' : Fits g hN) (hr : AtRest g d n q hN) : ∃ r rN, g.rhsSw2dPy grav f q hN = .ok (r, rN) ∧ ∀ i < g.np, ∀ k < g.K, r.at' i k = ⟨0, 0, 0⟩ ∧ rN.at' i k = 0 := by
  obtain ⟨x, hg, -, hK, -⟩ := h.spec
  have hwet : Wet g q := fun i hi k hk => by
    have := congrArg State.h (hr i hi k hk).1
    simp only [Fields.at'] at this
    rw [this]; exact hd
  have hc : Continuous' P g hN := by
    intro e he i hi
    have a := (hr (g.n.mask i (e % 3)) (hg.maskLt _ (by omega) i hi) (e / 3) (by omega)).2
    have b := (hr (g.n.mask (across P g.N e i) (P e % 3)) (hg.maskLt _ (by omega) _ (across_le P g.N e i hi)) (P e / 3) (by have := hg.lt e he; omega)).2
    have := hcont e he i hi
    unfold bedOut bedIn at this ⊢
    rw [a, b]
    exact this
  obtain ⟨r, rN, h1, h2⟩ := C114_rest h hw grav f 0 q hN hq hN' d hd (fun i hi k hk => (hr i hi k hk).1) hc
  exact ⟨r, rN, by rw [C119_same g grav f q hN hq hwet]; exact h1, h2⟩

/-- **C119, still water.** Water at rest of constant depth with a tracer continuous across faces stays exactly as it is through a run of any length, and the run does not raise as long as the number of steps is at least that of the outputs wanted. -/
theorem C119_rest (h : Provisioned la eps ztol tol N m P g) (hw : ∃ e < 3 * m.K, m.bcType[e]? = some 3) (F : Matrix (Fin g.np) (Fin g.np) ℝ) (grav f T : ℝ) {d : ℝ} (hd : 0 < d) (hd8 : d ≤ 1e8) (n : DMat ℝ) (hcont : Continuous' P g n)
    (s : PySim) (hq : s.q.Fits g) (hN' : Fits g s.hN) (hs : AtRest g d n s.q s.hN) (numOuts : ℕ) (ho : 0 < numOuts) (hns : numOuts ≤ ⌈T / s.dt⌉₊) (k : ℕ) :
    ∃ r, g.sw2dPy (g.rhsSw2dPy grav f) F T numOuts k s = .ok r ∧ AtRest g d n r.s.q r.s.hN := by
  have step : ∀ s : PySim, s.q.Fits g → Fits g s.hN → AtRest g d n s.q s.hN → ∃ s', g.stepSw2dPy (g.rhsSw2dPy grav f) F s = .ok s' ∧ s'.q.Fits g ∧ Fits g s'.hN ∧ AtRest g d n s'.q s'.hN := by
    intro s f1 f2 hs
    obtain ⟨r1, n1, h1, z1⟩ := rest_rhs h hw grav f hd hcont f1 f2 hs
    have hmid : pyMid (g.rhsSw2dPy grav f) F s = .ok (Fields.axpy (0.5 * s.dt) (npFilter4 F (r1, n1)).1 s.q, addTo (0.5 * s.dt) (npFilter4 F (r1, n1)).2 s.hN) := by
      unfold pyMid
      rw [h1]
      rfl
    have hf := mid_fits hmid ⟨f1, f2⟩
    obtain ⟨r2, n2, h2, z2⟩ := rest_rhs h hw grav f hd hcont hf.1 hf.2 (rest_add (0.5 * s.dt) hs z1)
    have hadv : pyAdvance (g.rhsSw2dPy grav f) F s = .ok (Fields.axpy s.dt (npFilter4 F (r2, n2)).1 s.q, addTo s.dt (npFilter4 F (r2, n2)).2 s.hN) := by
      unfold pyAdvance
      rw [hmid, Out.bind_ok]
      simp only
      rw [h2]
      rfl
    have hf' := advance_fits hadv ⟨f1, f2⟩
    have hrest := rest_add (F := F) s.dt hs z2
    have hb : ¬ g.hMax (Fields.axpy s.dt (npFilter4 F (r2, n2)).1 s.q).h > 1e8 := by
      rw [not_lt]
      unfold Grid.hMax
      by_cases hl : (List.range (g.np * g.K)).map (fun c => |(Fields.axpy s.dt (npFilter4 F (r2, n2)).1 s.q).h.at' (c / g.K) (c % g.K)|) = []
      · rw [hl]
        norm_num [listMax]
      · obtain ⟨p, hp, hpe⟩ := List.mem_map.1 (listMax_spec _ hl).2
        rw [List.mem_range] at hp
        have hK : 0 < g.K := by
          rcases Nat.eq_zero_or_pos g.K with h | h
          · rw [h, mul_zero] at hp; omega
          · exact h
        have := congrArg State.h (hrest (p / g.K) ((Nat.div_lt_iff_lt_mul hK).2 hp) (p % g.K) (Nat.mod_lt _ hK)).1
        simp only [Fields.at'] at this
        rw [← hpe, this, abs_of_pos hd]
        exact hd8
    refine ⟨⟨_, _, s.t + s.dt, s.dt⟩, ?_, hf'.1, hf'.2, hrest⟩
    unfold Grid.stepSw2dPy
    rw [hadv, Out.bind_ok]
    simp only
    rw [if_neg hb]
    rfl
  have hoi : ⌈T / s.dt⌉₊ / numOuts ≠ 0 := (Nat.div_pos hns ho).ne'
  unfold Grid.sw2dPy
  generalize ⌈T / s.dt⌉₊ / numOuts = oi at hoi
  generalize ⌈T / s.dt⌉₊ = ns
  suffices ∀ r : PyRun, r.s.q.Fits g → Fits g r.s.hN → AtRest g d n r.s.q r.s.hN → ∃ r', pyWhile (fun r => r.s.t) (g.passSw2dPy (g.rhsSw2dPy grav f) F ns oi) T k r = .ok r' ∧ AtRest g d n r'.s.q r'.s.hN from this _ hq hN' hs
  induction k with
  | zero => exact fun r _ _ hr => ⟨r, rfl, hr⟩
  | succ k ih =>
    intro r f1 f2 hr
    unfold pyWhile
    split_ifs with ht
    · obtain ⟨s', e1, e2, e3, e4⟩ := step r.s f1 f2 hr
      obtain ⟨r1, hr1, hs1⟩ : ∃ r1, g.passSw2dPy (g.rhsSw2dPy grav f) F ns oi r = .ok r1 ∧ r1.s = s' := by
        unfold Grid.passSw2dPy
        rw [e1, Out.bind_ok, if_neg hoi]
        split_ifs
        · exact ⟨_, rfl, rfl⟩
        · exact ⟨_, rfl, rfl⟩
      rw [hr1, Out.bind_ok]
      exact ih r1 (by rw [hs1]; exact e2) (by rw [hs1]; exact e3) (by rw [hs1]; exact e4)
    · exact ⟨r, rfl, hr⟩

/-! ### The step -/

/-- **C119, the step.** For every state with positive depth the step computed before the loop is the largest that respects the Courant condition at every face node. -/
theorem C119_dt (h : Provisioned la eps ztol tol N m P g) (hK : 0 < m.K) {grav CFL : ℝ} (hgr : 0 < grav) (hC : 0 < CFL) (q : Fields) (hwet : Wet g q) :
    ∃ dt, g.dtPy CFL (g.localWave grav q.h) (g.velocity q.hu q.h) (g.velocity q.hv q.h) = .ok dt ∧ StepSize g grav CFL q dt := by
  obtain ⟨x, hg, -, hKe, -⟩ := h.spec
  obtain ⟨dt, h1, h2, h3, h4⟩ := hg.dtPy_ok (by omega) hC (g.localWave grav q.h) (g.velocity q.hu q.h) (g.velocity q.hv q.h) ⟨rfl, rfl⟩ (vel_fits _ _) (vel_fits _ _) fun i hi k hk =>
    Real.sqrt_pos.2 (mul_pos hgr (hwet i hi k hk))
  have e : ∀ e i, (g.localWave grav q.h).at' (g.n.mask i (e % 3)) (e / 3) + √((g.velocity q.hu q.h).at' (g.n.mask i (e % 3)) (e / 3) ^ 2 + (g.velocity q.hv q.h).at' (g.n.mask i (e % 3)) (e / 3) ^ 2) = speed grav (inner g q e i) := by
    intro e i
    unfold speed
    rw [add_comm]
    simp only [Grid.localWave, Grid.velocity, inner, Fields.at', sq]
  simp only [e] at h3 h4
  exact ⟨dt, h1, h2, h3, h4⟩

/-! ### A case that meets the hypotheses -/

/-- Still water of depth ten in the square, with a tracer of concentration one half: the run to time 100 with a step of one and twenty outputs returns after 100 steps and has written 21 to 41 files. -/
example (F : (g : Grid) → Matrix (Fin g.np) (Fin g.np) ℝ) : ∃ g, Provisioned Nodes1D.exactLapack (1 / 2 ^ 52) 1e-10 1e-5 1 square twoTri g ∧
    ∃ r, g.sw2dPy (g.rhsSw2dPy 9.81 1e-4) (F g) 100 20 200 ⟨⟨⟨g.np, g.K, fun _ _ => 10⟩, ⟨g.np, g.K, fun _ _ => 0⟩, ⟨g.np, g.K, fun _ _ => 0⟩⟩, ⟨g.np, g.K, fun _ _ => 5⟩, 0, 1⟩ = .ok r ∧ r.step = 100 ∧ r.s.t = 100 ∧
      (∀ i < g.np, ∀ k < g.K, r.s.q.h.at' i k = 10) ∧ 21 ≤ r.files.length ∧ r.files.length ≤ 41 := by
  obtain ⟨g, hg, -⟩ := square_grid
  obtain ⟨e, he, hP⟩ := square_walls.2
  obtain ⟨r, h1, h2⟩ := C119_rest hg ⟨e, he, (square_walls.1 e he).2 hP⟩ (F g) 9.81 1e-4 100 (d := 10) (by norm_num) (by norm_num) ⟨g.np, g.K, fun _ _ => 5⟩ (fun _ _ _ _ => rfl)
    ⟨⟨⟨g.np, g.K, fun _ _ => 10⟩, ⟨g.np, g.K, fun _ _ => 0⟩, ⟨g.np, g.K, fun _ _ => 0⟩⟩, ⟨g.np, g.K, fun _ _ => 5⟩, 0, 1⟩ ⟨⟨rfl, rfl⟩, ⟨rfl, rfl⟩, rfl, rfl⟩ ⟨rfl, rfl⟩ (fun _ _ _ _ => ⟨rfl, rfl⟩) 20 (by norm_num)
    (by norm_num) 200
  have hn : ⌈(100 : ℝ) / 1⌉₊ = 100 := by norm_num
  obtain ⟨a1, a2, -⟩ := C119_run _ (F g) (by norm_num) 20 200 _ (by norm_num) rfl (by simp only [hn]; norm_num) r h1
  obtain ⟨b1, b2⟩ := C119_files _ (F g) (by norm_num) (by norm_num) 200 _ (by norm_num) rfl (by simp only [hn]; norm_num) r h1
  simp only [hn] at a1 a2
  exact ⟨g, hg, r, h1, a1, by rw [a2]; norm_num, fun i hi k hk => congrArg State.h (h2 i hi k hk).1, b1, b2⟩

end Blitzdg.SW
