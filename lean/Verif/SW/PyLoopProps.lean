import Verif.SW.PyLoop
import Verif.SW.PyWeakMore
import Verif.SW.InPlaceProps

/-!
C118: runs of sw2d_curved.py.
-/

namespace Blitzdg.SW

open MvPolynomial
open Blitzdg.Sparse (DMat)
open Blitzdg.Nodes1D (Lapack)
open Blitzdg.Dense (toMat)
open Blitzdg.DG2D
open Blitzdg.Ctx (Cubature GaussFace CubatureSpec GaussSpec atNode atPoint atGauss over pointAt size)

variable {P : ℕ → ℕ} {x : List ℝ} {bt : List Int} {g : Grid} {c : Cubature} {ga : GaussFace} {NC NG : ℕ} {ts : TriSolve} {J : DMat ℝ} {curved gP : List ℕ} {Q σ : ℕ → ℕ}

/-! ### Passes -/

/-- `m` passes of a loop, one after the other, each begun before the final time. -/
def Passes {α : Type} (clock : α → ℝ) (step : α → Out α) (T : ℝ) (m : ℕ) (S : ℕ → α) : Prop := ∀ j < m, clock (S j) < T ∧ step (S j) = .ok (S (j + 1))

/-- What the loop computes is what some number of passes compute; it stops short of the number allowed only when the final time is reached. -/
theorem while_passes {α : Type} (clock : α → ℝ) (step : α → Out α) (T : ℝ) (n : ℕ) (s s' : α) :
    pyWhile clock step T n s = .ok s' ↔ ∃ m ≤ n, ∃ S, S 0 = s ∧ S m = s' ∧ Passes clock step T m S ∧ (m = n ∨ T ≤ clock s') := by
  induction n generalizing s with
  | zero =>
    simp only [pyWhile, Out.ok.injEq]
    constructor
    · rintro rfl
      exact ⟨0, le_refl _, fun _ => s, rfl, rfl, fun j hj => by omega, Or.inl rfl⟩
    · rintro ⟨m, hm, S, h0, h1, -⟩
      obtain rfl : m = 0 := by omega
      rw [← h0, h1]
  | succ n ih =>
    unfold pyWhile
    split_ifs with ht
    · rw [Out.bind_eq_ok]
      constructor
      · rintro ⟨s1, h1, h2⟩
        obtain ⟨m, hm, S, h3, h4, h5, h6⟩ := (ih s1).1 h2
        refine ⟨m + 1, by omega, fun j => if j = 0 then s else S (j - 1), rfl, by simpa using h4, fun j hj => ?_, h6.imp_left (by omega)⟩
        cases j with
        | zero => exact ⟨ht, by simpa [h3] using h1⟩
        | succ j => simpa using h5 j (by omega)
      · rintro ⟨m, hm, S, h3, h4, h5, h6⟩
        cases m with
        | zero =>
          rcases h6 with h6 | h6
          · omega
          · rw [← h4, h3] at h6; linarith
        | succ m =>
          have := (h5 0 (by omega)).2
          rw [h3] at this
          exact ⟨S 1, this, (ih _).2 ⟨m, by omega, fun j => S (j + 1), rfl, h4, fun j hj => h5 (j + 1) (by omega), h6.imp_left (by omega)⟩⟩
    · simp only [Out.ok.injEq]
      constructor
      · rintro rfl
        exact ⟨0, by omega, fun _ => s, rfl, rfl, fun j hj => by omega, Or.inr (not_lt.1 ht)⟩
      · rintro ⟨m, hm, S, h3, h4, h5, h6⟩
        cases m with
        | zero => rw [← h3, h4]
        | succ m =>
          have := (h5 0 (by omega)).1
          rw [h3] at this
          exact absurd this ht

theorem curved_inv {rhs : PyRhs} {grav CFL : ℝ} {H : DMat ℝ} {F : Matrix (Fin g.np) (Fin g.np) ℝ} {s s' : PySim} (h : g.stepCurved rhs grav CFL H F s = .ok s') :
    pyAdvance rhs F s = .ok (s'.q, s'.hN) ∧ s'.t = s.t + s.dt ∧ g.dtPy CFL (g.meanWave grav H) (g.velocity s'.q.hu s'.q.h) (g.velocity s'.q.hv s'.q.h) = .ok s'.dt ∧ ¬ g.hMax s'.q.h > 1e8 := by
  unfold Grid.stepCurved at h
  obtain ⟨q, h1, h⟩ := Out.bind_eq_ok.1 h
  obtain ⟨dt, h2, h⟩ := Out.bind_eq_ok.1 h
  split_ifs at h with h3
  rw [Out.pure_eq, Out.ok.injEq] at h
  subst h
  exact ⟨h1, rfl, h2, h3⟩

theorem advance_inv {rhs : PyRhs} {n : ℕ} {F : Matrix (Fin n) (Fin n) ℝ} {s : PySim} {q : Fields × DMat ℝ} (h : pyAdvance rhs F s = .ok q) :
    ∃ r1 q1 r2, rhs s.q s.hN = .ok r1 ∧ pyMid rhs F s = .ok q1 ∧ q1 = (Fields.axpy (0.5 * s.dt) (npFilter4 F r1).1 s.q, addTo (0.5 * s.dt) (npFilter4 F r1).2 s.hN) ∧
      rhs q1.1 q1.2 = .ok r2 ∧ q = (Fields.axpy s.dt (npFilter4 F r2).1 s.q, addTo s.dt (npFilter4 F r2).2 s.hN) := by
  unfold pyAdvance at h
  obtain ⟨q1, h1, h⟩ := Out.bind_eq_ok.1 h
  obtain ⟨r2, h2, h⟩ := Out.bind_eq_ok.1 h
  rw [Out.pure_eq, Out.ok.injEq] at h
  have h1' := h1
  unfold pyMid at h1
  obtain ⟨r1, h3, h1⟩ := Out.bind_eq_ok.1 h1
  rw [Out.pure_eq, Out.ok.injEq] at h1
  exact ⟨r1, q1, r2, h3, h1', h1.symm, h2, h.symm⟩

/-! ### The clock -/

/-- **C118, clock.** After any number of passes the clock shows the sum of the steps by which the fields were advanced, and when the loop has stopped it has run past the final time by less than the last step. -/
theorem C118_clock (rhs : PyRhs) (grav CFL T : ℝ) (H : DMat ℝ) (F : Matrix (Fin g.np) (Fin g.np) ℝ) (S : ℕ → PySim) (m : ℕ) (hS : Passes PySim.t (g.stepCurved rhs grav CFL H F) T m S) :
    (S m).t = (S 0).t + ∑ j ∈ Finset.range m, (S j).dt ∧ (0 < m → (S m).t < T + (S (m - 1)).dt) := by
  refine ⟨?_, fun hm => ?_⟩
  · induction m with
    | zero => simp
    | succ n ih =>
      have h1 := ih fun j hj => hS j (by omega)
      have h2 := (curved_inv (hS n (by omega)).2).2.1
      rw [Finset.sum_range_succ]
      linarith
  · obtain ⟨h1, h2⟩ := hS (m - 1) (by omega)
    have := (curved_inv h2).2.1
    rw [show m - 1 + 1 = m by omega] at this
    linarith

/-! ### Blow-up -/

/-- **C118, blow-up.** A pass that does not raise leaves depths of at most 1e8 at every node. -/
theorem C118_bounded (rhs : PyRhs) (grav CFL : ℝ) (H : DMat ℝ) (F : Matrix (Fin g.np) (Fin g.np) ℝ) {s s' : PySim} (h : g.stepCurved rhs grav CFL H F s = .ok s') {i k : ℕ} (hi : i < g.np) (hk : k < g.K) :
    |s'.q.h.at' i k| ≤ 1e8 := by
  have h1 := (curved_inv h).2.2.2
  rw [not_lt] at h1
  have hlt : i * g.K + k < g.np * g.K := by
    have : (i + 1) * g.K ≤ g.np * g.K := Nat.mul_le_mul_right _ hi
    rw [add_mul, one_mul] at this
    omega
  refine le_trans ((listMax_spec _ ?_).1 _ (List.mem_map.2 ⟨i * g.K + k, List.mem_range.2 hlt, ?_⟩)) h1
  · intro h0
    have := congrArg List.length h0
    simp at this
    omega
  · rw [mul_comm, Nat.mul_add_div (by omega), Nat.div_eq_of_lt hk, add_zero, Nat.mul_add_mod, Nat.mod_eq_of_lt hk]

/-! ### Totals -/

theorem pieces_total {u : ℕ → ℕ → ℝ} {A : ℕ → P2} (h : Pieces g u A) : IsTotal g u (∑ k ∈ Finset.range g.K, over (g.tri k) (A k)) := by
  refine ⟨fun k => Ctx.pull (g.tri k) (A k), fun k hk => ?_, rfl⟩
  have := pull_interp (g := g) (k := k) (h k hk).1
  exact ⟨this.1, fun i hi => (this.2 i hi).trans ((h k hk).2 i hi)⟩

/-- Multiplying by the filter keeps totals. -/
theorem GridSpec.filter_total (hg : GridSpec P x bt g) (Nc : ℝ) (h0 : 0 ≤ Nc) (hNc : Nc ≠ g.N) (s : ℤ) (hs : 1 ≤ s) :
    ∃ F : Matrix (Fin g.np) (Fin g.np) ℝ, g.filter Nc s = .ok (fun i j => some (F i j)) ∧ ∀ u M, IsTotal g u.at' M → IsTotal g (npFilter F u).at' M := by
  choose c hc using fun m : Fin (triNp g.N) => filterCoef_spec g.N Nc s hs hNc _ (triDeg_le g.N m)
  refine ⟨_, filter_form g.N Nc s c (fun m => (hc m).1) _ _, fun u M hM => hg.damp_total c (fun m hm => ?_) u.at' M hM⟩
  exact (hc m).2.2.2.1 (by rw [deg_zero hm]; simpa using h0)

/-- The error of conservation of a rate: the cubature error on the elements listed as curved. -/
noncomputable def defect (g : Grid) (curved : List ℕ) (A : ℕ → P2) : ℝ := 2e-14 * ∑ k ∈ curved.toFinset, cross (g.tri k) / 4 * size (g.tri k) (A k)

/-- **C118, one pass.** With every face paired or a wall, a pass changes the totals of volume and tracer by no more than the step times the error of the cubature on the elements listed as curved, for the rates at the
predicted state. -/
theorem C118_pass (h : WeakSetup ts P bt g NC NG c ga J curved Q gP σ) (hw : ∀ e < 3 * g.K, Q e = e → IsWall P bt e) (hNC : g.N ≤ NC) (Nc : ℝ) (h0 : 0 ≤ Nc) (hNc : Nc ≠ g.N) (sx : ℤ) (hsx : 1 ≤ sx) :
    ∃ F : Matrix (Fin g.np) (Fin g.np) ℝ, g.filter Nc sx = .ok (fun i j => some (F i j)) ∧
      ∀ (grav f CFL : ℝ) (CD zx zy H : DMat ℝ) (s s' : PySim) (M L M' L' : ℝ), g.stepCurved (g.rhsWeak ts c ga grav f CD zx zy J curved ga.mapM gP) grav CFL H F s = .ok s' →
        IsTotal g s.q.h.at' M → IsTotal g s.hN.at' L → IsTotal g s'.q.h.at' M' → IsTotal g s'.hN.at' L' →
        ∃ q1 r, pyMid (g.rhsWeak ts c ga grav f CD zx zy J curved ga.mapM gP) F s = .ok q1 ∧ g.rhsWeak ts c ga grav f CD zx zy J curved ga.mapM gP q1.1 q1.2 = .ok r ∧
          (∀ A, Pieces g r.1.h.at' A → |M' - M| ≤ |s.dt| * defect g curved A) ∧ ∀ A, Pieces g r.2.at' A → |L' - L| ≤ |s.dt| * defect g curved A := by
  obtain ⟨x, hg⟩ := h.grid
  obtain ⟨F, hF, hFt⟩ := hg.filter_total Nc h0 hNc sx hsx
  refine ⟨F, hF, fun grav f CFL CD zx zy H s s' M L M' L' hs hM hL hM' hL' => ?_⟩
  obtain ⟨r1, q1, r2, -, hmid, -, hr2, hq⟩ := advance_inv (curved_inv hs).1
  obtain ⟨r, n, hr, e1, e2⟩ := C115_total h hw hNC grav f CD zx zy q1.1 q1.2
  obtain rfl : r2 = (r, n) := by rw [hr] at hr2; injection hr2 with h; exact h.symm
  rw [Prod.mk.injEq] at hq
  refine ⟨q1, _, hmid, hr2, fun A hA => ?_, fun A hA => ?_⟩
  · have t := isTotal_axpy s.dt hM (hFt r.h _ (pieces_total hA))
    have t' : IsTotal g s'.q.h.at' (M + s.dt * ∑ k ∈ Finset.range g.K, over (g.tri k) (A k)) := by rw [hq.1]; exact t
    rw [hg.total_unique hM' t', add_sub_cancel_left, abs_mul]
    exact mul_le_mul_of_nonneg_left (e1 A hA) (abs_nonneg _)
  · have t := isTotal_axpy s.dt hL (hFt n _ (pieces_total hA))
    have t' : IsTotal g s'.hN.at' (L + s.dt * ∑ k ∈ Finset.range g.K, over (g.tri k) (A k)) := by rw [hq.2]; exact t
    rw [hg.total_unique hL' t', add_sub_cancel_left, abs_mul]
    exact mul_le_mul_of_nonneg_left (e2 A hA) (abs_nonneg _)

/-- **C118, totals over a run.** On straight elements, with every face paired or a wall, a run of any number of passes, whatever the filter and the sizes of the steps, keeps the totals of volume and of tracer. -/
theorem C118_total (h : WeakSetup ts P bt g NC NG c ga J [] Q gP σ) (hw : ∀ e < 3 * g.K, Q e = e → IsWall P bt e) (hNC : g.N ≤ NC) (Nc : ℝ) (h0 : 0 ≤ Nc) (hNc : Nc ≠ g.N) (sx : ℤ) (hsx : 1 ≤ sx) :
    ∃ F : Matrix (Fin g.np) (Fin g.np) ℝ, g.filter Nc sx = .ok (fun i j => some (F i j)) ∧
      ∀ (grav f CFL T : ℝ) (CD zx zy H : DMat ℝ) (n : ℕ) (s s' : PySim) (M L : ℝ), pyWhile PySim.t (g.stepCurved (g.rhsWeak ts c ga grav f CD zx zy J [] ga.mapM gP) grav CFL H F) T n s = .ok s' →
        IsTotal g s.q.h.at' M → IsTotal g s.hN.at' L → IsTotal g s'.q.h.at' M ∧ IsTotal g s'.hN.at' L := by
  obtain ⟨x, hg⟩ := h.grid
  obtain ⟨F, hF, hp⟩ := C118_pass h hw hNC Nc h0 hNc sx hsx
  refine ⟨F, hF, fun grav f CFL T CD zx zy H n s s' M L hs hM hL => ?_⟩
  obtain ⟨m, -, S, rfl, rfl, hS, -⟩ := (while_passes _ _ _ _ _ _).1 hs
  clear hs
  induction m with
  | zero => exact ⟨hM, hL⟩
  | succ m ih =>
    obtain ⟨i1, i2⟩ := ih fun j hj => hS j (by omega)
    obtain ⟨M', hM'⟩ := hg.total_exists (S (m + 1)).q.h.at'
    obtain ⟨L', hL'⟩ := hg.total_exists (S (m + 1)).hN.at'
    obtain ⟨q1, r, -, -, e1, e2⟩ := hp grav f CFL CD zx zy H _ _ M L M' L' (hS m (by omega)).2 i1 i2 hM' hL'
    obtain ⟨A, hA⟩ := pieces_exist hg r.1.h.at'
    obtain ⟨B, hB⟩ := pieces_exist hg r.2.at'
    have z : ∀ A, defect g [] A = 0 := fun A => by simp [defect]
    have a := e1 A hA
    have b := e2 B hB
    rw [z, mul_zero] at a b
    have a' : M' = M := sub_eq_zero.1 (abs_nonpos_iff.1 a)
    have b' : L' = L := sub_eq_zero.1 (abs_nonpos_iff.1 b)
    exact ⟨a' ▸ hM', b' ▸ hL'⟩

/-! ### Constant concentration -/

/-- The tracer has concentration `c0` at every node. -/
def Mixed (g : Grid) (c0 : ℝ) (h n : DMat ℝ) : Prop := ∀ i < g.np, ∀ k < g.K, n.at' i k = c0 * h.at' i k

/-- The depth is positive wherever the right-hand side divides by it. -/
def DeepField (g : Grid) (c : Cubature) (ga : GaussFace) (h : DMat ℝ) : Prop := ∃ H, Pieces g h.at' H ∧ Deep g c ga H

theorem mixed_filter {F : Matrix (Fin g.np) (Fin g.np) ℝ} {c0 : ℝ} {h n : DMat ℝ} (hm : Mixed g c0 h n) : Mixed g c0 (npFilter F h) (npFilter F n) := by
  intro i hi k hk
  unfold npFilter
  simp only [dif_pos hi]
  rw [Finset.mul_sum]
  refine Finset.sum_congr rfl fun j _ => ?_
  rw [hm j j.2 k hk]
  ring

theorem mixed_add {c0 d : ℝ} {q r : Fields} {hN n : DMat ℝ} (hm : Mixed g c0 q.h hN) (hr : Mixed g c0 r.h n) : Mixed g c0 (Fields.axpy d r q).h (addTo d n hN) := by
  intro i hi k hk
  show hN.at' i k + d * n.at' i k = c0 * (q.h.at' i k + d * r.h.at' i k)
  rw [hm i hi k hk, hr i hi k hk]
  ring

/-- **C118, concentration over a run.** A tracer of constant concentration keeps it through any number of passes, curved elements or not and whatever the filter, as long as the depth of the states and of the predicted states is positive at the cubature and
Gauss points. -/
theorem C118_constant (h : WeakSetup ts P bt g NC NG c ga J curved Q gP σ) (grav f CFL T : ℝ) (CD zx zy H : DMat ℝ) (F : Matrix (Fin g.np) (Fin g.np) ℝ) (S : ℕ → PySim) (m : ℕ)
    (hS : Passes PySim.t (g.stepCurved (g.rhsWeak ts c ga grav f CD zx zy J curved ga.mapM gP) grav CFL H F) T m S)
    (hd : ∀ j < m, DeepField g c ga (S j).q.h ∧ ∀ q1, pyMid (g.rhsWeak ts c ga grav f CD zx zy J curved ga.mapM gP) F (S j) = .ok q1 → DeepField g c ga q1.1.h)
    (c0 : ℝ) (hc0 : Mixed g c0 (S 0).q.h (S 0).hN) : Mixed g c0 (S m).q.h (S m).hN := by
  induction m with
  | zero => exact hc0
  | succ m ih =>
    have hm := ih (fun j hj => hS j (by omega)) fun j hj => hd j (by omega)
    obtain ⟨⟨A, hA, hA'⟩, hd2⟩ := hd m (by omega)
    obtain ⟨r1, q1, r2, hr1, hmid, hq1, hr2, hq⟩ := advance_inv (curved_inv (hS m (by omega)).2).1
    obtain ⟨B, hB, hB'⟩ := hd2 q1 hmid
    rw [Prod.mk.injEq] at hq
    rw [hq.1, hq.2]
    obtain ⟨r, n, hr, hrn⟩ := C115_constant h grav f CD zx zy (S m).q (S m).hN c0 hm hA hA'
    obtain rfl : r1 = (r, n) := by rw [hr] at hr1; injection hr1 with h; exact h.symm
    have hm1 : Mixed g c0 q1.1.h q1.2 := by rw [hq1]; exact mixed_add hm (mixed_filter hrn)
    obtain ⟨r', n', hr', hrn'⟩ := C115_constant h grav f CD zx zy q1.1 q1.2 c0 hm1 hB hB'
    obtain rfl : r2 = (r', n') := by rw [hr'] at hr2; injection hr2 with h; exact h.symm
    exact mixed_add hm (mixed_filter hrn')

/-! ### The step -/

/-- Speed of the flow. -/
noncomputable def State.flow (q : State) : ℝ := √((q.hu / q.h) ^ 2 + (q.hv / q.h) ^ 2)

/-- The step is the largest for which the Courant number of every face node, with waves of speed `w` relative to the flow, is at most `CFL`. -/
def WaveStep (g : Grid) (w CFL : ℝ) (q : Fields) (dt : ℝ) : Prop :=
  0 < dt ∧
  (∀ e < 3 * g.K, ∀ i ≤ g.N, dt * ((g.N + 1) ^ 2 / 2) * ((w + (inner g q e i).flow) * (faceLen g e / area g (e / 3))) ≤ CFL) ∧
  ∃ e < 3 * g.K, ∃ i ≤ g.N, dt * ((g.N + 1) ^ 2 / 2) * ((w + (inner g q e i).flow) * (faceLen g e / area g (e / 3))) = CFL

theorem GridSpec.pick_inner (hg : GridSpec P x bt g) (a : DMat ℝ) (ha : Fits g a) :
    ∃ r, pick (flatF a) g.maps.vmapM = .ok r ∧ ∀ e < 3 * g.K, ∀ i ≤ g.N, r.getD (g.fn e i) 0 = a.at' (g.n.mask i (e % 3)) (e / 3) := by
  have hv : ∀ e < 3 * g.K, ∀ i ≤ g.N, g.maps.vmapM[g.fn e i]? = some (g.n.mask i (e % 3) + g.np * (e / 3)) := by
    intro e he i hi
    have : vol g.np 3 g.n.mask e i = g.n.mask i (e % 3) + g.np * (e / 3) := by unfold vol; ring
    rw [← this]
    exact hg.vmapM e he i hi
  obtain ⟨r, h1, -, h3⟩ := pick_ok (flatF a) g.maps.vmapM fun c i hc => by
    have hcl : c < g.nf := by rw [← hg.lenM]; exact (List.getElem?_eq_some_iff.1 hc).1
    obtain ⟨e, j, he, hj, rfl⟩ := fn_surj hcl
    rw [hv e he j hj, Option.some.injEq] at hc
    subst hc
    rw [flatF_length, ha.1, ha.2]
    have := hg.maskLt (e % 3) (by omega) j hj
    have e1 : g.np * (e / 3 + 1) ≤ g.np * g.K := Nat.mul_le_mul_left _ (by omega)
    rw [mul_add, mul_one] at e1
    omega
  refine ⟨r, h1, fun e he i hi => ?_⟩
  have hf := flatF_get a (g.n.mask i (e % 3)) (e / 3) (by rw [ha.1]; exact hg.maskLt _ (by omega) i hi) (by rw [ha.2]; omega)
  rw [ha.1] at hf
  exact getD_some ((h3 _ _ (hv e he i hi)).trans hf)

/-- The step computed from an array of wave speeds and two arrays of velocities: the Courant number of every face node is at most `CFL`, that of one is equal to it. -/
theorem GridSpec.dtPy_ok (hg : GridSpec P x bt g) (hK : 0 < g.K) {CFL : ℝ} (hC : 0 < CFL) (c u v : DMat ℝ) (hc : Fits g c) (hu : Fits g u) (hv : Fits g v) (hpos : ∀ i < g.np, ∀ k < g.K, 0 < c.at' i k) :
    ∃ dt, g.dtPy CFL c u v = .ok dt ∧ 0 < dt ∧
      (∀ e < 3 * g.K, ∀ i ≤ g.N, dt * ((g.N + 1) ^ 2 / 2) * ((c.at' (g.n.mask i (e % 3)) (e / 3) + √(u.at' (g.n.mask i (e % 3)) (e / 3) ^ 2 + v.at' (g.n.mask i (e % 3)) (e / 3) ^ 2)) * (faceLen g e / area g (e / 3))) ≤ CFL) ∧
      ∃ e < 3 * g.K, ∃ i ≤ g.N, dt * ((g.N + 1) ^ 2 / 2) * ((c.at' (g.n.mask i (e % 3)) (e / 3) + √(u.at' (g.n.mask i (e % 3)) (e / 3) ^ 2 + v.at' (g.n.mask i (e % 3)) (e / 3) ^ 2)) * (faceLen g e / area g (e / 3))) = CFL := by
  obtain ⟨sp, hsp⟩ : ∃ sp : ℕ → ℕ → ℝ, sp = fun e i => c.at' (g.n.mask i (e % 3)) (e / 3) + √(u.at' (g.n.mask i (e % 3)) (e / 3) ^ 2 + v.at' (g.n.mask i (e % 3)) (e / 3) ^ 2) := ⟨_, rfl⟩
  obtain ⟨cM, c1, c2⟩ := hg.pick_inner c hc
  obtain ⟨uM, u1, u2⟩ := hg.pick_inner u hu
  obtain ⟨vM, v1, v2⟩ := hg.pick_inner v hv
  have hnf : 0 < g.nf := lt_of_le_of_lt (Nat.zero_le _) (fn_lt (g := g) (e := 0) (i := 0) (by omega) (by omega))
  obtain ⟨l, hl⟩ : ∃ l : List ℝ, l = (List.range g.nf).map fun i => (((g.N : ℝ) + 1) ^ 2) * 0.5 * |(flatF ⟨3 * (g.N + 1), g.K, g.fscale⟩).getD i 0| * (cM.getD i 0 + √(uM.getD i 0 ^ 2 + vM.getD i 0 ^ 2)) := ⟨_, rfl⟩
  have hlen : l.length = g.nf := by rw [hl]; simp
  have hval : ∀ e < 3 * g.K, ∀ i ≤ g.N, l.getD (g.fn e i) 0 = ((g.N + 1) ^ 2 / 2) * (sp e i * (faceLen g e / area g (e / 3))) := by
    intro e he i hi
    have hlt := fn_lt (g := g) he hi
    rw [hl, List.getD_eq_getElem _ _ (by simpa using hlt)]
    simp only [List.getElem_map, List.getElem_range]
    rw [c2 e he i hi, u2 e he i hi, v2 e he i hi]
    have hrow : e % 3 * (g.N + 1) + i < 3 * (g.N + 1) := by
      have : (e % 3 + 1) * (g.N + 1) ≤ 3 * (g.N + 1) := Nat.mul_le_mul_right _ (by omega)
      have e1 : (e % 3 + 1) * (g.N + 1) = e % 3 * (g.N + 1) + (g.N + 1) := by ring
      omega
    have hfn : e % 3 * (g.N + 1) + i + 3 * (g.N + 1) * (e / 3) = g.fn e i := by
      unfold Grid.fn
      conv_rhs => rw [← Nat.div_add_mod e 3]
      ring
    have hf := flatF_get ⟨3 * (g.N + 1), g.K, g.fscale⟩ _ (e / 3) hrow (show e / 3 < g.K by omega)
    simp only at hf
    rw [hfn] at hf
    rw [getD_some hf, abs_of_pos (hg.fscale_pos he hi), hg.fscale_geo he hi, hsp]
    ring
  have hne : l ≠ [] := by
    intro h
    rw [h] at hlen
    simp at hlen
    omega
  obtain ⟨h1, h2⟩ := listMax_spec l hne
  obtain ⟨p, hp, hpe⟩ := List.mem_iff_getElem.1 h2
  obtain ⟨e0, i0, he0, hi0, rfl⟩ := fn_surj (g := g) (by rw [← hlen]; exact hp)
  have hmax : listMax l = ((g.N + 1) ^ 2 / 2) * (sp e0 i0 * (faceLen g e0 / area g (e0 / 3))) := by rw [← hval e0 he0 i0 hi0, ← hpe, List.getD_eq_getElem _ _ hp]
  have hmp : 0 < listMax l := by
    rw [hmax, ← hg.fscale_geo he0 hi0]
    have := hg.fscale_pos he0 hi0
    have h3 : 0 < sp e0 i0 := by
      rw [hsp]
      exact add_pos_of_pos_of_nonneg (hpos _ (hg.maskLt _ (by omega) i0 hi0) _ (by omega)) (Real.sqrt_nonneg _)
    positivity
  have hdt : g.dtPy CFL c u v = .ok (CFL / listMax l) := by
    unfold Grid.dtPy
    simp only [c1, u1, v1, Out.bind_ok]
    rw [if_neg (by rw [hg.lenM]; omega), ← hl]
    rfl
  refine ⟨_, hdt, div_pos hC hmp, fun e he i hi => ?_, e0, he0, i0, hi0, ?_⟩
  · have hle : l.getD (g.fn e i) 0 ≤ listMax l := by
      have : g.fn e i < l.length := by rw [hlen]; exact fn_lt he hi
      rw [List.getD_eq_getElem _ _ this]
      exact h1 _ (List.getElem_mem _)
    rw [hval e he i hi, hsp] at hle
    rw [mul_assoc, div_mul_eq_mul_div, div_le_iff₀ hmp]
    exact mul_le_mul_of_nonneg_left hle hC.le
  · rw [hsp] at hmax
    rw [mul_assoc, ← hmax]
    field_simp

theorem vel_fits (m h : DMat ℝ) : Fits g (g.velocity m h) := ⟨rfl, rfl⟩

/-- **C118, the step.** On every grid and for every state, when the mean depth at rest is positive, the next step is computed without error and positive, and it is the largest with which the Courant number of every face node is at most `CFL`, waves moving
with the speed that belongs to the mean depth at rest. -/
theorem C118_dt (hg : GridSpec P x bt g) (hK : 0 < g.K) {grav CFL : ℝ} (hgr : 0 < grav) (hC : 0 < CFL) (H : DMat ℝ) (hH : 0 < g.mean H) (q : Fields) :
    ∃ dt, g.dtPy CFL (g.meanWave grav H) (g.velocity q.hu q.h) (g.velocity q.hv q.h) = .ok dt ∧ WaveStep g √(grav * g.mean H) CFL q dt :=
  hg.dtPy_ok hK hC _ _ _ ⟨rfl, rfl⟩ (vel_fits _ _) (vel_fits _ _) fun _ _ _ _ => Real.sqrt_pos.2 (mul_pos hgr hH)

/-- Where the water is nowhere deeper than the mean depth at rest, the step respects the Courant condition with the speed of the waves there. -/
theorem C118_dt_shallow (hg : GridSpec P x bt g) {grav CFL H0 dt : ℝ} (hgr : 0 < grav) (q : Fields) (hq : ∀ i < g.np, ∀ k < g.K, q.h.at' i k ≤ H0) (h : WaveStep g √(grav * H0) CFL q dt) :
    ∀ e < 3 * g.K, ∀ i ≤ g.N, dt * ((g.N + 1) ^ 2 / 2) * (speed grav (inner g q e i) * (faceLen g e / area g (e / 3))) ≤ CFL := by
  intro e he i hi
  refine le_trans ?_ (h.2.1 e he i hi)
  have h1 : speed grav (inner g q e i) ≤ √(grav * H0) + (inner g q e i).flow := by
    unfold speed State.flow
    rw [sq, sq, add_comm]
    gcongr
    exact hq _ (hg.maskLt _ (by omega) i hi) _ (by omega)
  have h2 : 0 < faceLen g e / area g (e / 3) := by rw [← hg.fscale_geo he hi]; exact hg.fscale_pos he hi
  have h3 := h.1
  gcongr

/-- **C118, the Courant condition, refuted.** In water which lies higher than the mean depth at rest the waves are faster than the step allows: at rest the Courant number of some face node is the prescribed one times the square root of the ratio of the depths. -/
theorem C118_dt_false (hg : GridSpec P x bt g) {grav CFL H0 d dt : ℝ} (hgr : 0 < grav) (hH : 0 < H0) (hd : H0 < d) (hC : 0 < CFL) (q : Fields) (hq : ∀ i < g.np, ∀ k < g.K, q.at' i k = ⟨d, 0, 0⟩)
    (h : WaveStep g √(grav * H0) CFL q dt) :
    ∃ e < 3 * g.K, ∃ i ≤ g.N, CFL < dt * ((g.N + 1) ^ 2 / 2) * (speed grav (inner g q e i) * (faceLen g e / area g (e / 3))) ∧
      dt * ((g.N + 1) ^ 2 / 2) * (speed grav (inner g q e i) * (faceLen g e / area g (e / 3))) = CFL * √(d / H0) := by
  obtain ⟨e, he, i, hi, heq⟩ := h.2.2
  have hin : inner g q e i = ⟨d, 0, 0⟩ := hq _ (hg.maskLt _ (by omega) i hi) _ (by omega)
  have hval : dt * ((g.N + 1) ^ 2 / 2) * (speed grav (inner g q e i) * (faceLen g e / area g (e / 3))) = CFL * √(d / H0) := by
    rw [← heq, hin]
    unfold speed State.flow
    have h1 : √(grav * d) = √(grav * H0) * √(d / H0) := by
      rw [← Real.sqrt_mul (by positivity)]
      congr 1
      field_simp
    simp only [zero_div, mul_zero, add_zero, Real.sqrt_zero, zero_add, h1, ne_eq, OfNat.ofNat_ne_zero, not_false_eq_true, zero_pow]
    ring
  refine ⟨e, he, i, hi, ?_, hval⟩
  rw [hval]
  have : 1 < √(d / H0) := by
    rw [Real.lt_sqrt (by norm_num), one_pow, lt_div_iff₀ hH, one_mul]
    exact hd
  exact (lt_mul_iff_one_lt_right hC).2 this

/-- **C118, end of a run.** If the flow never gets faster than `V` at a face node and `R` bounds the ratios of face length to area, then the loop ends: all passes but one take at least `CFL` over `(N+1)²/2·R·(√(g H̄) + V)` of the time left. -/
theorem C118_ends (hg : GridSpec P x bt g) (hK : 0 < g.K) (rhs : PyRhs) {grav CFL T V R : ℝ} (hgr : 0 < grav) (hC : 0 < CFL) (hV : 0 ≤ V) (H : DMat ℝ) (hH : 0 < g.mean H) (F : Matrix (Fin g.np) (Fin g.np) ℝ)
    (hR : ∀ e < 3 * g.K, faceLen g e / area g (e / 3) ≤ R) (S : ℕ → PySim) (m : ℕ) (hS : Passes PySim.t (g.stepCurved rhs grav CFL H F) T m S)
    (h0 : g.dtPy CFL (g.meanWave grav H) (g.velocity (S 0).q.hu (S 0).q.h) (g.velocity (S 0).q.hv (S 0).q.h) = .ok (S 0).dt) (hflow : ∀ j < m, ∀ e < 3 * g.K, ∀ i ≤ g.N, (inner g (S j).q e i).flow ≤ V) :
    (m - 1) * (CFL / ((g.N + 1) ^ 2 / 2 * ((√(grav * g.mean H) + V) * R))) ≤ T - (S 0).t ∨ m = 0 := by
  rcases Nat.eq_zero_or_pos m with hm | hm
  · exact Or.inr hm
  left
  have hR0 : 0 < R := lt_of_lt_of_le (by rw [← hg.fscale_geo (e := 0) (i := 0) (by omega) (by omega)]; exact hg.fscale_pos (by omega) (by omega)) (hR 0 (by omega))
  have hw : 0 < √(grav * g.mean H) := Real.sqrt_pos.2 (mul_pos hgr hH)
  have hlow : ∀ j < m, CFL / ((g.N + 1) ^ 2 / 2 * ((√(grav * g.mean H) + V) * R)) ≤ (S j).dt := by
    intro j hj
    have hdt : g.dtPy CFL (g.meanWave grav H) (g.velocity (S j).q.hu (S j).q.h) (g.velocity (S j).q.hv (S j).q.h) = .ok (S j).dt := by
      cases j with
      | zero => exact h0
      | succ j => exact (curved_inv (hS j (by omega)).2).2.2.1
    obtain ⟨dt, h1, h2, -, e, he, i, hi, heq⟩ := C118_dt hg hK hgr hC H hH (S j).q
    obtain rfl : (S j).dt = dt := by rw [hdt] at h1; injection h1
    rw [div_le_iff₀ (by positivity), ← heq, mul_assoc]
    have := hflow j hj e he i hi
    have h3 := hR e he
    have h4 : 0 ≤ (inner g (S j).q e i).flow := Real.sqrt_nonneg _
    have h5 : 0 < faceLen g e / area g (e / 3) := by rw [← hg.fscale_geo he hi]; exact hg.fscale_pos he hi
    gcongr
  have hc := (C118_clock rhs grav CFL T H F S (m - 1) fun j hj => hS j (by omega)).1
  have ht := (hS (m - 1) (by omega)).1
  have hsum := Finset.card_nsmul_le_sum (Finset.range (m - 1)) (fun j => (S j).dt) _ fun j hj => hlow j (by have := Finset.mem_range.1 hj; omega)
  rw [Finset.card_range, nsmul_eq_mul, Nat.cast_sub hm, Nat.cast_one] at hsum
  linarith

/-- **C118, outcomes.** From any state a pass either succeeds or raises because a depth at some node exceeds 1e8: there is no other error. -/
theorem C118_returns (h : WeakSetup ts P bt g NC NG c ga J curved Q gP σ) (hK : 0 < g.K) {grav CFL : ℝ} (hgr : 0 < grav) (hC : 0 < CFL) (f : ℝ) (CD zx zy H : DMat ℝ) (hH : 0 < g.mean H)
    (F : Matrix (Fin g.np) (Fin g.np) ℝ) (s : PySim) :
    ∃ q, pyAdvance (g.rhsWeak ts c ga grav f CD zx zy J curved ga.mapM gP) F s = .ok q ∧
      ((∃ s', g.stepCurved (g.rhsWeak ts c ga grav f CD zx zy J curved ga.mapM gP) grav CFL H F s = .ok s' ∧ s'.q = q.1 ∧ s'.hN = q.2 ∧ ∀ i < g.np, ∀ k < g.K, |q.1.h.at' i k| ≤ 1e8) ∨
        g.stepCurved (g.rhsWeak ts c ga grav f CD zx zy J curved ga.mapM gP) grav CFL H F s = .throws ∧ ∃ i < g.np, ∃ k < g.K, 1e8 < |q.1.h.at' i k|) := by
  obtain ⟨x, hg⟩ := h.grid
  obtain rfl := h.gauss.count
  have hr : ∀ q n, ∃ r, g.rhsWeak ts c ga grav f CD zx zy J curved ga.mapM gP q n = .ok r := by
    intro q n
    obtain ⟨U, hU⟩ := isPieces_exist hg q.h.at' q.hu.at' q.hv.at' n.at'
    obtain ⟨r, m, Λ, h1, -⟩ := C115_weak h grav f CD zx zy q n hU
    exact ⟨_, h1⟩
  obtain ⟨r1, h1⟩ := hr s.q s.hN
  obtain ⟨q1, hq1⟩ : ∃ q1, pyMid (g.rhsWeak ts c ga grav f CD zx zy J curved ga.mapM gP) F s = .ok q1 := by
    unfold pyMid
    rw [h1]
    exact ⟨_, rfl⟩
  obtain ⟨r2, h2⟩ := hr q1.1 q1.2
  obtain ⟨q, hq⟩ : ∃ q, pyAdvance (g.rhsWeak ts c ga grav f CD zx zy J curved ga.mapM gP) F s = .ok q := by
    unfold pyAdvance
    rw [hq1, Out.bind_ok, h2]
    exact ⟨_, rfl⟩
  obtain ⟨dt, hdt, -⟩ := C118_dt hg hK hgr hC H hH q.1
  refine ⟨q, hq, ?_⟩
  by_cases hb : g.hMax q.1.h > 1e8
  · right
    refine ⟨?_, ?_⟩
    · unfold Grid.stepCurved
      rw [hq, Out.bind_ok, hdt, Out.bind_ok, if_pos hb]
    · have hl : (List.range (g.np * g.K)).map (fun c => |q.1.h.at' (c / g.K) (c % g.K)|) ≠ [] := by
        intro h0
        unfold Grid.hMax at hb
        rw [h0] at hb
        norm_num [listMax] at hb
      obtain ⟨p, hp, hpe⟩ := List.mem_map.1 (listMax_spec _ hl).2
      rw [List.mem_range] at hp
      refine ⟨p / g.K, (Nat.div_lt_iff_lt_mul hK).2 hp, p % g.K, Nat.mod_lt _ hK, ?_⟩
      rw [hpe]
      exact hb
  · left
    have hs : g.stepCurved (g.rhsWeak ts c ga grav f CD zx zy J curved ga.mapM gP) grav CFL H F s = .ok ⟨q.1, q.2, s.t + s.dt, dt⟩ := by
      unfold Grid.stepCurved
      rw [hq, Out.bind_ok, hdt, Out.bind_ok, if_neg hb]
      rfl
    exact ⟨_, hs, rfl, rfl, fun i hi k hk => C118_bounded _ _ _ _ _ hs hi hk⟩

/-! ### A case that meets the hypotheses -/

theorem mean_one (hK : 0 < g.K) : g.mean ⟨g.np, g.K, fun _ _ => 1⟩ = 1 := by
  have : 0 < g.np := by
    unfold Grid.np
    have : 2 ≤ (g.N + 1) * (g.N + 2) := by nlinarith
    omega
  unfold Grid.mean
  simp only [Finset.sum_const, Finset.card_range, nsmul_eq_mul, mul_one]
  rw [mul_comm, div_self]
  positivity

/-- Water of depth one moving in the square of two triangles between walls, with a tracer of concentration one half, the first step being zero: a pass succeeds, and it meets the hypotheses of the theorems on totals, concentration, clock and step. -/
example (f : ℝ) (CD zx zy u v : DMat ℝ) : ∃ g c ga, ∃ F : Matrix (Fin g.np) (Fin g.np) ℝ, Provisioned Nodes1D.exactLapack (1 / 2 ^ 52) 1e-10 1e-5 1 square twoTri g ∧ g.filter (0.9 * 1) 4 = .ok (fun i j => some (F i j)) ∧
    ∃ s' : PySim, pyWhile PySim.t (g.stepCurved (g.rhsWeak exactTri c ga 9.81 f CD zx zy g.pyJ [] ga.mapM ga.mapP) 9.81 0.75 ⟨g.np, g.K, fun _ _ => 1⟩ F) 10 1 ⟨⟨⟨g.np, g.K, fun _ _ => 1⟩, u, v⟩, ⟨g.np, g.K, fun _ _ => 1 / 2⟩, 0, 0⟩ = .ok s' ∧
      0 < s'.dt ∧ Mixed g (1 / 2) s'.q.h s'.hN ∧ ∀ M, IsTotal g (fun _ _ => 1) M → IsTotal g s'.q.h.at' M := by
  obtain ⟨g, c, ga, hg, h0, hw⟩ := square_weak
  obtain ⟨x, hs, hN, hK, -⟩ := hg.spec
  have hK : g.K = 2 := hK
  have h : WeakSetup exactTri twoTri square.bcType g 2 2 c ga g.pyJ [] twoTri ga.mapP (fun p => ga.mapP.getD p 0) := { h0 with chol := by simp }
  obtain ⟨F, hF, hT⟩ := C118_total h hw (by omega) (0.9 * 1) (by norm_num) (by rw [hN]; norm_num) 4 (by norm_num)
  obtain ⟨s, hsd⟩ : ∃ s : PySim, s = ⟨⟨⟨g.np, g.K, fun _ _ => 1⟩, u, v⟩, ⟨g.np, g.K, fun _ _ => 1 / 2⟩, 0, 0⟩ := ⟨_, rfl⟩
  have hH : 0 < g.mean ⟨g.np, g.K, fun _ _ => 1⟩ := by rw [mean_one (by omega)]; norm_num
  obtain ⟨q, hq, hr⟩ := C118_returns h (by omega) (show (0 : ℝ) < 9.81 by norm_num) (show (0 : ℝ) < 0.75 by norm_num) f CD zx zy ⟨g.np, g.K, fun _ _ => 1⟩ hH F s
  obtain ⟨r1, q1, r2, -, hmid, hq1, -, hqe⟩ := advance_inv hq
  have hone : ∀ i k, q.1.h.at' i k = 1 := by
    intro i k
    rw [hqe, hsd]
    simp [Fields.axpy]
  rcases hr with ⟨s', hs', e1, e2, -⟩ | ⟨-, i, -, k, -, hbig⟩
  · have hp : Passes PySim.t (g.stepCurved (g.rhsWeak exactTri c ga 9.81 f CD zx zy g.pyJ [] ga.mapM ga.mapP) 9.81 0.75 ⟨g.np, g.K, fun _ _ => 1⟩ F) 10 1 (fun j => if j = 0 then s else s') := by
      intro j hj
      obtain rfl : j = 0 := by omega
      exact ⟨by show s.t < 10; rw [hsd]; norm_num, by simpa using hs'⟩
    have hrun : pyWhile PySim.t (g.stepCurved (g.rhsWeak exactTri c ga 9.81 f CD zx zy g.pyJ [] ga.mapM ga.mapP) 9.81 0.75 ⟨g.np, g.K, fun _ _ => 1⟩ F) 10 1 s = .ok s' :=
      (while_passes _ _ _ _ _ _).2 ⟨1, le_refl _, _, rfl, rfl, hp, Or.inl rfl⟩
    have hdeep : ∀ a : DMat ℝ, (∀ i k, a.at' i k = 1) → DeepField g c ga a := fun a ha =>
      ⟨fun _ => 1, fun k hk => ⟨by simp, fun i hi => by rw [ha]; simp [atNode]⟩, fun k hk => ⟨fun i hi => by simp [atPoint], fun i hi => by simp [atGauss]⟩⟩
    have hm := C118_constant h 9.81 f 0.75 10 CD zx zy ⟨g.np, g.K, fun _ _ => 1⟩ F _ 1 hp (fun j hj => by
      obtain rfl : j = 0 := by omega
      refine ⟨hdeep _ fun i k => by rw [if_pos rfl, hsd], fun q1' hq1' => hdeep _ fun i k => ?_⟩
      rw [if_pos rfl, hmid] at hq1'
      injection hq1' with e
      rw [← e, hq1, hsd]
      simp [Fields.axpy]) (1 / 2) (fun i hi k hk => by simp only [if_pos, hsd]; norm_num)
    obtain ⟨dt, hd1, hd2⟩ := C118_dt hs (by omega) (show (0 : ℝ) < 9.81 by norm_num) (show (0 : ℝ) < 0.75 by norm_num) ⟨g.np, g.K, fun _ _ => 1⟩ hH s'.q
    have hd3 := (curved_inv hs').2.2.1
    rw [hd1] at hd3
    injection hd3 with hd3
    refine ⟨g, c, ga, F, hg, hF, s', by rw [← hsd]; exact hrun, hd3 ▸ hd2.1, hm, fun M hM => ?_⟩
    obtain ⟨L, hL⟩ := hs.total_exists (fun _ _ => (1 / 2 : ℝ))
    exact (hT 9.81 f 0.75 10 CD zx zy _ 1 s s' M L hrun (by rw [hsd]; exact hM) (by rw [hsd]; exact hL)).1
  · rw [hone] at hbig
    norm_num at hbig

/-- Still water one unit deep over a bed whose mean depth is one quarter: the Courant number is twice the prescribed one. -/
example : ∃ g q dt, Provisioned Nodes1D.exactLapack (1 / 2 ^ 52) 1e-10 1e-5 1 square twoTri g ∧ WaveStep g √(9.81 * (1 / 4)) 0.75 q dt ∧
    ∃ e < 3 * g.K, ∃ i ≤ g.N, dt * ((g.N + 1) ^ 2 / 2) * (speed 9.81 (inner g q e i) * (faceLen g e / area g (e / 3))) = 0.75 * 2 := by
  obtain ⟨g, c, ga, hg, h0, hw⟩ := square_weak
  obtain ⟨x, hs, hN, hK, -⟩ := hg.spec
  have hK : g.K = 2 := hK
  have hm : g.mean ⟨g.np, g.K, fun _ _ => 1 / 4⟩ = 1 / 4 := by
    have := mean_one (g := g) (by omega)
    unfold Grid.mean at this ⊢
    simp only [Finset.sum_const, Finset.card_range, nsmul_eq_mul, mul_one] at this ⊢
    rw [← mul_assoc, mul_div_right_comm, this]
    norm_num
  obtain ⟨dt, -, h2⟩ := C118_dt hs (by omega) (show (0 : ℝ) < 9.81 by norm_num) (show (0 : ℝ) < 0.75 by norm_num) ⟨g.np, g.K, fun _ _ => 1 / 4⟩ (by rw [hm]; norm_num)
    ⟨⟨g.np, g.K, fun _ _ => 1⟩, ⟨g.np, g.K, fun _ _ => 0⟩, ⟨g.np, g.K, fun _ _ => 0⟩⟩
  rw [hm] at h2
  obtain ⟨e, he, i, hi, -, h3⟩ := C118_dt_false hs (d := 1) (by norm_num) (by norm_num) (by norm_num) (by norm_num) _ (fun _ _ _ _ => rfl) h2
  refine ⟨g, _, dt, hg, h2, e, he, i, hi, h3.trans ?_⟩
  rw [show (1 : ℝ) / (1 / 4) = 2 ^ 2 by norm_num, Real.sqrt_sq (by norm_num)]

end Blitzdg.SW
