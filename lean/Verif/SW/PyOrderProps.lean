import Verif.SW.PyRunProps
import Verif.Time.Midpoint
import Verif.Time.Lipschitz
import Mathlib.Analysis.Complex.ExponentialBounds
import Mathlib.Analysis.SpecialFunctions.Trigonometric.Deriv

/-!
C121: second order of the time stepping of sw2d.py and sw2d_curved.py.
-/

namespace Blitzdg.SW

open Blitzdg.Sparse (DMat)
open Blitzdg.Nodes1D (Lapack)
open Blitzdg.DG2D
open Blitzdg.Midpoint (BL Solution Tube Lip)

variable {la : Lapack} {eps ztol tol : ℝ} {N : ℕ} {m : Mesh} {P : ℕ → ℕ} {x : List ℝ} {bt : List Int} {g : Grid}

/-! ### Specification -/

/-- Values of depth, momenta and tracer at all nodes of the grid, as a vector. -/
def vec (g : Grid) (w : Fields × DMat ℝ) : Fin g.np → Fin g.K → Fin 4 → ℝ := fun i k => ![w.1.h.at' i k, w.1.hu.at' i k, w.1.hv.at' i k, w.2.at' i k]

/-- Arrays of the shape of the grid. -/
def Shaped (g : Grid) (w : Fields × DMat ℝ) : Prop := w.1.Fits g ∧ Fits g w.2

/-- `R` gives the filtered rates of change for all states in `D`. -/
def Rates (g : Grid) (rhs : PyRhs) (F : Matrix (Fin g.np) (Fin g.np) ℝ) (D : Set (Fields × DMat ℝ)) (R : (Fin g.np → Fin g.K → Fin 4 → ℝ) → Fin g.np → Fin g.K → Fin 4 → ℝ) : Prop :=
  ∀ w ∈ D, Shaped g w → ∃ r, rhs w.1 w.2 = .ok r ∧ R (vec g w) = vec g (npFilter4 F r)

/-- States, times and steps of successive passes: each pass advances the fields by `pyAdvance` and the clock by its step. -/
def Advances (rhs : PyRhs) {n : ℕ} (F : Matrix (Fin n) (Fin n) ℝ) (S : ℕ → PySim) (k : ℕ) : Prop := ∀ j < k, pyAdvance rhs F (S j) = .ok ((S (j + 1)).q, (S (j + 1)).hN) ∧ (S (j + 1)).t = (S j).t + (S j).dt

/-! ### The pass is the midpoint rule -/

theorem vec_add (c : ℝ) (r w : Fields × DMat ℝ) : vec g (Fields.axpy c r.1 w.1, addTo c r.2 w.2) = vec g w + c • vec g r := by
  funext i k l
  fin_cases l <;> simp [vec, Fields.axpy, addTo]

theorem advance_step {rhs : PyRhs} {F : Matrix (Fin g.np) (Fin g.np) ℝ} {D : Set (Fields × DMat ℝ)} {R : (Fin g.np → Fin g.K → Fin 4 → ℝ) → Fin g.np → Fin g.K → Fin 4 → ℝ} (hR : Rates g rhs F D R) {s : PySim}
    {q : Fields × DMat ℝ} (h : pyAdvance rhs F s = .ok q) (hs : Shaped g (s.q, s.hN)) (h1 : (s.q, s.hN) ∈ D) (h2 : ∀ w, Shaped g w → vec g w = vec g (s.q, s.hN) + (s.dt / 2) • R (vec g (s.q, s.hN)) → w ∈ D) :
    vec g q = Midpoint.step R s.dt (vec g (s.q, s.hN)) := by
  obtain ⟨r1, q1, r2, e1, e2, e3, e4, e5⟩ := advance_inv h
  obtain ⟨r1', f1, f2⟩ := hR _ h1 hs
  rw [e1, Out.ok.injEq] at f1
  subst f1
  have hm : vec g q1 = vec g (s.q, s.hN) + (s.dt / 2) • R (vec g (s.q, s.hN)) := by
    rw [e3, f2, show s.dt / 2 = 0.5 * s.dt by ring]
    exact vec_add (0.5 * s.dt) (npFilter4 F r1) (s.q, s.hN)
  have hs1 : Shaped g q1 := mid_fits e2 hs
  obtain ⟨r2', f3, f4⟩ := hR q1 (h2 q1 hs1 hm) hs1
  rw [e4, Out.ok.injEq] at f3
  subst f3
  unfold Midpoint.step
  rw [← hm, f4, e5]
  exact vec_add s.dt (npFilter4 F r2) (s.q, s.hN)

theorem advances_shaped {rhs : PyRhs} {F : Matrix (Fin g.np) (Fin g.np) ℝ} {S : ℕ → PySim} {k : ℕ} (hS : Advances rhs F S k) (h0 : Shaped g ((S 0).q, (S 0).hN)) : ∀ j ≤ k, Shaped g ((S j).q, (S j).hN) := by
  intro j
  induction j with
  | zero => intro _; exact h0
  | succ j ih => intro hj; exact advance_fits (hS j (by omega)).1 (ih (by omega))

/-- **C121, error of a run.** Let the rates be given by `R` near a solution `y` of `y' = R(y)` and Lipschitz there.  If the steps are at most `δ` and `δ` is small enough, then after each pass the error at every node is at most
`exp(L t) (e₀ + (L M2/8 + 7 M3/24) δ² t)`, `e₀` being the error at the start. -/
theorem C121_error {rhs : PyRhs} {F : Matrix (Fin g.np) (Fin g.np) ℝ} {R : (Fin g.np → Fin g.K → Fin 4 → ℝ) → Fin g.np → Fin g.K → Fin 4 → ℝ} {y : ℝ → Fin g.np → Fin g.K → Fin 4 → ℝ} {T M2 M3 L r δ : ℝ}
    (hR : Rates g rhs F {w | vec g w ∈ Tube y T r} R) (hy : Solution R y T M2 M3) (hL : 0 ≤ L) (hLip : Lip R L (Tube y T r)) (hM2 : 0 ≤ M2) (hM3 : 0 ≤ M3) (hδ : 0 ≤ δ) {S : ℕ → PySim} {k : ℕ}
    (hS : Advances rhs F S k) (hsh : Shaped g ((S 0).q, (S 0).hN)) (ht0 : (S 0).t = 0) (hdt : ∀ j < k, 0 ≤ (S j).dt ∧ (S j).dt ≤ δ) (htk : (S k).t ≤ T)
    (hsmall : (1 + L * δ / 2) * (Real.exp (L * T) * (‖vec g ((S 0).q, (S 0).hN) - y 0‖ + (L * M2 / 8 + 7 * M3 / 24) * δ ^ 2 * T)) + M2 / 8 * δ ^ 2 ≤ r) :
    ∀ j ≤ k, ∀ (i : Fin g.np) (l : Fin g.K) (c : Fin 4),
      |vec g ((S j).q, (S j).hN) i l c - y (S j).t i l c| ≤ Real.exp (L * (S j).t) * (‖vec g ((S 0).q, (S 0).hN) - y 0‖ + (L * M2 / 8 + 7 * M3 / 24) * δ ^ 2 * (S j).t) := by
  have hsj := advances_shaped hS hsh
  have := Midpoint.convergence hy hL hLip (m := k) (τ := fun j => (S j).dt) (t := fun j => (S j).t) (u := fun j => vec g ((S j).q, (S j).hN)) hM2 hM3 hδ hdt ht0 (fun j hj => (hS j hj).2) htk
    (fun j hj h1 h2 => advance_step hR (hS j hj).1 (hsj j hj.le) h1 fun w _ e => by
      show vec g w ∈ Tube y T r
      rw [e]
      exact h2) hsmall
  intro j hj i l c
  refine le_trans ?_ (this j hj).1
  have := norm_le_pi_norm (vec g ((S j).q, (S j).hN) - y (S j).t) i
  have h2 := norm_le_pi_norm ((vec g ((S j).q, (S j).hN) - y (S j).t) i) l
  have h3 := norm_le_pi_norm ((vec g ((S j).q, (S j).hN) - y (S j).t) i l) c
  exact le_trans h3 (le_trans h2 this)

/-- Runs of sw2d_curved.py and of sw2d.py are of this kind. -/
theorem C121_passes {rhs : PyRhs} {F : Matrix (Fin g.np) (Fin g.np) ℝ} {T : ℝ} {k : ℕ} :
    (∀ (grav CFL : ℝ) (H : DMat ℝ) (S : ℕ → PySim), Passes PySim.t (g.stepCurved rhs grav CFL H F) T k S → Advances rhs F S k) ∧
      ∀ (ns oi : ℕ) (S : ℕ → PyRun), Passes (fun r => r.s.t) (g.passSw2dPy rhs F ns oi) T k S → Advances rhs F (fun j => (S j).s) k := by
  refine ⟨fun grav CFL H S hS j hj => ?_, fun ns oi S hS j hj => ?_⟩
  · obtain ⟨a, b, -⟩ := curved_inv (hS j hj).2
    exact ⟨a, b⟩
  · obtain ⟨a, b, -⟩ := sw_inv (pass_inv (hS j hj).2).1
    exact ⟨a, b⟩

/-! ### The rates of sw2d.py are Lipschitz where the water is deep -/

/-- Distance of two states: the largest difference at a node. -/
noncomputable def apart (g : Grid) (w w' : Fields × DMat ℝ) : ℝ := ‖vec g w - vec g w'‖

/-- States of the shape of the grid with depth at least `d0` and values of at most `B`. -/
def DeepSet (g : Grid) (d0 B : ℝ) : Set (Fields × DMat ℝ) := {w | Shaped g w ∧ (∀ i < g.np, ∀ k < g.K, d0 ≤ w.1.h.at' i k) ∧ ‖vec g w‖ ≤ B}

theorem apart_nonneg (w w' : Fields × DMat ℝ) : 0 ≤ apart g w w' := norm_nonneg _

theorem comp_le (v : Fin g.np → Fin g.K → Fin 4 → ℝ) (i : Fin g.np) (k : Fin g.K) (c : Fin 4) : |v i k c| ≤ ‖v‖ :=
  le_trans (norm_le_pi_norm (v i k) c) (le_trans (norm_le_pi_norm (v i) k) (norm_le_pi_norm v i))

theorem BL_comp {d0 B : ℝ} (φ : Fields × DMat ℝ → ℝ) (i : Fin g.np) (k : Fin g.K) (c : Fin 4) (h : ∀ w, φ w = vec g w i k c) : BL (apart g) (DeepSet g d0 B) φ := by
  by_cases hne : (DeepSet g d0 B).Nonempty
  · obtain ⟨w0, hw0⟩ := hne
    refine ⟨B, 1, le_trans (norm_nonneg _) hw0.2.2, zero_le_one, fun a ha => ⟨?_, fun b hb => ?_⟩⟩
    · rw [h]; exact le_trans (comp_le _ i k c) ha.2.2
    · rw [h, h, one_mul]; exact comp_le (vec g a - vec g b) i k c
  · exact ⟨0, 0, le_refl _, le_refl _, fun a ha => absurd ⟨a, ha⟩ hne⟩

section bl

variable {α : Type*} {d : α → α → ℝ} {D : Set α}

/-- Components bounded and Lipschitz, depth bounded below. -/
structure BLState (d : α → α → ℝ) (D : Set α) (s : α → State) : Prop where
  h : BL d D fun a => (s a).h
  hu : BL d D fun a => (s a).hu
  hv : BL d D fun a => (s a).hv
  low : ∃ c, 0 < c ∧ ∀ a ∈ D, c ≤ (s a).h

theorem BLState.vel {s : α → State} (hs : BLState d D s) : BL d D (fun a => (s a).vel.1) ∧ BL d D (fun a => (s a).vel.2) := by
  obtain ⟨c, hc, hl⟩ := hs.low
  exact ⟨hs.hu.div hs.h hc hl, hs.hv.div hs.h hc hl⟩

theorem BLState.flux {s : α → State} (hs : BLState d D s) (grav : ℝ) : BL d D (fun a => (fluxF grav (s a)).c1) ∧ BL d D (fun a => (fluxF grav (s a)).c2) ∧ BL d D (fun a => (fluxF grav (s a)).c3) ∧
    BL d D (fun a => (fluxG grav (s a)).c1) ∧ BL d D (fun a => (fluxG grav (s a)).c2) ∧ BL d D (fun a => (fluxG grav (s a)).c3) := by
  obtain ⟨c, hc, hl⟩ := hs.low
  have hp : BL d D fun a => 0.5 * grav * (s a).h * (s a).h := ((BL.const (0.5 * grav)).mul hs.h).mul hs.h
  exact ⟨hs.hu, ((hs.hu.mul hs.hu).div hs.h hc hl).add hp, (hs.hu.mul hs.hv).div hs.h hc hl, hs.hv, (hs.hu.mul hs.hv).div hs.h hc hl, ((hs.hv.mul hs.hv).div hs.h hc hl).add hp⟩

theorem BLState.speed {s : α → State} (hs : BLState d D s) {grav : ℝ} (hg : 0 < grav) : BL d D fun a => SW.speed grav (s a) := by
  obtain ⟨c, hc, hl⟩ := hs.low
  exact (hs.vel.1.hyp hs.vel.2).add (((BL.const grav).mul hs.h).sqrt (mul_pos hg hc) fun a ha => mul_le_mul_of_nonneg_left (hl a ha) hg.le)

theorem BLState.jump {s t : α → State} (hs : BLState d D s) (ht : BLState d D t) (grav nx ny : ℝ) {Λ : α → ℝ} (hΛ : BL d D Λ) :
    BL d D (fun a => (jumpFlux grav nx ny (Λ a) (s a) (t a)).c1) ∧ BL d D (fun a => (jumpFlux grav nx ny (Λ a) (s a) (t a)).c2) ∧ BL d D (fun a => (jumpFlux grav nx ny (Λ a) (s a) (t a)).c3) := by
  obtain ⟨f1, f2, f3, g1, g2, g3⟩ := hs.flux grav
  obtain ⟨f1', f2', f3', g1', g2', g3'⟩ := ht.flux grav
  exact ⟨(BL.const 0.5).mul ((((f1.sub f1').mul (BL.const nx)).add ((g1.sub g1').mul (BL.const ny))).sub (hΛ.mul (hs.h.sub ht.h))),
    (BL.const 0.5).mul ((((f2.sub f2').mul (BL.const nx)).add ((g2.sub g2').mul (BL.const ny))).sub (hΛ.mul (hs.hu.sub ht.hu))),
    (BL.const 0.5).mul ((((f3.sub f3').mul (BL.const nx)).add ((g3.sub g3').mul (BL.const ny))).sub (hΛ.mul (hs.hv.sub ht.hv)))⟩

theorem BLState.tracer {s t : α → State} (hs : BLState d D s) (ht : BLState d D t) (nx ny : ℝ) {Λ a b : α → ℝ} (hΛ : BL d D Λ) (ha : BL d D a) (hb : BL d D b) :
    BL d D (fun w => tracerJump nx ny (Λ w) (s w) (t w) (a w) (b w)) :=
  (BL.const 0.5).mul (((((ha.mul hs.vel.1).sub (hb.mul ht.vel.1)).mul (BL.const nx)).add (((ha.mul hs.vel.2).sub (hb.mul ht.vel.2)).mul (BL.const ny))).sub (hΛ.mul (ha.sub hb)))

theorem BL_divergence (g : Grid) (F G : α → ℕ → ℕ → ℝ) (i k : ℕ) (hF : ∀ j < g.np, BL d D fun a => F a j k) (hG : ∀ j < g.np, BL d D fun a => G a j k) : BL d D fun a => g.divergence (F a) (G a) i k := by
  have hs : ∀ (c : ℕ → ℝ) (F : α → ℕ → ℕ → ℝ), (∀ j < g.np, BL d D fun a => F a j k) → BL d D fun a => ∑ j ∈ Finset.range g.np, c j * F a j k := fun c F h =>
    BL.sum _ _ fun j hj => (BL.const (c j)).mul (h j (Finset.mem_range.1 hj))
  unfold Grid.divergence
  exact (((BL.const _).mul (hs _ F hF)).add ((BL.const _).mul (hs _ F hF))).neg.add (((BL.const _).mul (hs _ G hG)).add ((BL.const _).mul (hs _ G hG))).neg

theorem BL_surface (g : Grid) (dF : α → DMat ℝ) (i : ℕ) {k : ℕ} (hk : k < g.K) (J : ℕ → ℕ → α → ℝ) (hJ : ∀ e < 3 * g.K, ∀ i ≤ g.N, BL d D (J e i)) (h : ∀ a ∈ D, ∀ e < 3 * g.K, ∀ i ≤ g.N, (dF a).at' (e % 3 * (g.N + 1) + i) (e / 3) = J e i a) :
    BL d D fun a => g.surface (dF a) i k := by
  unfold Grid.surface
  refine BL.sum _ _ fun c hc => (BL.const _).mul ((BL.const _).mul ?_)
  rw [Finset.mem_range] at hc
  have h1 : c / (g.N + 1) < 3 := Nat.div_lt_of_lt_mul (by rw [mul_comm]; exact hc)
  have h2 : c % (g.N + 1) ≤ g.N := Nat.le_of_lt_succ (Nat.mod_lt c (Nat.succ_pos g.N))
  have h3 := Nat.div_add_mod c (g.N + 1)
  obtain ⟨f, hf⟩ : ∃ f, f = c / (g.N + 1) := ⟨_, rfl⟩
  obtain ⟨j, hj⟩ : ∃ j, j = c % (g.N + 1) := ⟨_, rfl⟩
  rw [← hf] at h1 h3
  rw [← hj] at h2 h3
  refine (hJ (3 * k + f) (by omega) j h2).congr fun a ha => ?_
  have := h a ha (3 * k + f) (by omega) j h2
  rw [show (3 * k + f) % 3 = f by omega, show (3 * k + f) / 3 = k by omega, mul_comm, h3] at this
  exact this

end bl

/-- The state at a node. -/
theorem BL_node {d0 B : ℝ} (hd0 : 0 < d0) {i k : ℕ} (hi : i < g.np) (hk : k < g.K) : BLState (apart g) (DeepSet g d0 B) (fun w => w.1.at' i k) ∧ BL (apart g) (DeepSet g d0 B) (fun w => w.2.at' i k) :=
  ⟨⟨BL_comp _ ⟨i, hi⟩ ⟨k, hk⟩ 0 fun _ => rfl, BL_comp _ ⟨i, hi⟩ ⟨k, hk⟩ 1 fun _ => rfl, BL_comp _ ⟨i, hi⟩ ⟨k, hk⟩ 2 fun _ => rfl, d0, hd0, fun _ hw => hw.2.1 i hi k hk⟩, BL_comp _ ⟨i, hi⟩ ⟨k, hk⟩ 3 fun _ => rfl⟩

theorem GridSpec.BL_sides (hg : GridSpec P x bt g) {d0 B : ℝ} (hd0 : 0 < d0) {e i : ℕ} (he : e < 3 * g.K) (hi : i ≤ g.N) :
    BLState (apart g) (DeepSet g d0 B) (fun w => inner g w.1 e i) ∧ BLState (apart g) (DeepSet g d0 B) (fun w => exterior P bt g w.1 e i) ∧
      BL (apart g) (DeepSet g d0 B) (fun w => innerN g w.2 e i) ∧ BL (apart g) (DeepSet g d0 B) (fun w => outerN P g w.2 e i) := by
  have ha := BL_node (g := g) (B := B) hd0 (hg.maskLt (e % 3) (by omega) i hi) (by omega : e / 3 < g.K)
  have hb := BL_node (g := g) (B := B) hd0 (hg.maskLt (P e % 3) (by omega) _ (across_le P g.N e i hi)) (by have := hg.lt e he; omega : P e / 3 < g.K)
  refine ⟨ha.1, ?_, ha.2, hb.2⟩
  unfold exterior
  split_ifs with h
  · have hm := (ha.1.hu.mul (BL.const (faceNormal g e).1)).add (ha.1.hv.mul (BL.const (faceNormal g e).2))
    exact ⟨hb.1.h, ha.1.hu.sub ((BL.const (2 * (faceNormal g e).1)).mul hm), ha.1.hv.sub ((BL.const (2 * (faceNormal g e).2)).mul hm), hb.1.low⟩
  · exact hb.1

/-- The rates of swhelpers/rhs.py without drag over a level bed, as functions of the state. -/
theorem GridSpec.BL_rates (hg : GridSpec P x bt g) (hw : ∃ e < 3 * g.K, bt[e]? = some 3) {grav : ℝ} (hgr : 0 < grav) (f : ℝ) {d0 B : ℝ} (hd0 : 0 < d0) :
    ∃ r : Fields × DMat ℝ → Fields × DMat ℝ, (∀ w ∈ DeepSet g d0 B, g.rhsSw2dPy grav f w.1 w.2 = .ok (r w)) ∧
      ∀ i < g.np, ∀ k < g.K, BL (apart g) (DeepSet g d0 B) (fun w => (r w).1.h.at' i k) ∧ BL (apart g) (DeepSet g d0 B) (fun w => (r w).1.hu.at' i k) ∧
        BL (apart g) (DeepSet g d0 B) (fun w => (r w).1.hv.at' i k) ∧ BL (apart g) (DeepSet g d0 B) (fun w => (r w).2.at' i k) := by
  have hwet : ∀ w ∈ DeepSet g d0 B, Wet g w.1 := fun w h i hi k hk => lt_of_lt_of_le hd0 (h.2.1 i hi k hk)
  have hex : ∀ w : Fields × DMat ℝ, ∃ (Λ : ℕ → ℕ → ℝ) (d1 d2 d3 d4 : DMat ℝ) (r : Fields) (n : DMat ℝ), w ∈ DeepSet g d0 B → _ := fun w => by
    by_cases h : w ∈ DeepSet g d0 B
    · obtain ⟨Λ, d1, d2, d3, d4, r, n, hh⟩ := hg.rhsPy_ok grav f 0 (zeroMat g.np g.K) (zeroMat g.np g.K) w.1 w.2 h.1.1 h.1.2 (hwet w h) hw
      exact ⟨Λ, d1, d2, d3, d4, r, n, fun _ => hh⟩
    · exact ⟨fun _ _ => 0, w.2, w.2, w.2, w.2, w.1, w.2, fun h' => absurd h' h⟩
  choose Λ d1 d2 d3 d4 r n hall using hex
  have hΛ : ∀ e < 3 * g.K, ∀ i ≤ g.N, BL (apart g) (DeepSet g d0 B) fun w => Λ w e i := fun e he i hi =>
    BL.isMax (N := g.N) (s := fun j (w : Fields × DMat ℝ) => max (speed grav (inner g w.1 e j)) (speed grav (exterior P bt g w.1 e j))) (fun j hj => by
      obtain ⟨a, b, -⟩ := hg.BL_sides (B := B) hd0 he hj
      exact (a.speed hgr).max (b.speed hgr) apart_nonneg) (fun w h => (hall w h).2.2.2.2.2.2.2.1 e he i hi) apart_nonneg
  have hJ : ∀ e < 3 * g.K, ∀ i ≤ g.N, _ := fun e he i hi => by
    obtain ⟨a, b, -⟩ := hg.BL_sides (B := B) hd0 he hi
    exact a.jump b grav (faceNormal g e).1 (faceNormal g e).2 (hΛ e he i hi)
  have hflux : ∀ j < g.np, ∀ k < g.K, _ := fun j hj k hk => ((BL_node (g := g) (B := B) hd0 hj hk).1).flux grav
  refine ⟨fun w => (r w, n w), fun w h => ?_, fun i hi k hk => ⟨?_, ?_, ?_, ?_⟩⟩
  · rw [C119_same g grav f w.1 w.2 h.1.1 (hwet w h)]
    exact (hall w h).1
  · refine ((BL_divergence g (fun w j k => (fluxF grav (w.1.at' j k)).c1) (fun w j k => (fluxG grav (w.1.at' j k)).c1) i k (fun j hj => (hflux j hj k hk).1) fun j hj => (hflux j hj k hk).2.2.2.1).add
      (BL_surface g d1 i hk _ (fun e he i hi => (hJ e he i hi).1) fun w h e he i hi => ((hall w h).2.2.2.2.2.2.2.2 e he i hi).1)).congr fun w h => (hall w h).2.2.2.1 i k
  · refine (((BL_divergence g (fun w j k => (fluxF grav (w.1.at' j k)).c2) (fun w j k => (fluxG grav (w.1.at' j k)).c2) i k (fun j hj => (hflux j hj k hk).2.1) fun j hj => (hflux j hj k hk).2.2.2.2.1).add
      (BL_surface g d2 i hk _ (fun e he i hi => (hJ e he i hi).2.1) fun w h e he i hi => ((hall w h).2.2.2.2.2.2.2.2 e he i hi).2.1)).add
      ((BL.const f).mul (BL_node (g := g) (B := B) hd0 hi hk).1.hv)).congr fun w h => ?_
    rw [(hall w h).2.2.2.2.1 i k]
    simp [sourcePy, zeroMat, Fields.at']
  · refine (((BL_divergence g (fun w j k => (fluxF grav (w.1.at' j k)).c3) (fun w j k => (fluxG grav (w.1.at' j k)).c3) i k (fun j hj => (hflux j hj k hk).2.2.1) fun j hj => (hflux j hj k hk).2.2.2.2.2).add
      (BL_surface g d3 i hk _ (fun e he i hi => (hJ e he i hi).2.2) fun w h e he i hi => ((hall w h).2.2.2.2.2.2.2.2 e he i hi).2.2.1)).sub
      ((BL.const f).mul (BL_node (g := g) (B := B) hd0 hi hk).1.hu)).congr fun w h => ?_
    rw [(hall w h).2.2.2.2.2.1 i k]
    simp [sourcePy, zeroMat, Fields.at', sub_eq_add_neg]
  · have ht : ∀ e < 3 * g.K, ∀ i ≤ g.N, BL (apart g) (DeepSet g d0 B) fun w => tracerJump (faceNormal g e).1 (faceNormal g e).2 (Λ w e i) (inner g w.1 e i) (exterior P bt g w.1 e i) (innerN g w.2 e i) (outerN P g w.2 e i) := by
      intro e he i hi
      obtain ⟨a, b, c, e'⟩ := hg.BL_sides (B := B) hd0 he hi
      exact a.tracer b _ _ (hΛ e he i hi) c e'
    have h1 := BL_surface g d4 i hk (fun e i (w : Fields × DMat ℝ) => tracerJump (faceNormal g e).1 (faceNormal g e).2 (Λ w e i) (inner g w.1 e i) (exterior P bt g w.1 e i) (innerN g w.2 e i) (outerN P g w.2 e i)) ht
      fun w h e he i hi => ((hall w h).2.2.2.2.2.2.2.2 e he i hi).2.2.2
    have hn : ∀ j < g.np, BL (apart g) (DeepSet g d0 B) (fun w => w.2.at' j k * (w.1.at' j k).vel.1) ∧ BL (apart g) (DeepSet g d0 B) (fun w => w.2.at' j k * (w.1.at' j k).vel.2) := fun j hj => by
      obtain ⟨a, b⟩ := BL_node (g := g) (B := B) hd0 hj hk
      exact ⟨b.mul a.vel.1, b.mul a.vel.2⟩
    have h2 := BL_divergence g (fun (w : Fields × DMat ℝ) j k => w.2.at' j k * (w.1.at' j k).vel.1) (fun w j k => w.2.at' j k * (w.1.at' j k).vel.2) i k (fun j hj => (hn j hj).1) fun j hj => (hn j hj).2
    exact (h2.add h1).congr fun w h => (hall w h).2.2.2.2.2.2.1 i k

/-- Arrays with given values. -/
def unvec (g : Grid) (v : Fin g.np → Fin g.K → Fin 4 → ℝ) : Fields × DMat ℝ :=
  let a : Fin 4 → DMat ℝ := fun c => ⟨g.np, g.K, fun i k => if h : i < g.np ∧ k < g.K then v ⟨i, h.1⟩ ⟨k, h.2⟩ c else 0⟩
  (⟨a 0, a 1, a 2⟩, a 3)

theorem vec_unvec (v : Fin g.np → Fin g.K → Fin 4 → ℝ) : vec g (unvec g v) = v := by
  funext i k c
  fin_cases c <;> simp [vec, unvec]

theorem unvec_shaped (v : Fin g.np → Fin g.K → Fin 4 → ℝ) : Shaped g (unvec g v) := ⟨⟨⟨rfl, rfl⟩, ⟨rfl, rfl⟩, ⟨rfl, rfl⟩⟩, ⟨rfl, rfl⟩⟩

/-- A positive lower bound for finitely many positive numbers. -/
theorem pos_below {n : ℕ} {p : ℕ} (f : Fin n → Fin p → ℝ) (h : ∀ i k, 0 < f i k) : ∃ c, 0 < c ∧ ∀ i k, c ≤ f i k := by
  by_cases hne : Nonempty (Fin n × Fin p)
  · obtain ⟨a, ha⟩ := Finite.exists_min fun a : Fin n × Fin p => f a.1 a.2
    exact ⟨f a.1 a.2, h _ _, fun i k => ha (i, k)⟩
  · exact ⟨1, one_pos, fun i k => absurd ⟨(i, k)⟩ hne⟩

/-- Filtered rates with Lipschitz components are Lipschitz. -/
theorem filtered_lip (F : Matrix (Fin g.np) (Fin g.np) ℝ) {D : Set (Fields × DMat ℝ)} {r : Fields × DMat ℝ → Fields × DMat ℝ}
    (h : ∀ i < g.np, ∀ k < g.K, BL (apart g) D (fun w => (r w).1.h.at' i k) ∧ BL (apart g) D (fun w => (r w).1.hu.at' i k) ∧ BL (apart g) D (fun w => (r w).1.hv.at' i k) ∧ BL (apart g) D (fun w => (r w).2.at' i k)) :
    ∃ L, 0 ≤ L ∧ ∀ a ∈ D, ∀ b ∈ D, ‖vec g (npFilter4 F (r a)) - vec g (npFilter4 F (r b))‖ ≤ L * ‖vec g a - vec g b‖ := by
  have hf : ∀ (u : Fields × DMat ℝ → DMat ℝ), (∀ i < g.np, ∀ k < g.K, BL (apart g) D fun w => (u w).at' i k) → ∀ (i : Fin g.np) (k : Fin g.K), BL (apart g) D fun w => (npFilter F (u w)).at' i k := by
    intro u hu i k
    have : BL (apart g) D fun w => ∑ j : Fin g.np, F i j * (u w).at' j k := BL.sum _ _ fun j _ => (BL.const _).mul (hu j j.2 k k.2)
    refine this.congr fun w _ => ?_
    simp [npFilter]
  have hc : ∀ (i : Fin g.np) (k : Fin g.K) (c : Fin 4), BL (apart g) D fun w => vec g (npFilter4 F (r w)) i k c := by
    intro i k c
    fin_cases c
    · exact hf _ (fun i hi k hk => (h i hi k hk).1) i k
    · exact hf _ (fun i hi k hk => (h i hi k hk).2.1) i k
    · exact hf _ (fun i hi k hk => (h i hi k hk).2.2.1) i k
    · exact hf _ (fun i hi k hk => (h i hi k hk).2.2.2) i k
  choose B L hB hL hBL using hc
  have hle : ∀ i k c, L i k c ≤ ∑ i, ∑ k, ∑ c, L i k c := by
    intro i k c
    calc L i k c ≤ ∑ c, L i k c := Finset.single_le_sum (fun c _ => hL i k c) (Finset.mem_univ c)
      _ ≤ ∑ k, ∑ c, L i k c := Finset.single_le_sum (f := fun k => ∑ c, L i k c) (fun k _ => Finset.sum_nonneg fun c _ => hL i k c) (Finset.mem_univ k)
      _ ≤ _ := Finset.single_le_sum (f := fun i => ∑ k, ∑ c, L i k c) (fun i _ => Finset.sum_nonneg fun k _ => Finset.sum_nonneg fun c _ => hL i k c) (Finset.mem_univ i)
  have h0 : 0 ≤ ∑ i, ∑ k, ∑ c, L i k c := Finset.sum_nonneg fun i _ => Finset.sum_nonneg fun k _ => Finset.sum_nonneg fun c _ => hL i k c
  refine ⟨_, h0, fun a ha b hb => ?_⟩
  have hr : 0 ≤ (∑ i, ∑ k, ∑ c, L i k c) * ‖vec g a - vec g b‖ := mul_nonneg h0 (norm_nonneg _)
  refine (pi_norm_le_iff_of_nonneg hr).2 fun i => (pi_norm_le_iff_of_nonneg hr).2 fun k => (pi_norm_le_iff_of_nonneg hr).2 fun c => ?_
  exact le_trans ((hBL i k c a ha).2 b hb) (mul_le_mul_of_nonneg_right (hle i k c) (norm_nonneg _))

/-- Wet states of the shape of the grid are deep enough for some bounds. -/
theorem deep_of_wet {w : Fields × DMat ℝ} (hs : Shaped g w) (hw : Wet g w.1) : ∃ d0, 0 < d0 ∧ ∀ B, ‖vec g w‖ ≤ B → ∀ d, d ≤ d0 → w ∈ DeepSet g d B := by
  obtain ⟨c, hc, h⟩ := pos_below (fun (i : Fin g.np) (k : Fin g.K) => w.1.h.at' i k) fun i k => hw i i.2 k k.2
  exact ⟨c, hc, fun B hB d hd => ⟨hs, fun i hi k hk => le_trans hd (h ⟨i, hi⟩ ⟨k, hk⟩), hB⟩⟩

/-- Rates that are Lipschitz on all sets of deep states are a function of the values at the nodes, ... -/
theorem rates_exist {rhs : PyRhs} (F : Matrix (Fin g.np) (Fin g.np) ℝ)
    (h : ∀ d0 B, 0 < d0 → ∃ r : Fields × DMat ℝ → Fields × DMat ℝ, (∀ w ∈ DeepSet g d0 B, rhs w.1 w.2 = .ok (r w)) ∧
      ∀ i < g.np, ∀ k < g.K, BL (apart g) (DeepSet g d0 B) (fun w => (r w).1.h.at' i k) ∧ BL (apart g) (DeepSet g d0 B) (fun w => (r w).1.hu.at' i k) ∧
        BL (apart g) (DeepSet g d0 B) (fun w => (r w).1.hv.at' i k) ∧ BL (apart g) (DeepSet g d0 B) (fun w => (r w).2.at' i k)) :
    ∃ R, Rates g rhs F {w | Wet g w.1} R := by
  classical
  refine ⟨fun v => if h : ∃ w r, Shaped g w ∧ Wet g w.1 ∧ vec g w = v ∧ rhs w.1 w.2 = .ok r then vec g (npFilter4 F h.choose_spec.choose) else 0, fun w hw hs => ?_⟩
  have hex : ∀ w, Wet g w.1 → Shaped g w → ∃ r, rhs w.1 w.2 = .ok r := fun w hw hs => by
    obtain ⟨d0, hd0, hd⟩ := deep_of_wet hs hw
    obtain ⟨r, hr, -⟩ := h d0 ‖vec g w‖ hd0
    exact ⟨_, hr w (hd _ (le_refl _) d0 (le_refl _))⟩
  obtain ⟨r, hr⟩ := hex w hw hs
  refine ⟨r, hr, ?_⟩
  have hc : ∃ w' r', Shaped g w' ∧ Wet g w'.1 ∧ vec g w' = vec g w ∧ rhs w'.1 w'.2 = .ok r' := ⟨w, r, hs, hw, rfl, hr⟩
  refine (dif_pos hc).trans ?_
  obtain ⟨s', hw', hv', hr'⟩ := hc.choose_spec.choose_spec
  obtain ⟨d0, hd0, hd⟩ := deep_of_wet hs hw
  obtain ⟨d0', hd0', hd'⟩ := deep_of_wet s' hw'
  obtain ⟨rr, h1, h2⟩ := h (min d0 d0') ‖vec g w‖ (lt_min hd0 hd0')
  obtain ⟨L, hL, hLip⟩ := filtered_lip F h2
  have m1 := hd ‖vec g w‖ (le_refl _) (min d0 d0') (min_le_left _ _)
  have m2 := hd' ‖vec g w‖ (by rw [hv']) (min d0 d0') (min_le_right _ _)
  have e1 := h1 _ m1
  have e2 := h1 _ m2
  rw [hr, Out.ok.injEq] at e1
  rw [hr', Out.ok.injEq] at e2
  have := hLip _ m2 _ m1
  rw [hv', sub_self, norm_zero, mul_zero, ← e1] at this
  rw [e2]
  exact sub_eq_zero.1 (norm_eq_zero.1 (le_antisymm this (norm_nonneg _)))

/-- ... and the runs converge with second order. -/
theorem rates_converge {rhs : PyRhs} (F : Matrix (Fin g.np) (Fin g.np) ℝ)
    (h : ∀ d0 B, 0 < d0 → ∃ r : Fields × DMat ℝ → Fields × DMat ℝ, (∀ w ∈ DeepSet g d0 B, rhs w.1 w.2 = .ok (r w)) ∧
      ∀ i < g.np, ∀ k < g.K, BL (apart g) (DeepSet g d0 B) (fun w => (r w).1.h.at' i k) ∧ BL (apart g) (DeepSet g d0 B) (fun w => (r w).1.hu.at' i k) ∧
        BL (apart g) (DeepSet g d0 B) (fun w => (r w).1.hv.at' i k) ∧ BL (apart g) (DeepSet g d0 B) (fun w => (r w).2.at' i k))
    {R : (Fin g.np → Fin g.K → Fin 4 → ℝ) → Fin g.np → Fin g.K → Fin 4 → ℝ} (hR : Rates g rhs F {w | Wet g w.1} R) {y : ℝ → Fin g.np → Fin g.K → Fin 4 → ℝ} {T M2 M3 : ℝ} (hT : 0 ≤ T)
    (hy : Solution R y T M2 M3) (hwet : ∀ t ∈ Set.Icc 0 T, ∀ i k, 0 < y t i k 0) :
    ∃ C δ0, 0 < δ0 ∧ ∀ (S : ℕ → PySim) (k : ℕ) (δ : ℝ), Advances rhs F S k → Shaped g ((S 0).q, (S 0).hN) → (S 0).t = 0 → vec g ((S 0).q, (S 0).hN) = y 0 → (∀ j < k, 0 ≤ (S j).dt ∧ (S j).dt ≤ δ) → 0 ≤ δ → δ ≤ δ0 → (S k).t ≤ T →
      ∀ j ≤ k, ∀ (i : Fin g.np) (l : Fin g.K) (c : Fin 4), |vec g ((S j).q, (S j).hN) i l c - y (S j).t i l c| ≤ C * δ ^ 2 := by
  have hcont : ContinuousOn y (Set.Icc 0 T) := fun t ht => (hy.eq t ht).continuousWithinAt
  have h0mem : (0 : ℝ) ∈ Set.Icc 0 T := ⟨le_refl _, hT⟩
  have hne : (Set.Icc (0 : ℝ) T).Nonempty := ⟨0, h0mem⟩
  obtain ⟨dmin, hdmin, hdm⟩ : ∃ c, 0 < c ∧ ∀ t ∈ Set.Icc 0 T, ∀ i k, c ≤ y t i k 0 := by
    have : ∀ (i : Fin g.np) (k : Fin g.K), ∃ c, 0 < c ∧ ∀ t ∈ Set.Icc 0 T, c ≤ y t i k 0 := fun i k => by
      obtain ⟨t, ht, hm⟩ := isCompact_Icc.exists_isMinOn hne (f := fun t => y t i k 0) (by
        have e : (fun t => y t i k 0) = (fun v : Fin g.np → Fin g.K → Fin 4 → ℝ => v i k 0) ∘ y := rfl
        rw [e]
        exact (by fun_prop : Continuous fun v : Fin g.np → Fin g.K → Fin 4 → ℝ => v i k 0).comp_continuousOn hcont)
      exact ⟨_, hwet t ht i k, fun t' ht' => hm ht'⟩
    choose c hc hc' using this
    obtain ⟨c0, h0, h1⟩ := pos_below c hc
    exact ⟨c0, h0, fun t ht i k => le_trans (h1 i k) (hc' i k t ht)⟩
  obtain ⟨By, hBy⟩ : ∃ B, ∀ t ∈ Set.Icc 0 T, ‖y t‖ ≤ B := by
    obtain ⟨t, ht, hm⟩ := isCompact_Icc.exists_isMaxOn hne hcont.norm
    exact ⟨_, fun t' ht' => hm ht'⟩
  obtain ⟨ρ, hρ⟩ : ∃ ρ, ρ = dmin / 2 := ⟨_, rfl⟩
  have hρ0 : 0 < ρ := by rw [hρ]; positivity
  have hdeep : ∀ w, Shaped g w → vec g w ∈ Tube y T ρ → w ∈ DeepSet g ρ (By + ρ) := by
    rintro w hs ⟨t, ht, hd⟩
    refine ⟨hs, fun i hi k hk => ?_, ?_⟩
    · have h1 := le_trans (comp_le (vec g w - y t) ⟨i, hi⟩ ⟨k, hk⟩ 0) hd
      have h2 := hdm t ht ⟨i, hi⟩ ⟨k, hk⟩
      have h3 : (vec g w - y t) ⟨i, hi⟩ ⟨k, hk⟩ 0 = w.1.h.at' i k - y t ⟨i, hi⟩ ⟨k, hk⟩ 0 := rfl
      rw [h3, abs_le] at h1
      rw [hρ] at h1 ⊢
      linarith [h1.1]
    · have : vec g w = y t + (vec g w - y t) := by abel
      rw [this]
      exact le_trans (norm_add_le _ _) (add_le_add (hBy t ht) hd)
  obtain ⟨rr, h1, h2⟩ := h ρ (By + ρ) hρ0
  obtain ⟨L, hL, hLip⟩ := filtered_lip F h2
  have hwd : ∀ w ∈ DeepSet g ρ (By + ρ), Wet g w.1 := fun w hw i hi k hk => lt_of_lt_of_le hρ0 (hw.2.1 i hi k hk)
  have hRr : ∀ w ∈ DeepSet g ρ (By + ρ), R (vec g w) = vec g (npFilter4 F (rr w)) := fun w hw => by
    obtain ⟨r, e1, e2⟩ := hR w (hwd w hw) hw.1
    rw [h1 w hw, Out.ok.injEq] at e1
    rw [e2, e1]
  have hlip : Lip R L (Tube y T ρ) := by
    intro a ha b hb
    have da := hdeep (unvec g a) (unvec_shaped a) (by rw [vec_unvec]; exact ha)
    have db := hdeep (unvec g b) (unvec_shaped b) (by rw [vec_unvec]; exact hb)
    have := hLip _ da _ db
    rw [← hRr _ da, ← hRr _ db, vec_unvec, vec_unvec] at this
    exact this
  obtain ⟨y2, y3, -, hM⟩ := hy.smooth
  have hM2 : 0 ≤ M2 := le_trans (norm_nonneg _) (hM 0 h0mem).1
  have hM3 : 0 ≤ M3 := le_trans (norm_nonneg _) (hM 0 h0mem).2
  obtain ⟨C1, hC1⟩ : ∃ C, C = L * M2 / 8 + 7 * M3 / 24 := ⟨_, rfl⟩
  have hC1' : 0 ≤ C1 := by rw [hC1]; positivity
  obtain ⟨A, hA⟩ : ∃ A, A = (1 + L / 2) * (Real.exp (L * T) * (C1 * T)) + M2 / 8 := ⟨_, rfl⟩
  have hA0 : 0 ≤ A := by rw [hA]; positivity
  refine ⟨Real.exp (L * T) * (C1 * T), min 1 (ρ / (A + 1)), lt_min one_pos (by positivity), fun S k δ hS hsh ht0 hv hdt hδ hδ0 htk j hj i l c => ?_⟩
  have hδ1 : δ ≤ 1 := le_trans hδ0 (min_le_left _ _)
  have hδ2 : δ * (A + 1) ≤ ρ := (le_div_iff₀ (by positivity)).1 (le_trans hδ0 (min_le_right _ _))
  have herr := C121_error (hR := fun w hw hs => hR w (hwd w (hdeep w hs hw)) hs) hy hL hlip hM2 hM3 hδ hS hsh ht0 hdt htk (by
    rw [hv, sub_self, norm_zero, zero_add, ← hC1]
    have e1 : (1 + L * δ / 2) * (Real.exp (L * T) * (C1 * δ ^ 2 * T)) + M2 / 8 * δ ^ 2 ≤ A * δ ^ 2 := by
      have : (1 + L * δ / 2) * (Real.exp (L * T) * (C1 * δ ^ 2 * T)) ≤ (1 + L / 2) * (Real.exp (L * T) * (C1 * δ ^ 2 * T)) := by
        apply mul_le_mul_of_nonneg_right _ (by positivity)
        nlinarith
      rw [hA]
      nlinarith
    have e2 : A * δ ^ 2 ≤ A * δ := by nlinarith [mul_nonneg hA0 hδ]
    nlinarith) j hj i l c
  rw [hv, sub_self, norm_zero, zero_add, ← hC1] at herr
  refine le_trans herr ?_
  have htj : 0 ≤ (S j).t ∧ (S j).t ≤ T := by
    have mono : ∀ a b, a + b ≤ k → (S a).t ≤ (S (a + b)).t := by
      intro a b
      induction b with
      | zero => intro _; exact le_refl _
      | succ b ih =>
        intro hb
        rw [← add_assoc, (hS (a + b) (by omega)).2]
        have := ih (by omega)
        have := (hdt (a + b) (by omega)).1
        linarith
    have m1 := mono 0 j (by omega)
    have m2 := mono j (k - j) (by omega)
    rw [zero_add, ht0] at m1
    rw [show j + (k - j) = k by omega] at m2
    exact ⟨m1, by linarith⟩
  calc Real.exp (L * (S j).t) * (C1 * δ ^ 2 * (S j).t) ≤ Real.exp (L * T) * (C1 * δ ^ 2 * T) := by
        have := (Real.exp_pos (L * (S j).t)).le
        have := htj.1
        gcongr
        · exact htj.2
        · exact htj.2
    _ = _ := by ring

/-- **C121, sw2d.py.** Let `R` be the filtered rates of sw2d.py as a function of the values at the nodes, which it is for positive depth.  For every solution of `y' = R(y)` with positive depth and bounded second and third derivatives on `[0, T]` there is a
constant such that every run begun at `y(0)` with a small enough step `dt` and not yet past `T` misses `y` at every node by no more than the constant times `dt²`. -/
theorem C121_sw2d (h : Provisioned la eps ztol tol N m P g) (hw : ∃ e < 3 * m.K, m.bcType[e]? = some 3) {grav : ℝ} (hgr : 0 < grav) (f : ℝ) (F : Matrix (Fin g.np) (Fin g.np) ℝ) :
    ∃ R, Rates g (g.rhsSw2dPy grav f) F {w | Wet g w.1} R ∧
      ∀ (y : ℝ → Fin g.np → Fin g.K → Fin 4 → ℝ) (T M2 M3 : ℝ), 0 ≤ T → Solution R y T M2 M3 → (∀ t ∈ Set.Icc 0 T, ∀ i k, 0 < y t i k 0) →
        ∃ C δ0, 0 < δ0 ∧ ∀ (T' : ℝ) (ns oi k : ℕ) (S : ℕ → PyRun), Passes (fun r => r.s.t) (g.passSw2dPy (g.rhsSw2dPy grav f) F ns oi) T' k S → Shaped g ((S 0).s.q, (S 0).s.hN) → (S 0).s.t = 0 →
          vec g ((S 0).s.q, (S 0).s.hN) = y 0 → 0 ≤ (S 0).s.dt → (S 0).s.dt ≤ δ0 → (S k).s.t ≤ T →
          ∀ j ≤ k, ∀ (i : Fin g.np) (l : Fin g.K) (c : Fin 4), |vec g ((S j).s.q, (S j).s.hN) i l c - y (S j).s.t i l c| ≤ C * (S 0).s.dt ^ 2 := by
  obtain ⟨x, hg, -, hK, -⟩ := h.spec
  have hl := fun d0 B (hd0 : 0 < d0) => hg.BL_rates (by rw [hK]; exact hw) hgr f (B := B) hd0
  obtain ⟨R, hR⟩ := rates_exist F hl
  refine ⟨R, hR, fun y T M2 M3 hT hy hwet => ?_⟩
  obtain ⟨C, δ0, hδ0, hC⟩ := rates_converge F hl hR hT hy hwet
  refine ⟨C, δ0, hδ0, fun T' ns oi k S hS hsh ht0 hv hd0 hdδ htk => ?_⟩
  have hdt : ∀ j ≤ k, (S j).s.dt = (S 0).s.dt := by
    intro j
    induction j with
    | zero => intro _; rfl
    | succ j ih =>
      intro hj
      rw [(sw_inv (pass_inv (hS j (by omega)).2).1).2.2.1]
      exact ih (by omega)
  exact hC (fun j => (S j).s) k _ (fun j hj => by
    obtain ⟨a, b, -⟩ := sw_inv (pass_inv (hS j hj).2).1
    exact ⟨a, b⟩) hsh ht0 hv (fun j hj => by rw [hdt j hj.le]; exact ⟨hd0, le_refl _⟩) hd0 hdδ htk

/-! ### A turning current -/

/-- Rates of a current turned by the Coriolis force only, `f = 1`. -/
def turning (g : Grid) : PyRhs := fun q _ => .ok (⟨zeroMat g.np g.K, q.hv, { q.hu with at' := fun i k => -q.hu.at' i k }⟩, zeroMat g.np g.K)

/-- The current at time `t`. -/
noncomputable def turned (g : Grid) (t : ℝ) : Fin g.np → Fin g.K → Fin 4 → ℝ := fun _ _ => ![1, Real.cos t, -Real.sin t, 0]

/-- The turning current meets the hypotheses of `C121_error`: on every grid, with steps of at most 1/100, after at most 100 passes the error is at most `3 (1/8 + 7/24) δ²`. -/
example (g : Grid) (S : ℕ → PySim) (k : ℕ) (δ : ℝ) (hδ : 0 ≤ δ) (hδ1 : δ ≤ 1 / 100) (hS : Advances (turning g) (1 : Matrix (Fin g.np) (Fin g.np) ℝ) S k) (hsh : Shaped g ((S 0).q, (S 0).hN)) (ht0 : (S 0).t = 0)
    (h0 : vec g ((S 0).q, (S 0).hN) = turned g 0) (hdt : ∀ j < k, 0 ≤ (S j).dt ∧ (S j).dt ≤ δ) (htk : (S k).t ≤ 1) :
    ∀ (i : Fin g.np) (l : Fin g.K) (c : Fin 4), |vec g ((S k).q, (S k).hN) i l c - turned g (S k).t i l c| ≤ 3 * ((1 / 8 + 7 / 24) * δ ^ 2) := by
  obtain ⟨R, hRd⟩ : ∃ R : (Fin g.np → Fin g.K → Fin 4 → ℝ) → Fin g.np → Fin g.K → Fin 4 → ℝ, R = fun v i k => ![0, v i k 2, -v i k 1, 0] := ⟨_, rfl⟩
  have hexp : Real.exp 1 ≤ 3 := le_trans Real.exp_one_lt_d9.le (by norm_num)
  have hfil : ∀ u : DMat ℝ, ∀ i : Fin g.np, ∀ k, (npFilter (1 : Matrix (Fin g.np) (Fin g.np) ℝ) u).at' i k = u.at' i k := by
    intro u i k
    simp [npFilter, Matrix.one_apply]
  have hnorm : ∀ a b c d : ℝ, |a| ≤ 1 → |b| ≤ 1 → |c| ≤ 1 → |d| ≤ 1 → ‖(fun (_ : Fin g.np) (_ : Fin g.K) => (![a, b, c, d] : Fin 4 → ℝ))‖ ≤ 1 := by
    intro a b c d ha hb hc hd
    refine (pi_norm_le_iff_of_nonneg zero_le_one).2 fun i => (pi_norm_le_iff_of_nonneg zero_le_one).2 fun k => (pi_norm_le_iff_of_nonneg zero_le_one).2 fun l => ?_
    fin_cases l
    · exact ha
    · exact hb
    · exact hc
    · exact hd
  have hder : ∀ (a b c d : ℝ → ℝ) (a' b' c' d' t : ℝ), HasDerivAt a a' t → HasDerivAt b b' t → HasDerivAt c c' t → HasDerivAt d d' t →
      HasDerivAt (fun t => (fun (_ : Fin g.np) (_ : Fin g.K) => (![a t, b t, c t, d t] : Fin 4 → ℝ))) (fun _ _ => ![a', b', c', d']) t := by
    intro a b c d a' b' c' d' t ha hb hc hd
    refine hasDerivAt_pi.2 fun i => hasDerivAt_pi.2 fun k => hasDerivAt_pi.2 fun l => ?_
    fin_cases l
    · exact ha
    · exact hb
    · exact hc
    · exact hd
  have hRt : ∀ t, R (turned g t) = fun _ _ => ![0, -Real.sin t, -Real.cos t, 0] := by
    intro t
    rw [hRd]
    funext i k
    simp [turned]
  have hy : Solution R (turned g) 1 1 1 := by
    refine ⟨fun t _ => ?_, fun t => fun _ _ => ![0, -Real.cos t, Real.sin t, 0], fun t => fun _ _ => ![0, Real.sin t, Real.cos t, 0], fun t _ => ⟨?_, ?_⟩, fun t _ => ⟨?_, ?_⟩⟩
    · rw [hRt]
      exact (hder _ _ _ _ _ _ _ _ t (hasDerivAt_const _ _) (Real.hasDerivAt_cos t) (Real.hasDerivAt_sin t).neg (hasDerivAt_const _ _)).hasDerivWithinAt
    · simp only [hRt]
      have := hder (fun _ => 0) (fun t => -Real.sin t) (fun t => -Real.cos t) (fun _ => 0) _ _ _ _ t (hasDerivAt_const _ _) (Real.hasDerivAt_sin t).neg (Real.hasDerivAt_cos t).neg (hasDerivAt_const _ _)
      rw [neg_neg] at this
      exact this.hasDerivWithinAt
    · have := hder (fun _ => 0) (fun t => -Real.cos t) (fun t => Real.sin t) (fun _ => 0) _ _ _ _ t (hasDerivAt_const _ _) (Real.hasDerivAt_cos t).neg (Real.hasDerivAt_sin t) (hasDerivAt_const _ _)
      rw [neg_neg] at this
      exact this.hasDerivWithinAt
    · exact hnorm _ _ _ _ (by simp) (by rw [abs_neg]; exact Real.abs_cos_le_one t) (Real.abs_sin_le_one t) (by simp)
    · exact hnorm _ _ _ _ (by simp) (Real.abs_sin_le_one t) (Real.abs_cos_le_one t) (by simp)
  have hlip : Lip R 1 (Tube (turned g) 1 1) := by
    intro a _ b _
    rw [one_mul]
    refine (pi_norm_le_iff_of_nonneg (norm_nonneg _)).2 fun i => (pi_norm_le_iff_of_nonneg (norm_nonneg _)).2 fun k => (pi_norm_le_iff_of_nonneg (norm_nonneg _)).2 fun l => ?_
    have h1 := comp_le (a - b) i k 1
    have h2 := comp_le (a - b) i k 2
    rw [hRd]
    fin_cases l
    · simp
    · simpa using h2
    · have : -a i k 1 - -b i k 1 = -((a - b) i k 1) := by simp only [Pi.sub_apply]; ring
      simp only [Pi.sub_apply, Fin.reduceFinMk, Matrix.cons_val]
      rw [this, norm_neg]
      exact h1
    · simp
  have hR : Rates g (turning g) 1 {w | vec g w ∈ Tube (turned g) 1 1} R := by
    intro w _ _
    refine ⟨_, rfl, ?_⟩
    rw [hRd]
    funext i k l
    fin_cases l <;> simp [vec, npFilter4, hfil, zeroMat]
  have := C121_error (L := 1) (r := 1) hR hy zero_le_one hlip zero_le_one zero_le_one hδ hS hsh ht0 hdt htk (by
    rw [h0, sub_self, norm_zero, zero_add, one_mul, mul_one]
    have : δ ^ 2 ≤ 1 / 100 := by nlinarith
    nlinarith [sq_nonneg δ, Real.exp_pos 1, mul_le_mul hexp (mul_le_mul_of_nonneg_left this (by norm_num : (0 : ℝ) ≤ 1 * 1 / 8 + 7 * 1 / 24)) (by positivity) (by norm_num)]) k (le_refl _)
  intro i l c
  refine le_trans (this i l c) ?_
  rw [h0, sub_self, norm_zero, zero_add, one_mul]
  have ht : 0 ≤ (S k).t := by
    have : ∀ j ≤ k, 0 ≤ (S j).t := by
      intro j
      induction j with
      | zero => intro _; exact ht0.ge
      | succ j ih => intro hj; rw [(hS j (by omega)).2]; exact add_nonneg (ih (by omega)) (hdt j (by omega)).1
    exact this k (le_refl _)
  have he : Real.exp (S k).t ≤ 3 := le_trans (Real.exp_le_exp.2 htk) hexp
  calc _ ≤ 3 * ((1 * 1 / 8 + 7 * 1 / 24) * δ ^ 2 * 1) := by gcongr
    _ = _ := by ring

end Blitzdg.SW
