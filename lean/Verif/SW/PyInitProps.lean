import Mathlib.Analysis.SpecialFunctions.ExpDeriv
import Mathlib.Analysis.Complex.ExponentialBounds
import Verif.SW.PyInit
import Verif.SW.PyRunProps

/-!
C138: what the Python shallow water programs start from, and the vorticity they write.
-/

namespace Blitzdg.SW

open Blitzdg.Sparse (DMat)
open Blitzdg.Nodes1D (Lapack)
open Blitzdg.DG2D
open Blitzdg.Ctx (atNode)
open MvPolynomial (pderiv)

variable {P : ℕ → ℕ} {x : List ℝ} {bt : List Int} {g : Grid}

/-! ### Specification -/

/-- The rotating shallow water equations over a flat bed, without drag, have vanishing rates of change at the point (a, b): the divergences of the fluxes of volume and of the two components of momentum cancel the Coriolis force. -/
structure SteadyAt (grav f : ℝ) (h u v : ℝ → ℝ → ℝ) (a b : ℝ) : Prop where
  mass : ∃ A B, HasDerivAt (fun x => h x b * u x b) A a ∧ HasDerivAt (fun y => h a y * v a y) B b ∧ A + B = 0
  momX : ∃ A B, HasDerivAt (fun x => h x b * u x b ^ 2 + grav * h x b ^ 2 / 2) A a ∧ HasDerivAt (fun y => h a y * u a y * v a y) B b ∧ A + B = f * (h a b * v a b)
  momY : ∃ A B, HasDerivAt (fun x => h x b * u x b * v x b) A a ∧ HasDerivAt (fun y => h a y * v a y ^ 2 + grav * h a y ^ 2 / 2) B b ∧ A + B = -f * (h a b * u a b)

/-! ### The jet -/

theorem Jet.eta_deriv (p : Jet) (y : ℝ) : HasDerivAt p.eta (p.etay y) y := by
  unfold Jet.etay
  have h1 : HasDerivAt (fun y => (y - p.L) / p.W) (1 / p.W) y := ((hasDerivAt_id y).sub_const p.L).div_const p.W
  have h2 := ((h1.pow 2).neg.exp).const_mul p.amp
  refine h2.congr_deriv ?_
  simp only [Pi.neg_apply, Pi.pow_apply]
  by_cases hW : p.W = 0
  · simp [hW]
  · norm_num
    field_simp

theorem clip_id {h : ℝ} (hh : 1e-3 ≤ h) : clipDepth h = h := if_neg (not_lt.2 hh)

theorem Jet.eta_nonneg (p : Jet) (ha : 0 ≤ p.amp) (y : ℝ) : 0 ≤ p.eta y := mul_nonneg ha (Real.exp_pos _).le

theorem Jet.eta_le (p : Jet) (ha : 0 ≤ p.amp) (y : ℝ) : p.eta y ≤ p.amp := by
  unfold Jet.eta
  have : Real.exp (-((y - p.L) / p.W) ^ 2) ≤ 1 := Real.exp_le_one_iff.2 (by nlinarith [sq_nonneg ((y - p.L) / p.W)])
  nlinarith

theorem jet_h (p : Jet) (ha : 0 ≤ p.amp) (hH : 1e-3 ≤ p.H0) (x y : DMat ℝ) (i k : ℕ) : (g.jetStart p x y).h.at' i k = p.H0 + p.eta (y.at' i k) := by
  show clipDepth (p.H0 * 1 + p.eta (y.at' i k)) = _
  rw [mul_one, clip_id]
  have := p.eta_nonneg ha (y.at' i k)
  linarith

/-- **C138, balance.** Depth and momenta from which sw2d_curved.py starts are the values at the nodes of a flow of the whole plane which is steady: volume, momentum along and momentum across the jet are in balance at every point, the pressure of the
raised surface being held by the Coriolis force.  The clipping of the depth has no effect. -/
theorem C138_balance (p : Jet) (ha : 0 ≤ p.amp) (hH : 1e-3 ≤ p.H0) (hf : p.f ≠ 0) :
    ∃ h u : ℝ → ℝ → ℝ, (∀ a b, SteadyAt p.grav p.f h u (fun _ _ => 0) a b) ∧ (∀ a b, h a b = p.H0 + p.amp * Real.exp (-((b - p.L) / p.W) ^ 2)) ∧
      ∀ (x y : DMat ℝ) (i k : ℕ), (g.jetStart p x y).h.at' i k = h (x.at' i k) (y.at' i k) ∧ (g.jetStart p x y).hu.at' i k = h (x.at' i k) (y.at' i k) * u (x.at' i k) (y.at' i k) ∧ (g.jetStart p x y).hv.at' i k = 0 := by
  refine ⟨fun _ b => p.H0 + p.eta b, fun _ b => p.u b, fun a b => ⟨?_, ?_, ?_⟩, fun _ _ => rfl, fun x y i k => ⟨jet_h p ha hH x y i k, ?_, ?_⟩⟩
  · exact ⟨0, 0, hasDerivAt_const _ _, by simpa using hasDerivAt_const b (0 : ℝ), by norm_num⟩
  · exact ⟨0, 0, hasDerivAt_const _ _, by simpa using hasDerivAt_const b (0 : ℝ), by norm_num⟩
  · refine ⟨0, p.grav * (p.H0 + p.eta b) * p.etay b, by simpa using hasDerivAt_const a (0 : ℝ), ?_, ?_⟩
    · have h1 := ((p.eta_deriv b).const_add p.H0)
      have h2 := ((h1.pow 2).const_mul p.grav).div_const 2
      refine (h2.congr_deriv ?_).congr_of_eventuallyEq (Filter.Eventually.of_forall fun y => ?_)
      · simp
        ring
      · simp
    · show 0 + p.grav * (p.H0 + p.eta b) * p.etay b = -p.f * ((p.H0 + p.eta b) * ((-p.grav / p.f) * p.etay b))
      field_simp
      ring
  · show (g.jetStart p x y).h.at' i k * p.u (y.at' i k) = _
    rw [jet_h p ha hH]
  · show (g.jetStart p x y).h.at' i k * (0 * _) = 0
    ring

theorem sq_exp_le (t : ℝ) : t ^ 2 * Real.exp (-(2 * t ^ 2)) ≤ 1 / (2 * Real.exp 1) := by
  have h1 := Real.add_one_le_exp (2 * t ^ 2 - 1)
  have h2 : Real.exp (2 * t ^ 2 - 1) = Real.exp (2 * t ^ 2) / Real.exp 1 := Real.exp_sub _ _
  rw [h2] at h1
  rw [Real.exp_neg, le_div_iff₀ (by positivity)]
  have h3 : 2 * t ^ 2 * Real.exp 1 ≤ Real.exp (2 * t ^ 2) := by
    have := (le_div_iff₀ (Real.exp_pos 1)).1 h1
    linarith
  rw [← div_eq_mul_inv, div_mul_eq_mul_div, div_le_one (Real.exp_pos _)]
  linarith

/-- **C138, bounds.** At every node the depth lies between the depth at rest and that plus the height of the jet, the speed is at most `√(2/e)·g·amp/(|f|·W)`, the concentration of the tracer lies between zero and one, and the elevation written to file is the
height of the surface over the depth at rest. -/
theorem C138_bounds (p : Jet) (hg : 0 ≤ p.grav) (ha : 0 ≤ p.amp) (hH : 1e-3 ≤ p.H0) (hf : p.f ≠ 0) (hW : 0 < p.W) (x y : DMat ℝ) (i k : ℕ) :
    p.H0 ≤ (g.jetStart p x y).h.at' i k ∧ (g.jetStart p x y).h.at' i k ≤ p.H0 + p.amp ∧
    |(g.jetStart p x y).u.at' i k| ≤ √(2 / Real.exp 1) * (p.grav * p.amp / (|p.f| * p.W)) ∧
    (g.jetStart p x y).v.at' i k = 0 ∧
    0 < (g.jetStart p x y).hN.at' i k ∧ (g.jetStart p x y).hN.at' i k ≤ (g.jetStart p x y).h.at' i k ∧
    (g.jetStart p x y).eta.at' i k = p.amp * Real.exp (-((y.at' i k - p.L) / p.W) ^ 2) := by
  have h0 := jet_h (g := g) p ha hH x y i k
  have h1 := p.eta_nonneg ha (y.at' i k)
  have h2 := p.eta_le ha (y.at' i k)
  have hN0 : 0 < p.N (x.at' i k) (y.at' i k) := Real.exp_pos _
  have hN1 : p.N (x.at' i k) (y.at' i k) ≤ 1 := Real.exp_le_one_iff.2 (by nlinarith [sq_nonneg ((x.at' i k - p.Nx) / p.Nrad), sq_nonneg ((y.at' i k - p.Ny) / p.Nrad)])
  have hpos : 0 < (g.jetStart p x y).h.at' i k := by rw [h0]; norm_num at hH; linarith
  refine ⟨by rw [h0]; linarith, by rw [h0]; linarith, ?_, ?_, mul_pos hpos hN0, mul_le_of_le_one_right hpos.le hN1, ?_⟩
  · show |(-p.grav / p.f) * p.etay (y.at' i k)| ≤ _
    set t := (y.at' i k - p.L) / p.W with ht
    have e : (-p.grav / p.f) * p.etay (y.at' i k) = p.grav * p.amp / (p.f * p.W) * (2 * (t * Real.exp (-t ^ 2))) := by
      unfold Jet.etay
      rw [← ht, show y.at' i k - p.L = t * p.W by rw [ht]; field_simp]
      field_simp
    have hb : |2 * (t * Real.exp (-t ^ 2))| ≤ √(2 / Real.exp 1) := by
      apply Real.abs_le_sqrt
      have := sq_exp_le t
      have e2 : (2 * (t * Real.exp (-t ^ 2))) ^ 2 = 4 * (t ^ 2 * Real.exp (-(2 * t ^ 2))) := by
        rw [show -(2 * t ^ 2) = -t ^ 2 + -t ^ 2 by ring, Real.exp_add]
        ring
      rw [e2]
      calc 4 * (t ^ 2 * Real.exp (-(2 * t ^ 2))) ≤ 4 * (1 / (2 * Real.exp 1)) := by linarith
        _ = 2 / Real.exp 1 := by field_simp; norm_num
    rw [e, abs_mul, abs_div, abs_mul p.f, abs_of_nonneg (mul_nonneg hg ha), abs_of_pos hW, mul_comm]
    exact mul_le_mul_of_nonneg_right hb (div_nonneg (mul_nonneg hg ha) (mul_nonneg (abs_nonneg _) hW.le))
  · show 0 * _ = (0 : ℝ)
    ring
  · show (g.jetStart p x y).h.at' i k - p.H0 * 1 = _
    rw [h0, mul_one, add_sub_cancel_left]
    rfl

/-- The numbers of sw2d_curved.py (lines 22-28, 151-154, 206-208). -/
noncomputable def driverJet : Jet := ⟨(1.00100 - 1.000) * 9.81, 7.8825e-5, 7.5, 0.5 * 0.065 * 7.5, 500, 200, 4000, 350, 3e2⟩

/-- **C138, subcritical.** With the numbers of the program the flow at the start is slower than the waves, at every node of every mesh: the Froude number is below one half. -/
theorem C138_subcritical (x y : DMat ℝ) (i k : ℕ) : ((g.jetStart driverJet x y).u.at' i k) ^ 2 < (1 / 2) ^ 2 * (driverJet.grav * (g.jetStart driverJet x y).h.at' i k) := by
  obtain ⟨h1, -, h3, -⟩ := C138_bounds (g := g) driverJet (by norm_num [driverJet]) (by norm_num [driverJet]) (by norm_num [driverJet]) (by norm_num [driverJet]) (by norm_num [driverJet]) x y i k
  have he := Real.exp_one_gt_d9
  have h4 : ((g.jetStart driverJet x y).u.at' i k) ^ 2 ≤ 2 / Real.exp 1 * (driverJet.grav * driverJet.amp / (|driverJet.f| * driverJet.W)) ^ 2 := by
    rw [← sq_abs]
    refine (pow_le_pow_left₀ (abs_nonneg _) h3 2).trans ?_
    rw [mul_pow, Real.sq_sqrt (by positivity)]
  have h5 : 2 / Real.exp 1 < 2 / 2.7182818283 := by
    apply div_lt_div_of_pos_left <;> linarith
  have h6 : (driverJet.grav * driverJet.amp / (|driverJet.f| * driverJet.W)) ^ 2 ≤ 0.0231 := by
    rw [abs_of_pos (by norm_num [driverJet])]
    norm_num [driverJet]
  have h7 : (1 / 2) ^ 2 * (driverJet.grav * 7.5) ≤ (1 / 2) ^ 2 * (driverJet.grav * (g.jetStart driverJet x y).h.at' i k) := by
    have : (7.5 : ℝ) ≤ (g.jetStart driverJet x y).h.at' i k := h1
    have hg : (0 : ℝ) ≤ driverJet.grav := by norm_num [driverJet]
    gcongr
  have h8 : (0.0183 : ℝ) ≤ (1 / 2) ^ 2 * (driverJet.grav * 7.5) := by norm_num [driverJet]
  have h9 : 2 / Real.exp 1 * (driverJet.grav * driverJet.amp / (|driverJet.f| * driverJet.W)) ^ 2 < 0.0183 := by
    have := sq_nonneg (driverJet.grav * driverJet.amp / (|driverJet.f| * driverJet.W))
    have h10 : 0 < 2 / Real.exp 1 := by positivity
    norm_num at h5 h6 ⊢
    nlinarith
  linarith

/-! ### The first step -/

/-- **C138, the first step.** On every grid the program reaches its loop, at time zero, with the fields above, and the first step is the largest with which the Courant number of every face node is at most `CFL` for the velocities of these fields, waves moving with the
speed that belongs to the depth at rest. -/
theorem C138_first (hg : GridSpec P x bt g) (hK : 0 < g.K) (p : Jet) {CFL : ℝ} (hgr : 0 < p.grav) (hC : 0 < CFL) (ha : 0 ≤ p.amp) (hH : 1e-3 ≤ p.H0) (X Y : DMat ℝ) :
    ∃ s, g.startCurved p CFL X Y = .ok s ∧ s.t = 0 ∧ s.q = ⟨(g.jetStart p X Y).h, (g.jetStart p X Y).hu, (g.jetStart p X Y).hv⟩ ∧ s.hN = (g.jetStart p X Y).hN ∧ WaveStep g √(p.grav * p.H0) CFL s.q s.dt := by
  have hH0 : 0 < p.H0 := by norm_num at hH; linarith
  have hm : g.mean (g.jetStart p X Y).H = p.H0 := by
    have := mean_one hK
    unfold Grid.mean at this ⊢
    show (∑ k ∈ Finset.range g.K, ∑ i ∈ Finset.range g.np, p.H0 * 1) / _ = _
    simp only [Finset.sum_const, Finset.card_range, nsmul_eq_mul, mul_one] at this ⊢
    rw [← mul_assoc, mul_div_right_comm, this, one_mul]
  obtain ⟨dt, h1, h2⟩ := C118_dt hg hK hgr hC (g.jetStart p X Y).H (by rw [hm]; exact hH0) ⟨(g.jetStart p X Y).h, (g.jetStart p X Y).hu, (g.jetStart p X Y).hv⟩
  rw [hm] at h2
  have hne : ∀ i k, (g.jetStart p X Y).h.at' i k ≠ 0 := fun i k => by
    rw [jet_h p ha hH]
    have := p.eta_nonneg ha (Y.at' i k)
    linarith
  have hu : g.velocity (g.jetStart p X Y).hu (g.jetStart p X Y).h = (g.jetStart p X Y).u := by
    unfold Grid.velocity
    congr 1
    funext i k
    exact mul_div_cancel_left₀ _ (hne i k)
  have hv : g.velocity (g.jetStart p X Y).hv (g.jetStart p X Y).h = (g.jetStart p X Y).v := by
    unfold Grid.velocity
    congr 1
    funext i k
    exact mul_div_cancel_left₀ _ (hne i k)
  rw [hu, hv] at h1
  refine ⟨⟨⟨(g.jetStart p X Y).h, (g.jetStart p X Y).hu, (g.jetStart p X Y).hv⟩, (g.jetStart p X Y).hN, 0, dt⟩, ?_, rfl, rfl, rfl, h2⟩
  unfold Grid.startCurved
  simp only [h1, Out.bind_ok]
  rfl

/-! ### What is written -/

/-- **C138, the first file.** The arrays written before the loop are those which the loop writes for the same state: elevation, velocities, concentration and vorticity mean the same in file 0 as in the others. -/
theorem C138_written (p : Jet) (ha : 0 ≤ p.amp) (hH : 1e-3 ≤ p.H0) (X Y : DMat ℝ) :
    (g.jetStart p X Y).written = g.written ⟨(g.jetStart p X Y).h, (g.jetStart p X Y).hu, (g.jetStart p X Y).hv⟩ (g.jetStart p X Y).hN (g.jetStart p X Y).H := by
  have hne : ∀ i k, (g.jetStart p X Y).h.at' i k ≠ 0 := fun i k => by
    rw [jet_h p ha hH]
    have := p.eta_nonneg ha (Y.at' i k)
    norm_num at hH
    linarith
  have hq : ∀ a b : DMat ℝ, b.rows = g.np → b.cols = g.K → (∀ i k, a.at' i k = (g.jetStart p X Y).h.at' i k * b.at' i k) → g.velocity a (g.jetStart p X Y).h = b := by
    intro a b h1 h2 h3
    obtain ⟨m, n, f⟩ := b
    obtain rfl : m = g.np := h1
    obtain rfl : n = g.K := h2
    unfold Grid.velocity
    congr 1
    funext i k
    rw [h3, mul_div_cancel_left₀ _ (hne i k)]
  have hu := hq (g.jetStart p X Y).hu (g.jetStart p X Y).u rfl rfl fun _ _ => rfl
  have hv := hq (g.jetStart p X Y).hv (g.jetStart p X Y).v rfl rfl fun _ _ => rfl
  have hn := hq (g.jetStart p X Y).hN (g.jetStart p X Y).N rfl rfl fun _ _ => rfl
  have hw : (g.jetStart p X Y).vort = g.vort (g.jetStart p X Y).u (g.jetStart p X Y).v := by
    show (⟨g.np, g.K, fun i k => -g.slopeY (g.jetStart p X Y).u i k⟩ : DMat ℝ) = ⟨g.np, g.K, fun i k => g.slopeX (g.jetStart p X Y).v i k - g.slopeY (g.jetStart p X Y).u i k⟩
    congr 1
    funext i k
    have : g.slopeX (g.jetStart p X Y).v i k = 0 := by
      unfold Grid.slopeX
      have : ∀ j, (g.jetStart p X Y).v.at' j k = 0 := fun j => zero_mul _
      simp [this]
    rw [this, zero_sub]
  unfold Start.written Grid.written
  simp only [hu, hv, hn, hw]
  rfl

/-- Slopes of a field which is a polynomial of degree at most `N` on the element are its derivatives. -/
theorem GridSpec.slope_exact (hg : GridSpec P x bt g) {k : ℕ} (hk : k < g.K) (u : DMat ℝ) (U : P2) (hU : U.totalDegree ≤ g.N) (hu : ∀ i < g.np, u.at' i k = atNode g U k i) {i : ℕ} (hi : i < g.np) :
    g.slopeX u i k = atNode g (pderiv 0 U) k i ∧ g.slopeY u i k = atNode g (pderiv 1 U) k i := by
  have hi' : i < g.n.r.length := by rw [hg.nodes]; exact hi
  have hT : cross (g.tri k) ≠ 0 := (hg.ccw k hk).ne'
  have hd : TriSpace g.N (Ctx.pull (g.tri k) U) := (Ctx.pull_degree _ _).trans hU
  have hv : ∀ j, nodal g.n.r g.n.s (Ctx.pull (g.tri k) U) j = atNode g U k j := fun j => Ctx.ev_pull _ _ _ _
  have d0 : ∑ j ∈ Finset.range g.np, g.o.d.Dr.at' i j * u.at' j k = nodal g.n.r g.n.s (pderiv 0 (Ctx.pull (g.tri k) U)) i := by
    rw [← hg.elem.diff.dr _ hd i hi', hg.nodes]
    exact Finset.sum_congr rfl fun j hj => by rw [hu j (Finset.mem_range.1 hj), hv]
  have d1 : ∑ j ∈ Finset.range g.np, g.o.d.Ds.at' i j * u.at' j k = nodal g.n.r g.n.s (pderiv 1 (Ctx.pull (g.tri k) U)) i := by
    rw [← hg.elem.diff.ds _ hd i hi', hg.nodes]
    exact Finset.sum_congr rfl fun j hj => by rw [hu j (Finset.mem_range.1 hj), hv]
  unfold Grid.slopeX Grid.slopeY
  rw [d0, d1, hg.deriv_eq i k hi]
  exact Ctx.grad_pull (g.tri k) hT U _ _

/-- **C138, vorticity.** Where the velocities are polynomials of degree at most `N` on an element with straight sides, the vorticity written at its nodes is `∂v/∂x - ∂u/∂y` there. -/
theorem C138_vort (hg : GridSpec P x bt g) {k : ℕ} (hk : k < g.K) (u v : DMat ℝ) (U V : P2) (hU : U.totalDegree ≤ g.N) (hV : V.totalDegree ≤ g.N) (hu : ∀ i < g.np, u.at' i k = atNode g U k i) (hv : ∀ i < g.np, v.at' i k = atNode g V k i)
    {i : ℕ} (hi : i < g.np) : (g.vort u v).at' i k = atNode g (pderiv 0 V - pderiv 1 U) k i := by
  show g.slopeX v i k - g.slopeY u i k = _
  rw [(hg.slope_exact hk v V hV hv hi).1, (hg.slope_exact hk u U hU hu hi).2]
  unfold atNode
  rw [map_sub]

/-- **C138, vorticity on deformed elements, refuted.** When the nodes of an element have been moved, by a displacement along y that is a polynomial `δ` of degree at most `N`, the metric is still that of straight sides: for the flow of vorticity `ω` everywhere,
sampled at the moved nodes, the vorticity written is `ω` times one plus the derivative of the displacement along y. -/
theorem C138_vort_deformed (hg : GridSpec P x bt g) {k : ℕ} (hk : k < g.K) (δ : P2) (hδ : δ.totalDegree ≤ g.N) (ω : ℝ) (Y u v : DMat ℝ) (hY : ∀ i < g.np, Y.at' i k = gridY (g.tri k) g.n i + atNode g δ k i)
    (hu : ∀ i < g.np, u.at' i k = -ω * Y.at' i k) (hv : ∀ i < g.np, v.at' i k = 0) {i : ℕ} (hi : i < g.np) :
    (g.vort u v).at' i k = ω * (1 + atNode g (pderiv 1 δ) k i) := by
  have hdX : (MvPolynomial.X 1 : P2).totalDegree ≤ g.N := by rw [MvPolynomial.totalDegree_X]; exact hg.posN
  have h := C138_vort hg hk u v (MvPolynomial.C (-ω) * (MvPolynomial.X 1 + δ)) 0 ?_ (by simp) (fun j hj => ?_) (fun j hj => ?_) hi
  · rw [h]
    unfold atNode
    simp [Derivation.leibniz]
  · refine (MvPolynomial.totalDegree_mul _ _).trans ?_
    rw [MvPolynomial.totalDegree_C, zero_add]
    exact (MvPolynomial.totalDegree_add _ _).trans (max_le hdX hδ)
  · rw [hu j hj, hY j hj]
    unfold atNode
    simp
  · rw [hv j hj]
    unfold atNode
    simp

/-! ### sw2d.py -/

/-- **C138, tilted surface.** sw2d.py starts with a plane surface over the flat bed, at rest: wherever x lies between -8 and 8 km the depth is between 7.5 and 12.5 m; further than 32 km along x there would be no water.  When all nodes are in the first range, the
program reaches its loop at time zero with these fields, the concentration of the tracer between zero and one, and a first step that obeys the Courant condition with the speed of the waves at every face node. -/
theorem C138_tilted {la : Lapack} {eps ztol tol : ℝ} {N : ℕ} {m : Mesh} (h : Provisioned la eps ztol tol N m P g) (hK : 0 < m.K) {grav CFL : ℝ} (Ny Nrad : ℝ) (hgr : 0 < grav) (hC : 0 < CFL) (X Y : DMat ℝ)
    (hX : ∀ i < g.np, ∀ k < g.K, |X.at' i k| ≤ 8000) :
    ∃ s, g.startSw2dPy grav Ny Nrad CFL X Y = .ok s ∧ s.t = 0 ∧ StepSize g grav CFL s.q s.dt ∧
      (∀ i k, s.q.hu.at' i k = 0 ∧ s.q.hv.at' i k = 0 ∧ (0 < s.q.h.at' i k ↔ X.at' i k < 32000)) ∧
      ∀ i < g.np, ∀ k < g.K, 7.5 ≤ s.q.h.at' i k ∧ s.q.h.at' i k ≤ 12.5 ∧ 0 < s.hN.at' i k ∧ s.hN.at' i k ≤ s.q.h.at' i k := by
  obtain ⟨H, hH⟩ : ∃ H : DMat ℝ, H = ⟨g.np, g.K, fun i k => 10 * 1 + -2.5 * (X.at' i k / 8000)⟩ := ⟨_, rfl⟩
  have hHv : ∀ i k, H.at' i k = 10 - X.at' i k / 3200 := fun i k => by rw [hH]; show 10 * 1 + -2.5 * (X.at' i k / 8000) = _; ring
  have hin : ∀ i < g.np, ∀ k < g.K, 7.5 ≤ H.at' i k ∧ H.at' i k ≤ 12.5 := fun i hi k hk => by
    have := abs_le.1 (hX i hi k hk)
    rw [hHv]
    constructor <;> norm_num <;> linarith
  obtain ⟨Z, hZ⟩ : ∃ Z : DMat ℝ, Z = ⟨g.np, g.K, fun _ _ => 0⟩ := ⟨_, rfl⟩
  have hvel : g.velocity ⟨g.np, g.K, fun i k => H.at' i k * Z.at' i k⟩ H = Z := by
    rw [hZ]
    simp [Grid.velocity]
  obtain ⟨dt, h1, h2⟩ := C119_dt h hK hgr hC ⟨H, ⟨g.np, g.K, fun i k => H.at' i k * Z.at' i k⟩, ⟨g.np, g.K, fun i k => H.at' i k * Z.at' i k⟩⟩ (fun i hi k hk => lt_of_lt_of_le (by norm_num) (hin i hi k hk).1)
  simp only [hvel] at h1
  refine ⟨⟨⟨H, ⟨g.np, g.K, fun i k => H.at' i k * Z.at' i k⟩, ⟨g.np, g.K, fun i k => H.at' i k * Z.at' i k⟩⟩, ⟨g.np, g.K, fun i k => H.at' i k * Real.exp (-((Y.at' i k - Ny) / Nrad) ^ 2)⟩, 0, dt⟩, ?_, rfl, h2, fun i k => ?_, fun i hi k hk => ?_⟩
  · unfold Grid.startSw2dPy
    simp only [← hH, ← hZ, h1, Out.bind_ok]
    subst hH hZ
    rfl
  · refine ⟨by simp [hZ], by simp [hZ], ?_⟩
    show 0 < H.at' i k ↔ _
    rw [hHv]
    constructor <;> intro h3 <;> linarith
  · obtain ⟨h3, h4⟩ := hin i hi k hk
    have h5 : (0 : ℝ) < H.at' i k := lt_of_lt_of_le (by norm_num) h3
    exact ⟨h3, h4, mul_pos h5 (Real.exp_pos _), mul_le_of_le_one_right h5.le (Real.exp_le_one_iff.2 (by nlinarith [sq_nonneg ((Y.at' i k - Ny) / Nrad)]))⟩

/-! ### Cases that meet the hypotheses -/

/-- The numbers of the program, on the square of two triangles. -/
example : ∃ g x, Provisioned Nodes1D.exactLapack (1 / 2 ^ 52) 1e-10 1e-5 1 square twoTri g ∧ GridSpec twoTri x square.bcType g ∧ 0 < g.K ∧
    0 < driverJet.grav ∧ 0 ≤ driverJet.amp ∧ 1e-3 ≤ driverJet.H0 ∧ driverJet.f ≠ 0 ∧ 0 < driverJet.W ∧ ∃ s, g.startCurved driverJet 0.75 ⟨g.np, g.K, fun i k => gridX (g.tri k) g.n i⟩ ⟨g.np, g.K, fun i k => gridY (g.tri k) g.n i⟩ = .ok s ∧ 0 < s.dt := by
  obtain ⟨g, c, ga, hg, h0, hw⟩ := square_weak
  obtain ⟨x, hs, hN, hK, -⟩ := hg.spec
  have hK : g.K = 2 := hK
  obtain ⟨s, h1, -, -, -, h2⟩ := C138_first hs (by omega) driverJet (CFL := 0.75) (by norm_num [driverJet]) (by norm_num) (by norm_num [driverJet]) (by norm_num [driverJet])
    ⟨g.np, g.K, fun i k => gridX (g.tri k) g.n i⟩ ⟨g.np, g.K, fun i k => gridY (g.tri k) g.n i⟩
  exact ⟨g, x, hg, hs, by omega, by norm_num [driverJet], by norm_num [driverJet], by norm_num [driverJet], by norm_num [driverJet], by norm_num [driverJet], s, h1, h2.1⟩

/-- An element stretched by half its height along y: a flow of vorticity one is written with vorticity one and a half. -/
example : ∃ g, Provisioned Nodes1D.exactLapack (1 / 2 ^ 52) 1e-10 1e-5 1 square twoTri g ∧ ∀ u v : DMat ℝ, (∀ i < g.np, u.at' i 0 = -1 * (gridY (g.tri 0) g.n i + atNode g (MvPolynomial.C (1 / 2) * MvPolynomial.X 1) 0 i)) → (∀ i < g.np, v.at' i 0 = 0) →
    ∀ i < g.np, (g.vort u v).at' i 0 = 3 / 2 := by
  obtain ⟨g, c, ga, hg, h0, hw⟩ := square_weak
  obtain ⟨x, hs, hN, hK, -⟩ := hg.spec
  have hK : g.K = 2 := hK
  refine ⟨g, hg, fun u v hu hv i hi => ?_⟩
  rw [C138_vort_deformed hs (by omega) (MvPolynomial.C (1 / 2) * MvPolynomial.X 1) ?_ 1 ⟨g.np, g.K, fun i k => gridY (g.tri k) g.n i + atNode g (MvPolynomial.C (1 / 2) * MvPolynomial.X 1) k i⟩ u v (fun _ _ => rfl) hu hv hi]
  · unfold atNode
    simp [Derivation.leibniz]
    norm_num
  · refine (MvPolynomial.totalDegree_mul _ _).trans ?_
    rw [MvPolynomial.totalDegree_C, MvPolynomial.totalDegree_X, hN]

end Blitzdg.SW
