import Verif.SW.Arrays
import Verif.SW.FluxProps

/-! Properties of the right-hand side of src/sw2d-simple on every mesh: conservation and states that stay. -/

namespace Blitzdg.SW

open Blitzdg.Sparse (DMat)
open Blitzdg.Nodes1D (Lapack)
open Blitzdg.DG2D
open Blitzdg.Blitz

variable {P : ℕ → ℕ} {x : List ℝ} {bt : List Int} {g : Grid}

/-- Three fields with one value per node and element. -/
def Fields.Fits (q : Fields) (g : Grid) : Prop := SW.Fits g q.h ∧ SW.Fits g q.hu ∧ SW.Fits g q.hv

/-- Every boundary face is a wall and walls are boundary faces. -/
def Walled (P : ℕ → ℕ) (bt : List Int) (g : Grid) : Prop := ∀ e < 3 * g.K, bt[e]? = some 3 ↔ P e = e

/-- No interior face carries a wall tag. -/
def WallsOutside (P : ℕ → ℕ) (bt : List Int) (g : Grid) : Prop := ∀ e < 3 * g.K, bt[e]? = some 3 → P e = e

theorem normal_unit (hg : GridSpec P x bt g) {e : ℕ} (he : e < 3 * g.K) :
    (faceNormal g e).1 * (faceNormal g e).1 + (faceNormal g e).2 * (faceNormal g e).2 = 1 := unit_len (nrm_pos (hg.ccw (e / 3) (by omega)) _)

theorem normal_opp (hg : GridSpec P x bt g) {e : ℕ} (he : e < 3 * g.K) (hne : P e ≠ e) : faceNormal g (P e) = (-(faceNormal g e).1, -(faceNormal g e).2) := by
  unfold faceNormal
  rw [nrm_swap (f := e % 3) (f' := P e % 3) (by omega) (by omega) (hg.meet e he hne)]
  unfold unit
  rw [len_neg2]
  simp only [Prod.mk.injEq]
  constructor <;> ring

theorem inner_across (q : Fields) (e i : ℕ) : inner g q (P e) (across P g.N e i) = outer P g q e i := rfl

theorem outer_across (hg : GridSpec P x bt g) (q : Fields) {e i : ℕ} (he : e < 3 * g.K) (hi : i ≤ g.N) : outer P g q (P e) (across P g.N e i) = inner g q e i := by
  unfold outer inner
  rw [across_across P g.N e i hi (hg.inv e he), hg.inv e he]

/-- The flux out of a face node is the numerical flux. -/
theorem outFlux_num (g : Grid) (grav lam : ℝ) (q : Fields) (d : DMat ℝ) (c : V3 → ℝ) (e i : ℕ) (ext : State)
    (hc : c = V3.c1 ∨ c = V3.c2 ∨ c = V3.c3)
    (hd : d.at' (e % 3 * (g.N + 1) + i) (e / 3) = c (jumpFlux grav (faceNormal g e).1 (faceNormal g e).2 lam (inner g q e i) ext)) :
    outFlux g (fun j k => c (fluxF grav (q.at' j k))) (fun j k => c (fluxG grav (q.at' j k))) d e i
      = c (numFlux grav (faceNormal g e).1 (faceNormal g e).2 lam (inner g q e i) ext) := by
  unfold outFlux
  rw [hd]
  rcases hc with rfl | rfl | rfl <;> simp only [numFlux, inner, faceNormal] <;> ring

theorem num_anti (grav nx ny lam : ℝ) (m p : State) (c : V3 → ℝ) (hc : c = V3.c1 ∨ c = V3.c2 ∨ c = V3.c3) :
    c (numFlux grav (-nx) (-ny) lam p m) = -c (numFlux grav nx ny lam m p) := by
  have := (C51_flux grav nx ny lam m p).1
  rw [this]
  rcases hc with rfl | rfl | rfl <;> rfl

/-- The face speed is the same seen from both sides. -/
theorem speeds_agree (hg : GridSpec P x bt g) (hw : WallsOutside P bt g) (grav : ℝ) (q : Fields) (Λ : ℕ → ℕ → ℝ)
    (hΛ : ∀ e < 3 * g.K, ∀ i ≤ g.N, IsMax g.N (fun j => max (speed grav (inner g q e j)) (speed grav (exterior P bt g q e j))) (Λ e i))
    {e : ℕ} (he : e < 3 * g.K) (hne : P e ≠ e) {i : ℕ} (hi : i ≤ g.N) : Λ (P e) (across P g.N e i) = Λ e i := by
  have hPe := hg.lt e he
  have hnP : P (P e) ≠ P e := by rw [hg.inv e he]; exact fun h => hne h.symm
  have key : ∀ j ≤ g.N, max (speed grav (inner g q (P e) (across P g.N e j))) (speed grav (exterior P bt g q (P e) (across P g.N e j)))
      = max (speed grav (inner g q e j)) (speed grav (exterior P bt g q e j)) := by
    intro j hj
    unfold exterior
    rw [if_neg (fun h => hnP (hw _ hPe h)), if_neg (fun h => hne (hw e he h)), inner_across, outer_across hg q he hj, max_comm]
  apply isMax_unique (hΛ _ hPe _ (across_le P g.N e i hi)) (hΛ e he i hi)
  · intro j hj
    refine ⟨across P g.N (P e) j, across_le P g.N (P e) j hj, ?_⟩
    have := key (across P g.N (P e) j) (across_le P g.N (P e) j hj)
    have h2 : across P g.N e (across P g.N (P e) j) = j := by
      have := across_across P g.N (P e) j hj (by rw [hg.inv e he])
      rwa [hg.inv e he] at this
    rw [h2] at this
    exact this
  · intro j hj
    exact ⟨across P g.N e j, across_le P g.N e j hj, (key j hj).symm⟩

/-- Balance of all three equations on every grid: interior fluxes cancel, so the totals of the right-hand sides are minus the integrals of the numerical fluxes over the boundary. -/
theorem GridSpec.simple_balance (hg : GridSpec P x bt g) (hw : WallsOutside P bt g) (hw1 : ∃ e < 3 * g.K, bt[e]? = some 3) (grav : ℝ) (q : Fields) (hq : q.Fits g) :
    ∃ (r : Fields) (Λ : ℕ → ℕ → ℝ), g.rhsSimple grav q = .ok r ∧ r.Fits g ∧
      (∀ e < 3 * g.K, ∀ i ≤ g.N, IsMax g.N (fun j => max (speed grav (inner g q e j)) (speed grav (exterior P bt g q e j))) (Λ e i)) ∧
      ∀ c u, ((c, u) = (V3.c1, r.h.at') ∨ (c, u) = (V3.c2, r.hu.at') ∨ (c, u) = (V3.c3, r.hv.at')) →
        IsTotal g u (-∑ e ∈ (Finset.range (3 * g.K)).filter (fun e => P e = e), faceLen g e / 2 * faceInt g.N x
          (fun i => c (numFlux grav (faceNormal g e).1 (faceNormal g e).2 (Λ e i) (inner g q e i) (exterior P bt g q e i)))) := by
  obtain ⟨Λ, d1, d2, d3, r, h1, f1, f2, f3, e1, e2, e3, hΛ, hd⟩ := hg.rhsSimple_ok grav q hq.1 hq.2.1 hq.2.2 hw1
  refine ⟨r, Λ, h1, ⟨f1, f2, f3⟩, hΛ, ?_⟩
  have main : ∀ (c : V3 → ℝ) (d : DMat ℝ) (u : ℕ → ℕ → ℝ), (c = V3.c1 ∨ c = V3.c2 ∨ c = V3.c3) →
      (∀ e < 3 * g.K, ∀ i ≤ g.N, d.at' (e % 3 * (g.N + 1) + i) (e / 3) = c (jumpFlux grav (faceNormal g e).1 (faceNormal g e).2 (Λ e i) (inner g q e i) (exterior P bt g q e i))) →
      (∀ i k, u i k = g.divergence (fun j k => c (fluxF grav (q.at' j k))) (fun j k => c (fluxG grav (q.at' j k))) i k + g.surface d i k) →
      IsTotal g u (-∑ e ∈ (Finset.range (3 * g.K)).filter (fun e => P e = e), faceLen g e / 2 * faceInt g.N x
          (fun i => c (numFlux grav (faceNormal g e).1 (faceNormal g e).2 (Λ e i) (inner g q e i) (exterior P bt g q e i)))) := by
    intro c d u hc hd hu
    have ho := fun e (he : e < 3 * g.K) i (hi : i ≤ g.N) => outFlux_num g grav (Λ e i) q d c e i _ hc (hd e he i hi)
    have hb := hg.balance (fun j k => c (fluxF grav (q.at' j k))) (fun j k => c (fluxG grav (q.at' j k))) d (by
      intro e he hne i hi
      have hPe := hg.lt e he
      have hnP : P (P e) ≠ P e := by rw [hg.inv e he]; exact fun h => hne h.symm
      rw [ho _ hPe _ (across_le P g.N e i hi), ho e he i hi, speeds_agree hg hw grav q Λ hΛ he hne hi, normal_opp hg he hne]
      have x1 : exterior P bt g q (P e) (across P g.N e i) = inner g q e i := by
        unfold exterior
        rw [if_neg (fun h => hnP (hw _ hPe h)), outer_across hg q he hi]
      have x2 : exterior P bt g q e i = outer P g q e i := by
        unfold exterior
        rw [if_neg (fun h => hne (hw e he h))]
      rw [x1, x2, inner_across]
      exact num_anti grav _ _ _ _ _ c hc)
    have hfun : u = fun i k => g.divergence (fun j k => c (fluxF grav (q.at' j k))) (fun j k => c (fluxG grav (q.at' j k))) i k + g.surface d i k := by
      funext i k; exact hu i k
    rw [hfun]
    have hsum : ∀ e ∈ (Finset.range (3 * g.K)).filter (fun e => P e = e), faceLen g e / 2 * faceInt g.N x
          (fun i => c (numFlux grav (faceNormal g e).1 (faceNormal g e).2 (Λ e i) (inner g q e i) (exterior P bt g q e i)))
        = faceLen g e / 2 * faceInt g.N x (outFlux g (fun j k => c (fluxF grav (q.at' j k))) (fun j k => c (fluxG grav (q.at' j k))) d e) := by
      intro e he
      have he := Finset.mem_range.1 (Finset.mem_filter.1 he).1
      congr 1
      exact faceInt_congr hg.inc _ _ fun i hi => (ho e he i hi).symm
    rw [Finset.sum_congr rfl hsum]
    exact hb
  rintro c u (h | h | h) <;> obtain ⟨rfl, rfl⟩ := Prod.mk.inj h
  · exact main V3.c1 d1 _ (by simp) (fun e he i hi => (hd e he i hi).1) e1
  · exact main V3.c2 d2 _ (by simp) (fun e he i hi => (hd e he i hi).2.1) e2
  · exact main V3.c3 d3 _ (by simp) (fun e he i hi => (hd e he i hi).2.2) e3

/-- At a boundary wall the exterior state is the mirror image. -/
theorem exterior_wall (q : Fields) {e i : ℕ} (he : P e = e) (ht : bt[e]? = some 3) :
    exterior P bt g q e i = wallState (faceNormal g e).1 (faceNormal g e).2 (inner g q e i) := by
  unfold exterior
  rw [if_pos ht]
  have : outer P g q e i = inner g q e i := by
    unfold outer inner across
    rw [if_pos he, he]
  rw [this]
  rfl

/-- Conservation of mass, once the grid is known to satisfy its specification. -/
theorem GridSpec.mass (hg : GridSpec P x bt g) (hw : Walled P bt g) (hw1 : ∃ e < 3 * g.K, bt[e]? = some 3) (grav : ℝ) (q : Fields) (hq : q.Fits g) :
    ∃ r, g.rhsSimple grav q = .ok r ∧ r.Fits g ∧ IsTotal g r.h.at' 0 := by
  obtain ⟨r, Λ, h1, h2, hΛ, h3⟩ := hg.simple_balance (fun e he h => (hw e he).1 h) hw1 grav q hq
  refine ⟨r, h1, h2, ?_⟩
  have := h3 V3.c1 r.h.at' (Or.inl rfl)
  rw [Finset.sum_eq_zero, neg_zero] at this
  · exact this
  · intro e he
    obtain ⟨he, hPe⟩ := Finset.mem_filter.1 he
    have he := Finset.mem_range.1 he
    have hz : ∀ i ≤ g.N, (numFlux grav (faceNormal g e).1 (faceNormal g e).2 (Λ e i) (inner g q e i) (exterior P bt g q e i)).c1 = 0 := by
      intro i hi
      rw [exterior_wall q hPe ((hw e he).2 hPe)]
      exact (C50_wall grav _ _ _ (normal_unit hg he) _).2.2.2.2.2.1
    rw [faceInt_congr hg.inc (fun i => 0 * 0) _ (fun i hi => by rw [hz i hi]; ring), faceInt_smul]
    ring

/-- Derivatives of a constant vanish. -/
theorem GridSpec.diff_const (hg : GridSpec P x bt g) {i : ℕ} (hi : i < g.np) :
    ∑ j ∈ Finset.range g.np, g.o.d.Dr.at' i j = 0 ∧ ∑ j ∈ Finset.range g.np, g.o.d.Ds.at' i j = 0 := by
  have hi' : i < g.n.r.length := by rw [hg.nodes]; exact hi
  have h1 := hg.elem.diff.dr 1 (tri_low g.N hg.posN).1 i hi'
  have h2 := hg.elem.diff.ds 1 (tri_low g.N hg.posN).1 i hi'
  rw [hg.nodes] at h1 h2
  constructor
  · simpa [nodal] using h1
  · simpa [nodal] using h2

theorem GridSpec.divergence_const (hg : GridSpec P x bt g) (F G : ℕ → ℕ → ℝ) (a b : ℝ) {i k : ℕ} (hi : i < g.np) (hF : ∀ j < g.np, F j k = a) (hG : ∀ j < g.np, G j k = b) :
    g.divergence F G i k = 0 := by
  obtain ⟨h1, h2⟩ := hg.diff_const hi
  have s : ∀ (D : DMat ℝ) (f : ℕ → ℕ → ℝ) (c : ℝ), (∀ j < g.np, f j k = c) → ∑ j ∈ Finset.range g.np, D.at' i j = 0 → ∑ j ∈ Finset.range g.np, D.at' i j * f j k = 0 := by
    intro D f c hf h
    rw [Finset.sum_congr rfl fun j hj => by rw [hf j (Finset.mem_range.1 hj)], ← Finset.sum_mul, h, zero_mul]
  unfold Grid.divergence
  rw [s _ F a hF h1, s _ F a hF h2, s _ G b hG h1, s _ G b hG h2]
  ring

theorem surface_zero (g : Grid) (d : DMat ℝ) {i k : ℕ} (hk : k < g.K) (hd : ∀ e < 3 * g.K, ∀ i ≤ g.N, d.at' (e % 3 * (g.N + 1) + i) (e / 3) = 0) : g.surface d i k = 0 := by
  unfold Grid.surface
  rw [sum_three]
  apply Finset.sum_eq_zero
  intro f hf
  have hf := Finset.mem_range.1 hf
  apply Finset.sum_eq_zero
  intro j hj
  have hj := Finset.mem_range.1 hj
  have := hd (3 * k + f) (by omega) j (by omega)
  rw [show (3 * k + f) % 3 = f by omega, show (3 * k + f) / 3 = k by omega] at this
  rw [this]
  ring

/-- A uniform state whose velocity is tangential to every wall does not change. -/
theorem GridSpec.steady (hg : GridSpec P x bt g) (hw1 : ∃ e < 3 * g.K, bt[e]? = some 3) (grav : ℝ) (q : Fields) (hq : q.Fits g) (s : State)
    (hs : ∀ i < g.np, ∀ k < g.K, q.at' i k = s) (ht : ∀ e < 3 * g.K, bt[e]? = some 3 → s.hu * (faceNormal g e).1 + s.hv * (faceNormal g e).2 = 0) :
    ∃ r, g.rhsSimple grav q = .ok r ∧ ∀ i < g.np, ∀ k < g.K, r.at' i k = ⟨0, 0, 0⟩ := by
  obtain ⟨Λ, d1, d2, d3, r, h1, f1, f2, f3, e1, e2, e3, hΛ, hd⟩ := hg.rhsSimple_ok grav q hq.1 hq.2.1 hq.2.2 hw1
  have hin : ∀ e < 3 * g.K, ∀ i ≤ g.N, inner g q e i = s := fun e he i hi => hs _ (hg.maskLt (e % 3) (by omega) i hi) _ (by omega)
  have hext : ∀ e < 3 * g.K, ∀ i ≤ g.N, exterior P bt g q e i = s := by
    intro e he i hi
    have hP := hg.lt e he
    have ho : outer P g q e i = s := hs _ (hg.maskLt (P e % 3) (by omega) _ (across_le P g.N e i hi)) _ (by omega)
    unfold exterior
    split_ifs with h
    · rw [ho, hin e he i hi]
      unfold wallState
      rw [ht e he h]
      simp
    · exact ho
  have hz : ∀ (c : V3 → ℝ), (c = V3.c1 ∨ c = V3.c2 ∨ c = V3.c3) → ∀ e < 3 * g.K, ∀ i ≤ g.N,
      c (jumpFlux grav (faceNormal g e).1 (faceNormal g e).2 (Λ e i) (inner g q e i) (exterior P bt g q e i)) = 0 := by
    intro c hc e he i hi
    rw [hin e he i hi, hext e he i hi, (C51_flux grav _ _ _ s s).2.2.1]
    rcases hc with rfl | rfl | rfl <;> rfl
  refine ⟨r, h1, fun i hi k hk => ?_⟩
  have hdiv : ∀ c : V3 → ℝ, g.divergence (fun j k => c (fluxF grav (q.at' j k))) (fun j k => c (fluxG grav (q.at' j k))) i k = 0 := by
    intro c
    apply hg.divergence_const _ _ (c (fluxF grav s)) (c (fluxG grav s)) hi
    · intro j hj; rw [hs j hj k hk]
    · intro j hj; rw [hs j hj k hk]
  unfold Fields.at'
  rw [e1, e2, e3, hdiv V3.c1, hdiv V3.c2, hdiv V3.c3,
    surface_zero g d1 hk fun e he i hi => by rw [(hd e he i hi).1]; exact hz _ (by simp) e he i hi,
    surface_zero g d2 hk fun e he i hi => by rw [(hd e he i hi).2.1]; exact hz _ (by simp) e he i hi,
    surface_zero g d3 hk fun e he i hi => by rw [(hd e he i hi).2.2]; exact hz _ (by simp) e he i hi]
  simp

end Blitzdg.SW
