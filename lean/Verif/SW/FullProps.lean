import Verif.SW.StepProps
import Verif.SW.Open

/-! The right-hand side of src/sw2d on every mesh. -/

namespace Blitzdg.SW

open Blitzdg.Sparse (DMat)
open Blitzdg.Nodes1D (Lapack)
open Blitzdg.DG2D
open Blitzdg.Blitz

variable {P : ℕ → ℕ} {x : List ℝ} {bt : List Int} {g : Grid}

/-! ### The open boundary loop -/

theorem open_loop (t : ℝ) (HM : List ℝ) (n : ℕ) (hH : HM.length = n) (m : Trace) (hm : m.Len n) (O : List ℕ) (hO : ∀ w ∈ O, w < n) (p : Trace) (hp : p.Len n) :
    ∃ p', loopM (openStep t HM m) p O = .ok p' ∧ p'.Len n ∧ ∀ c, p'.at' c = if c ∈ O then ⟨HM.getD c 0 + tide t, (m.at' c).hu, (m.at' c).hv⟩ else p.at' c := by
  induction O generalizing p with
  | nil => exact ⟨p, rfl, hp, fun c => by simp⟩
  | cons w O ih =>
    have hw := hO w (by simp)
    have r1 : rd m.hu w = .ok (m.hu.getD w 0) := by rw [rd_of_lt (by rw [hm.hu]; exact hw), List.getD_eq_getElem _ _ (by rw [hm.hu]; exact hw)]
    have r2 : rd m.hv w = .ok (m.hv.getD w 0) := by rw [rd_of_lt (by rw [hm.hv]; exact hw), List.getD_eq_getElem _ _ (by rw [hm.hv]; exact hw)]
    have r3 : rd HM w = .ok (HM.getD w 0) := by rw [rd_of_lt (by omega), List.getD_eq_getElem _ _ (by omega)]
    set p1 : Trace := ⟨p.h.set w (HM.getD w 0 + tide t), p.hu.set w (m.hu.getD w 0), p.hv.set w (m.hv.getD w 0)⟩ with hp1
    have hstep : openStep t HM m p w = .ok p1 := by
      unfold openStep
      simp only [r1, r2, r3, Out.bind_ok]
      rw [wr_of_lt (by rw [hp.hu]; exact hw), wr_of_lt (by rw [hp.hv]; exact hw), wr_of_lt (by rw [hp.h]; exact hw)]
      rfl
    have l1 : p1.Len n := ⟨by rw [hp1]; simp [hp.h], by rw [hp1]; simp [hp.hu], by rw [hp1]; simp [hp.hv]⟩
    obtain ⟨p', h1, h2, h3⟩ := ih (fun w' hw' => hO w' (by simp [hw'])) p1 l1
    refine ⟨p', by rw [loopM_cons, hstep, Out.bind_ok, h1], h2, fun c => ?_⟩
    rw [h3 c]
    have hat : p1.at' c = if c = w then ⟨HM.getD c 0 + tide t, (m.at' c).hu, (m.at' c).hv⟩ else p.at' c := by
      unfold Trace.at'
      rw [hp1]
      simp only
      rw [getD_set _ _ _ _ (by rw [hp.h]; exact hw), getD_set _ _ _ _ (by rw [hp.hu]; exact hw), getD_set _ _ _ _ (by rw [hp.hv]; exact hw)]
      by_cases hc : c = w
      · subst hc; simp
      · simp [hc]
    by_cases hcO : c ∈ O
    · rw [if_pos hcO, if_pos (by simp [hcO])]
    · rw [if_neg hcO, hat]
      by_cases hc : c = w
      · rw [if_pos hc, if_pos (by simp [hc])]
      · rw [if_neg hc, if_neg (by simp [hc, hcO])]

/-! ### What the right-hand side computes -/

/-- The tag map lists exactly the nodes of the faces in `W` as wall nodes and of those in `O` as open boundary nodes. -/
structure Tags (g : Grid) (bc : TagMap) (W O : ℕ → Prop) : Prop where
  wall : ∃ L, bc 3 = some L ∧ (∀ c ∈ L, c < g.nf) ∧ ∀ e < 3 * g.K, ∀ i ≤ g.N, g.fn e i ∈ L ↔ W e
  out : ∃ L, bc 2 = some L ∧ (∀ c ∈ L, c < g.nf) ∧ ∀ e < 3 * g.K, ∀ i ≤ g.N, g.fn e i ∈ L ↔ O e

/-- Bed depth inside and across, at node `i` of face `e`. -/
def bedIn (g : Grid) (H : DMat ℝ) (e i : ℕ) : ℝ := H.at' (g.n.mask i (e % 3)) (e / 3)
def bedOut (P : ℕ → ℕ) (g : Grid) (H : DMat ℝ) (e i : ℕ) : ℝ := H.at' (g.n.mask (across P g.N e i) (P e % 3)) (P e / 3)

/-- Exterior state: tide on open faces, mirror image on walls, neighbour elsewhere. -/
noncomputable def extFull (P : ℕ → ℕ) (W O : ℕ → Prop) [DecidablePred W] [DecidablePred O] (g : Grid) (H : DMat ℝ) (t : ℝ) (q : Fields) (e i : ℕ) : State :=
  if O e then ⟨bedIn g H e i + tide t, (inner g q e i).hu, (inner g q e i).hv⟩
  else if W e then wallState (faceNormal g e).1 (faceNormal g e).2 (inner g q e i)
  else outer P g q e i

/-- Both states after the star step. -/
noncomputable def star (P : ℕ → ℕ) (W O : ℕ → Prop) [DecidablePred W] [DecidablePred O] (g : Grid) (H : DMat ℝ) (t : ℝ) (q : Fields) (e i : ℕ) : State × State :=
  starPair (bedIn g H e i) (bedOut P g H e i) (inner g q e i) (extFull P W O g H t q e i)

/-- Largest speed over all face nodes. -/
def IsTop (P : ℕ → ℕ) (W O : ℕ → Prop) [DecidablePred W] [DecidablePred O] (g : Grid) (grav : ℝ) (H : DMat ℝ) (t : ℝ) (q : Fields) (lam : ℝ) : Prop :=
  (∀ e < 3 * g.K, ∀ i ≤ g.N, speed grav (star P W O g H t q e i).1 ≤ lam ∧ speed grav (star P W O g H t q e i).2 ≤ lam) ∧
  ∃ e < 3 * g.K, ∃ i ≤ g.N, lam = max (speed grav (star P W O g H t q e i).1) (speed grav (star P W O g H t q e i).2)

theorem jumpFull_eq (grav nx ny lam : ℝ) (m p : State) : jumpFull grav nx ny lam m p = jumpFlux grav nx ny lam m p := by
  unfold jumpFull
  simp

theorem GridSpec.rhsFull_ok (hg : GridSpec P x bt g) (hK : 0 < g.K) {W O : ℕ → Prop} [DecidablePred W] [DecidablePred O] {bc : TagMap} (hT : Tags g bc W O)
    (ph : Phys) (b : Bed) (t : ℝ) (q : Fields) (hq : q.Fits g) (hH : Fits g b.H) :
    ∃ (lam : ℝ) (d1 d2 d3 : DMat ℝ) (r : Fields), ({ g with bc := bc } : Grid).rhsFull ph b t q = .ok r ∧ r.Fits g ∧
      (∀ i k, r.h.at' i k = g.divergence (fun j k => (fluxF ph.g (q.at' j k)).c1) (fun j k => (fluxG ph.g (q.at' j k)).c1) i k + g.surface d1 i k) ∧
      (∀ i k, r.hu.at' i k = g.divergence (fun j k => (fluxF ph.g (q.at' j k)).c2) (fun j k => (fluxG ph.g (q.at' j k)).c2) i k + g.surface d2 i k
        + ph.g * q.h.at' i k * b.Hx.at' i k + (sourceCpp ph.CD ph.f (q.at' i k)).1) ∧
      (∀ i k, r.hv.at' i k = g.divergence (fun j k => (fluxF ph.g (q.at' j k)).c3) (fun j k => (fluxG ph.g (q.at' j k)).c3) i k + g.surface d3 i k
        + ph.g * q.h.at' i k * b.Hy.at' i k + (sourceCpp ph.CD ph.f (q.at' i k)).2) ∧
      IsTop P W O g ph.g b.H t q lam ∧
      ∀ e < 3 * g.K, ∀ i ≤ g.N,
        d1.at' (e % 3 * (g.N + 1) + i) (e / 3) = (jumpFlux ph.g (faceNormal g e).1 (faceNormal g e).2 lam (star P W O g b.H t q e i).1 (star P W O g b.H t q e i).2).c1 ∧
        d2.at' (e % 3 * (g.N + 1) + i) (e / 3) = (jumpFlux ph.g (faceNormal g e).1 (faceNormal g e).2 lam (star P W O g b.H t q e i).1 (star P W O g b.H t q e i).2).c2 ∧
        d3.at' (e % 3 * (g.N + 1) + i) (e / 3) = (jumpFlux ph.g (faceNormal g e).1 (faceNormal g e).2 lam (star P W O g b.H t q e i).1 (star P W O g b.H t q e i).2).c3 := by
  obtain ⟨LW, w1, w2, w3⟩ := hT.wall
  obtain ⟨LO, o1, o2, o3⟩ := hT.out
  obtain ⟨nx, x1, x2, x3⟩ := flat_ok (g := g) g.nx ⟨rfl, rfl⟩
  obtain ⟨ny, y1, y2, y3⟩ := flat_ok (g := g) g.ny ⟨rfl, rfl⟩
  obtain ⟨hM, hP, a1, a2, a3, a4⟩ := hg.traces_ok q.h hq.1
  obtain ⟨huM, huP, b1, b2, b3, b4⟩ := hg.traces_ok q.hu hq.2.1
  obtain ⟨hvM, hvP, c1, c2, c3, c4⟩ := hg.traces_ok q.hv hq.2.2
  obtain ⟨HM, HP, H1, H2, H3, H4⟩ := hg.traces_ok b.H hH
  obtain ⟨p, p1, p2, p3⟩ := wall_loop true nx ny g.nf x2 y2 ⟨hM, huM, hvM⟩ ⟨a2, b2, c2⟩ LW w2 ⟨hP, huP, hvP⟩ ⟨a3, b3, c3⟩
  obtain ⟨p', q1, q2, q3⟩ := open_loop t HM g.nf H2 ⟨hM, huM, hvM⟩ ⟨a2, b2, c2⟩ LO o2 p p2
  set st := (List.range g.nf).map fun c => starPair (HM.getD c 0) (HP.getD c 0) ((⟨hM, huM, hvM⟩ : Trace).at' c) (p'.at' c) with hst
  set lam := listMax (st.map fun x => max (speed ph.g x.1) (speed ph.g x.2)) with hlam
  set dF := (List.range g.nf).map fun c =>
    jumpFull ph.g (nx.getD c 0) (ny.getD c 0) lam (st.getD c (⟨0, 0, 0⟩, ⟨0, 0, 0⟩)).1 (st.getD c (⟨0, 0, 0⟩, ⟨0, 0, 0⟩)).2 with hdF
  have hdl : ∀ f : V3 → ℝ, (dF.map f).length = g.nf := fun f => by rw [hdF]; simp
  obtain ⟨d1, d1a, d1b⟩ := unflat_ok (g := g) (dF.map V3.c1) (hdl _)
  obtain ⟨d2, d2a, d2b⟩ := unflat_ok (g := g) (dF.map V3.c2) (hdl _)
  obtain ⟨d3, d3a, d3b⟩ := unflat_ok (g := g) (dF.map V3.c3) (hdl _)
  have hin : ∀ e < 3 * g.K, ∀ i ≤ g.N, (⟨hM, huM, hvM⟩ : Trace).at' (g.fn e i) = inner g q e i := by
    intro e he i hi
    unfold Trace.at' inner Fields.at'
    simp only [getD_some (a4 e he i hi).1, getD_some (b4 e he i hi).1, getD_some (c4 e he i hi).1]
  have hout : ∀ e < 3 * g.K, ∀ i ≤ g.N, (⟨hP, huP, hvP⟩ : Trace).at' (g.fn e i) = outer P g q e i := by
    intro e he i hi
    unfold Trace.at' outer Fields.at'
    simp only [getD_some (a4 e he i hi).2, getD_some (b4 e he i hi).2, getD_some (c4 e he i hi).2]
  have hnx : ∀ e < 3 * g.K, ∀ i ≤ g.N, nx.getD (g.fn e i) 0 = (faceNormal g e).1 ∧ ny.getD (g.fn e i) 0 = (faceNormal g e).2 := by
    intro e he i hi
    rw [getD_some (x3 e he i hi), getD_some (y3 e he i hi)]
    unfold Grid.nx Grid.ny faceNormal
    simp only [hg.normal_eq (e % 3) i (e / 3) (by omega) hi, and_self]
  have hext : ∀ e < 3 * g.K, ∀ i ≤ g.N, p'.at' (g.fn e i) = extFull P W O g b.H t q e i := by
    intro e he i hi
    rw [q3]
    unfold extFull
    by_cases hO : O e
    · rw [if_pos ((o3 e he i hi).2 hO), if_pos hO, hin e he i hi, getD_some (H4 e he i hi).1]; rfl
    · rw [if_neg (fun h => hO ((o3 e he i hi).1 h)), if_neg hO, p3]
      unfold walled
      rw [hin e he i hi, hout e he i hi, (hnx e he i hi).1, (hnx e he i hi).2]
      by_cases hW : W e
      · rw [if_pos ((w3 e he i hi).2 hW), if_pos hW]; simp [wallState]
      · rw [if_neg (fun h => hW ((w3 e he i hi).1 h)), if_neg hW]
  have hstar : ∀ e < 3 * g.K, ∀ i ≤ g.N, st.getD (g.fn e i) (⟨0, 0, 0⟩, ⟨0, 0, 0⟩) = star P W O g b.H t q e i := by
    intro e he i hi
    rw [List.getD_eq_getElem _ _ (by rw [hst]; simpa using fn_lt he hi)]
    simp only [hst, List.getElem_map, List.getElem_range]
    rw [hin e he i hi, hext e he i hi, getD_some (H4 e he i hi).1, getD_some (H4 e he i hi).2]
    rfl
  have hd : ∀ e < 3 * g.K, ∀ i ≤ g.N, ∀ f : V3 → ℝ, (dF.map f).getD (g.fn e i) 0
      = f (jumpFlux ph.g (faceNormal g e).1 (faceNormal g e).2 lam (star P W O g b.H t q e i).1 (star P W O g b.H t q e i).2) := by
    intro e he i hi f
    have := fn_lt (g := g) he hi
    rw [List.getD_eq_getElem _ _ (by rw [hdl]; exact this)]
    simp only [hdF, List.getElem_map, List.getElem_range]
    rw [(hnx e he i hi).1, (hnx e he i hi).2, hstar e he i hi, jumpFull_eq]
  refine ⟨lam, d1, d2, d3, addSources ph b q
    { h := ⟨g.np, g.K, fun i k => g.divergence (fun j k => (fluxF ph.g (q.at' j k)).c1) (fun j k => (fluxG ph.g (q.at' j k)).c1) i k + g.surface d1 i k⟩
      hu := ⟨g.np, g.K, fun i k => g.divergence (fun j k => (fluxF ph.g (q.at' j k)).c2) (fun j k => (fluxG ph.g (q.at' j k)).c2) i k + g.surface d2 i k⟩
      hv := ⟨g.np, g.K, fun i k => g.divergence (fun j k => (fluxF ph.g (q.at' j k)).c3) (fun j k => (fluxG ph.g (q.at' j k)).c3) i k + g.surface d3 i k⟩ },
    ?_, ⟨⟨rfl, rfl⟩, ⟨rfl, rfl⟩, rfl, rfl⟩, fun i k => rfl, fun i k => rfl, fun i k => rfl, ?_, ?_⟩
  · have et : ∀ u, ({ g with bc := bc } : Grid).traces u = g.traces u := fun _ => rfl
    have enf : ({ g with bc := bc } : Grid).nf = g.nf := rfl
    have enx : ({ g with bc := bc } : Grid).nx = g.nx := rfl
    have eny : ({ g with bc := bc } : Grid).ny = g.ny := rfl
    have eas : ({ g with bc := bc } : Grid).assemble ph.g q dF = g.assemble ph.g q dF := rfl
    unfold Grid.rhsFull tagNodes
    simp only [et, enf, enx, eny, w1, o1, Out.bind_ok, x1, y1, a1, b1, c1, H1, p1, q1]
    rw [← hst, ← hlam, ← hdF, eas]
    unfold Grid.assemble
    simp only [d1a, d2a, d3a, Out.bind_ok]
    rfl
  · have hne : st.map (fun x => max (speed ph.g x.1) (speed ph.g x.2)) ≠ [] := by
      have := fn_lt (g := g) (e := 0) (i := 0) (by omega) (by omega)
      intro h
      have hl := congrArg List.length h
      rw [hst] at hl
      simp at hl
      omega
    obtain ⟨m1, m2⟩ := listMax_spec _ hne
    have hmem : ∀ e < 3 * g.K, ∀ i ≤ g.N, star P W O g b.H t q e i ∈ st := by
      intro e he i hi
      rw [← hstar e he i hi, List.getD_eq_getElem _ _ (by rw [hst]; simpa using fn_lt he hi)]
      exact List.getElem_mem _
    constructor
    · intro e he i hi
      have := m1 _ (List.mem_map.2 ⟨_, hmem e he i hi, rfl⟩)
      exact max_le_iff.1 this
    · obtain ⟨s, hs, hs2⟩ := List.mem_map.1 m2
      obtain ⟨c, hc, hc2⟩ := List.mem_iff_getElem.1 hs
      obtain ⟨e, i, he, hi, rfl⟩ := fn_surj (g := g) (c := c) (by rw [hst] at hc; simpa using hc)
      refine ⟨e, he, i, hi, ?_⟩
      rw [← hstar e he i hi, List.getD_eq_getElem _ _ hc, hc2]
      exact hs2.symm
  · intro e he i hi
    exact ⟨(d1b e he i hi).trans (hd e he i hi _), (d2b e he i hi).trans (hd e he i hi _), (d3b e he i hi).trans (hd e he i hi _)⟩

/-! ### Mass -/

/-- Water on both sides of every face after the star step. -/
def Afloat (P : ℕ → ℕ) (W O : ℕ → Prop) [DecidablePred W] [DecidablePred O] (g : Grid) (H : DMat ℝ) (t : ℝ) (q : Fields) : Prop :=
  ∀ e < 3 * g.K, ∀ i ≤ g.N, 0 < (star P W O g H t q e i).1.h ∧ 0 < (star P W O g H t q e i).2.h

theorem starPair_mom {HM HP : ℝ} {m p : State} (h1 : 0 < (starPair HM HP m p).1.h) (h2 : 0 < (starPair HM HP m p).2.h) :
    (starPair HM HP m p).1.hu = m.hu ∧ (starPair HM HP m p).1.hv = m.hv ∧ (starPair HM HP m p).2.hu = p.hu ∧ (starPair HM HP m p).2.hv = p.hv := by
  unfold starPair at h1 h2 ⊢
  simp only at h1 h2 ⊢
  refine ⟨?_, ?_, ?_, ?_⟩ <;> field_simp

theorem starPair_swap (HM HP : ℝ) (m p : State) : starPair HP HM p m = (starPair HM HP m p).swap := by
  unfold starPair
  simp only [Prod.swap, max_comm (-HM)]

theorem starPair_same {H : ℝ} {m p : State} (h1 : 0 < (starPair H H m p).1.h) (h2 : 0 < (starPair H H m p).2.h) : starPair H H m p = (m, p) := by
  obtain ⟨a, b, c, d⟩ := starPair_mom h1 h2
  have e1 : (starPair H H m p).1.h = m.h := by
    unfold starPair at h1 ⊢
    simp only [max_self] at h1 ⊢
    rcases le_total m.h 0 with h | h
    · rw [add_sub_cancel_right, max_eq_left h] at h1; exact absurd h1 (lt_irrefl _)
    · rw [add_sub_cancel_right, max_eq_right h]
  have e2 : (starPair H H m p).2.h = p.h := by
    unfold starPair at h2 ⊢
    simp only [max_self] at h2 ⊢
    rcases le_total p.h 0 with h | h
    · rw [add_sub_cancel_right, max_eq_left h] at h2; exact absurd h2 (lt_irrefl _)
    · rw [add_sub_cancel_right, max_eq_right h]
  have : ∀ s t : State, s.h = t.h → s.hu = t.hu → s.hv = t.hv → s = t := by
    rintro ⟨_, _, _⟩ ⟨_, _, _⟩ rfl rfl rfl; rfl
  exact Prod.ext (this _ _ e1 a b) (this _ _ e2 c d)

/-- Mass leaves only through open boundary faces. -/
theorem GridSpec.full_mass (hg : GridSpec P x bt g) (hK : 0 < g.K) {W O : ℕ → Prop} [DecidablePred W] [DecidablePred O] {bc : TagMap} (hT : Tags g bc W O)
    (hWO : ∀ e < 3 * g.K, (W e ∨ O e) ↔ P e = e) (ph : Phys) (b : Bed) (t : ℝ) (q : Fields) (hq : q.Fits g) (hH : Fits g b.H) (ha : Afloat P W O g b.H t q) :
    ∃ (r : Fields) (lam : ℝ), ({ g with bc := bc } : Grid).rhsFull ph b t q = .ok r ∧ r.Fits g ∧ IsTop P W O g ph.g b.H t q lam ∧
      IsTotal g r.h.at' (-∑ e ∈ (Finset.range (3 * g.K)).filter O, faceLen g e / 2 * faceInt g.N x
        (fun i => (inner g q e i).hu * (faceNormal g e).1 + (inner g q e i).hv * (faceNormal g e).2 + lam / 2 * ((inner g q e i).h - (bedIn g b.H e i + tide t)))) := by
  obtain ⟨lam, d1, d2, d3, r, h1, hf, e1, -, -, hl, hd⟩ := hg.rhsFull_ok hK hT ph b t q hq hH
  refine ⟨r, lam, h1, hf, hl, ?_⟩
  -- the flux out of a face node
  have ho : ∀ e < 3 * g.K, ∀ i ≤ g.N, outFlux g (fun j k => (fluxF ph.g (q.at' j k)).c1) (fun j k => (fluxG ph.g (q.at' j k)).c1) d1 e i
      = 0.5 * (((inner g q e i).hu + (extFull P W O g b.H t q e i).hu) * (faceNormal g e).1 + ((inner g q e i).hv + (extFull P W O g b.H t q e i).hv) * (faceNormal g e).2)
        + lam / 2 * ((star P W O g b.H t q e i).1.h - (star P W O g b.H t q e i).2.h) := by
    intro e he i hi
    obtain ⟨a1, a2⟩ := ha e he i hi
    obtain ⟨m1, m2, m3, m4⟩ := starPair_mom a1 a2
    unfold outFlux
    rw [(hd e he i hi).1]
    unfold jumpFlux fluxF fluxG
    simp only
    change (star P W O g b.H t q e i).1.hu = _ at m1
    change (star P W O g b.H t q e i).1.hv = _ at m2
    change (star P W O g b.H t q e i).2.hu = _ at m3
    change (star P W O g b.H t q e i).2.hv = _ at m4
    rw [m1, m2, m3, m4]
    unfold inner faceNormal
    simp only [Fields.at']
    norm_num
    ring
  have hb := hg.balance (fun j k => (fluxF ph.g (q.at' j k)).c1) (fun j k => (fluxG ph.g (q.at' j k)).c1) d1 (by
    intro e he hne i hi
    have hPe := hg.lt e he
    have hnP : P (P e) ≠ P e := by rw [hg.inv e he]; exact fun h => hne h.symm
    have n1 : ¬ O e := fun h => hne ((hWO e he).1 (Or.inr h))
    have n2 : ¬ W e := fun h => hne ((hWO e he).1 (Or.inl h))
    have n3 : ¬ O (P e) := fun h => hnP ((hWO _ hPe).1 (Or.inr h))
    have n4 : ¬ W (P e) := fun h => hnP ((hWO _ hPe).1 (Or.inl h))
    have x1 : extFull P W O g b.H t q (P e) (across P g.N e i) = inner g q e i := by
      unfold extFull
      rw [if_neg n3, if_neg n4, outer_across hg q he hi]
    have x2 : extFull P W O g b.H t q e i = outer P g q e i := by
      unfold extFull
      rw [if_neg n1, if_neg n2]
    have x3 : star P W O g b.H t q (P e) (across P g.N e i) = (star P W O g b.H t q e i).swap := by
      unfold star
      rw [x1, x2, inner_across, ← starPair_swap]
      congr 1
      unfold bedOut bedIn
      rw [across_across P g.N e i hi (hg.inv e he), hg.inv e he]
    rw [ho _ hPe _ (across_le P g.N e i hi), ho e he i hi, x1, x2, x3, inner_across, normal_opp hg he hne]
    simp only [Prod.fst_swap, Prod.snd_swap]
    ring)
  have hfun : r.h.at' = fun i k => g.divergence (fun j k => (fluxF ph.g (q.at' j k)).c1) (fun j k => (fluxG ph.g (q.at' j k)).c1) i k + g.surface d1 i k := by
    funext i k; exact e1 i k
  rw [hfun]
  refine (congrArg (IsTotal g _) (congrArg Neg.neg ?_)).mpr hb
  rw [Finset.sum_filter, Finset.sum_filter]
  apply Finset.sum_congr rfl
  intro e he
  have he := Finset.mem_range.1 he
  by_cases hPe : P e = e
  · have hbed : ∀ i, bedOut P g b.H e i = bedIn g b.H e i := by
      intro i
      unfold bedOut bedIn across
      rw [if_pos hPe, hPe]
    have hs : ∀ i ≤ g.N, star P W O g b.H t q e i = (inner g q e i, extFull P W O g b.H t q e i) := by
      intro i hi
      have := ha e he i hi
      unfold star at this ⊢
      rw [hbed] at this ⊢
      exact starPair_same this.1 this.2
    rw [if_pos hPe]
    by_cases hO : O e
    · rw [if_pos hO]
      congr 1
      apply faceInt_congr hg.inc
      intro i hi
      rw [ho e he i hi, hs i hi]
      unfold extFull
      rw [if_pos hO]
      norm_num
      ring
    · rw [if_neg hO]
      have hW : W e := ((hWO e he).2 hPe).resolve_right hO
      have hz : ∀ i ≤ g.N, outFlux g (fun j k => (fluxF ph.g (q.at' j k)).c1) (fun j k => (fluxG ph.g (q.at' j k)).c1) d1 e i = 0 := by
        intro i hi
        rw [ho e he i hi, hs i hi]
        unfold extFull
        rw [if_neg hO, if_pos hW]
        unfold wallState
        simp only
        have hu := normal_unit hg he
        generalize (faceNormal g e).1 = a at *
        generalize (faceNormal g e).2 = c at *
        have e2 : 0.5 * (((inner g q e i).hu + ((inner g q e i).hu - 2 * a * ((inner g q e i).hu * a + (inner g q e i).hv * c))) * a
          + ((inner g q e i).hv + ((inner g q e i).hv - 2 * c * ((inner g q e i).hu * a + (inner g q e i).hv * c))) * c)
          = ((inner g q e i).hu * a + (inner g q e i).hv * c) * (1 - (a * a + c * c)) := by ring
        rw [e2, hu]
        ring
      symm
      rw [faceInt_congr hg.inc (fun i => 0 * 0) _ (fun i hi => by rw [hz i hi]; ring), faceInt_smul]
      ring
  · rw [if_neg hPe, if_neg fun h => hPe ((hWO e he).1 (Or.inr h))]

/-- Tagging both walls and open faces. -/
theorem tags_none (g : Grid) (ph : Phys) (b : Bed) (t : ℝ) (q : Fields) (h : g.bc 3 = none ∨ g.bc 2 = none) : g.rhsFull ph b t q = .throws := by
  unfold Grid.rhsFull tagNodes
  rcases h with h | h
  · rw [h]; rfl
  · rw [h]
    cases g.bc 3 <;> rfl

end Blitzdg.SW
