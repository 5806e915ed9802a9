import Verif.SW.FullProps

/-! C86 - C92: src/sw2d - open boundary, budget of mass, water at rest, depth file, sponge layer. -/

namespace Blitzdg.SW

open Blitzdg.Sparse (DMat colMajor mem_colMajor)
open Blitzdg.Nodes1D (Lapack)
open Blitzdg.DG2D
open Blitzdg.Blitz

variable {la : Lapack} {eps ztol tol : ℝ} {N : ℕ} {m : Mesh} {P : ℕ → ℕ} {x : List ℝ} {bt : List Int} {g : Grid}

/-! ### The open boundary -/

/-- Both ends of face `e` are listed. -/
def Mesh.EndsIn (m : Mesh) (obc : ℕ → Bool) (e : ℕ) : Prop := obc (m.ev.getD e 0) = true ∧ obc (m.ev.getD (3 * (e / 3) + (e % 3 + 1) % 3) 0) = true

instance (m : Mesh) (obc : ℕ → Bool) (e : ℕ) : Decidable (m.EndsIn obc e) := by unfold Mesh.EndsIn; infer_instance

theorem wr_if (c : Bool) (l : List Int) (i : ℕ) (hi : i < l.length) :
    ∃ l', tagIf c l i = .ok l' ∧ l'.length = l.length ∧ ∀ j : ℕ, l'[j]? = if j = i ∧ c = true then some 2 else l[j]? := by
  unfold tagIf
  cases c with
  | false => exact ⟨l, rfl, rfl, fun j => by simp⟩
  | true =>
    refine ⟨l.set i 2, by simp [wr_of_lt hi], by simp, fun j => ?_⟩
    rw [List.getElem?_set]
    by_cases h : i = j
    · subst h; simp [hi]
    · rw [if_neg h, if_neg (fun h' => h h'.1.symm)]

/-- The new tags: open where both ends of a face are listed, unchanged elsewhere. -/
theorem retag_ok (m : Mesh) (hev : m.ev.length = 3 * m.K) (obc : ℕ → Bool) (bt : List Int) (hb : 3 * m.K ≤ bt.length) :
    ∃ bt', retag m.ev obc m.K bt = .ok bt' ∧ bt'.length = bt.length ∧ ∀ e < 3 * m.K, bt'[e]? = if m.EndsIn obc e then some 2 else bt[e]? := by
  suffices ∀ n ≤ m.K, ∃ bt', loopM (retagStep m.ev obc) bt (List.range n) = .ok bt' ∧ bt'.length = bt.length ∧
      ∀ e < 3 * m.K, bt'[e]? = if e < 3 * n ∧ m.EndsIn obc e then some 2 else bt[e]? by
    obtain ⟨b, h1, h2, h3⟩ := this m.K (le_refl _)
    exact ⟨b, h1, h2, fun e he => by rw [h3 e he]; simp [he]⟩
  intro n
  induction n with
  | zero => intro _; exact ⟨bt, rfl, rfl, fun e _ => by simp⟩
  | succ n ih =>
    intro hn
    obtain ⟨b, h1, h2, h3⟩ := ih (by omega)
    have r : ∀ f < 3, rd m.ev (3 * n + f) = .ok (m.ev.getD (3 * n + f) 0) := by
      intro f hf
      rw [rd_of_lt (by omega), List.getD_eq_getElem _ _ (by omega)]
    set v1 := m.ev.getD (3 * n) 0 with hv1
    set v2 := m.ev.getD (3 * n + 1) 0 with hv2
    set v3 := m.ev.getD (3 * n + 2) 0 with hv3
    obtain ⟨l1, a1, a2, a3⟩ := wr_if (obc v1 && obc v2) b (3 * n) (by omega)
    obtain ⟨l2, b1, b2, b3⟩ := wr_if (obc v2 && obc v3) l1 (3 * n + 1) (by omega)
    obtain ⟨l3, c1, c2, c3⟩ := wr_if (obc v3 && obc v1) l2 (3 * n + 2) (by omega)
    refine ⟨l3, ?_, by omega, fun e he => ?_⟩
    · rw [List.range_succ, loopM_append, h1, Out.bind_ok, loopM_cons]
      unfold retagStep
      have r0 := r 0 (by omega)
      rw [Nat.add_zero] at r0
      rw [r0, r 1 (by omega), r 2 (by omega)]
      simp only [Out.bind_ok, ← hv1, ← hv2, ← hv3]
      simp only [a1, b1, c1, Out.bind_ok, loopM_nil]
    · rw [c3, b3, a3, h3 e he]
      have hE : ∀ f < 3, e = 3 * n + f → (m.EndsIn obc e ↔ obc (m.ev.getD (3 * n + f) 0) = true ∧ obc (m.ev.getD (3 * n + (f + 1) % 3) 0) = true) := by
        intro f hf h
        unfold Mesh.EndsIn
        rw [h, show (3 * n + f) / 3 = n by omega, show (3 * n + f) % 3 = f by omega]
      by_cases h : e < 3 * n
      · simp [h, show e < 3 * (n + 1) by omega, show e ≠ 3 * n + 2 by omega, show e ≠ 3 * n + 1 by omega, show e ≠ 3 * n by omega]
      · rcases (by omega : e = 3 * n + 0 ∨ e = 3 * n + 1 ∨ e = 3 * n + 2 ∨ 3 * (n + 1) ≤ e) with h' | h' | h' | h'
        · have hq : m.EndsIn obc e ↔ obc v1 = true ∧ obc v2 = true := hE 0 (by omega) h'
          have hr : (e < 3 * (n + 1) ∧ m.EndsIn obc e) ↔ (obc v1 = true ∧ obc v2 = true) := by rw [hq]; exact and_iff_right (by omega)
          rw [if_congr hr rfl rfl]
          simp only [show e = 3 * n by omega]
          simp
        · have hq : m.EndsIn obc e ↔ obc v2 = true ∧ obc v3 = true := hE 1 (by omega) h'
          have hr : (e < 3 * (n + 1) ∧ m.EndsIn obc e) ↔ (obc v2 = true ∧ obc v3 = true) := by rw [hq]; exact and_iff_right (by omega)
          rw [if_congr hr rfl rfl]
          simp only [h']
          simp
        · have hq : m.EndsIn obc e ↔ obc v3 = true ∧ obc v1 = true := hE 2 (by omega) h'
          have hr : (e < 3 * (n + 1) ∧ m.EndsIn obc e) ↔ (obc v3 = true ∧ obc v1 = true) := by rw [hq]; exact and_iff_right (by omega)
          rw [if_congr hr rfl rfl]
          simp only [h']
          simp
        · simp [show ¬ e < 3 * n by omega, show ¬ e < 3 * (n + 1) by omega, show e ≠ 3 * n + 2 by omega, show e ≠ 3 * n + 1 by omega, show e ≠ 3 * n by omega]

/-- **C90.** After the set-up of src/sw2d a face counts as open exactly if it was tagged so or both its ends are listed - whether it lies on the boundary or not -, and as a wall exactly if it was
tagged so, even if it is now open (the open boundary loop runs after the wall loop).  Both kinds must occur for the map to have entries. -/
theorem C90_open (h : Provisioned la eps ztol tol N m P g) (obc : ℕ → Bool)
    (hW : ∃ e < 3 * m.K, m.bcType[e]? = some 3) (hO : ∃ e < 3 * m.K, m.bcType[e]? = some 2 ∨ m.EndsIn obc e) :
    ∃ bc, g.reopen m obc = .ok { g with bc := bc } ∧ Tags g bc (fun e => m.bcType[e]? = some 3) (fun e => m.bcType[e]? = some 2 ∨ m.EndsIn obc e) := by
  obtain ⟨x, hg, hN, hK, -⟩ := h.spec
  obtain ⟨bt', h1, h2, h3⟩ := retag_ok m h.mesh.lenEv obc m.bcType h.mesh.lenBc
  have hl : 3 * g.K ≤ bt'.length := by rw [h2, hK]; exact h.mesh.lenBc
  obtain ⟨bc, h4, h5⟩ := buildBCHash_ok (g.N + 1) (3 * g.K) bt' g.bc hl
  refine ⟨bc, ?_, ?_⟩
  · unfold Grid.reopen
    rw [h1]
    simp only [Out.bind_ok, h4, Out.pure_eq]
  have key : ∀ t : Int, t ≠ 0 → (∃ e < 3 * m.K, m.bcType[e]? = some t ∨ bt'[e]? = some t) →
      ∃ L, bc t = some L ∧ (∀ c ∈ L, c < g.nf) ∧ ∀ e < 3 * g.K, ∀ i ≤ g.N, g.fn e i ∈ L ↔ m.bcType[e]? = some t ∨ bt'[e]? = some t := by
    intro t ht ⟨e0, he0, hor⟩
    set L0 := (g.bc t).getD [] with hL0
    set L1 := placesFrom t 0 (tagsOfNodes (g.N + 1) (3 * g.K) bt') with hL1
    have m0 : ∀ c, c ∈ L0 ↔ OnFaceWithTag (g.N + 1) (3 * g.K) m.bcType t c := by
      intro c
      by_cases hex : ∃ c, OnFaceWithTag (g.N + 1) (3 * g.K) m.bcType t c
      · obtain ⟨l, hl⟩ := hg.bcSome t ht hex
        rw [hL0, hl]
        exact hg.bc t ht l hl c
      · rw [hL0, hg.bcNone t ht hex]
        constructor
        · intro h; simp at h
        · intro h; exact absurd ⟨c, h⟩ hex
    have m1 : ∀ c, c ∈ L1 ↔ OnFaceWithTag (g.N + 1) (3 * g.K) bt' t c := fun c => mem_places _ _ _ hl t c
    have hbc : bc t = some (L0 ++ L1) := by
      rw [h5]
      by_cases hp : L1 = []
      · rw [if_pos (Or.inr hp), hp, List.append_nil]
        have he : m.bcType[e0]? = some t := by
          rcases hor with h | h
          · exact h
          · have : g.fn e0 0 ∈ L1 := (m1 _).2 ((tagged_iff (by omega) (by omega)).2 h)
            rw [hp] at this; simp at this
        obtain ⟨l, hl⟩ := hg.bcSome t ht ⟨g.fn e0 0, (tagged_iff (by omega) (by omega)).2 he⟩
        rw [hL0, hl]; rfl
      · rw [if_neg (by rintro (h | h); exacts [ht h, hp h])]
    refine ⟨_, hbc, fun c hc => ?_, fun e he i hi => ?_⟩
    · have : OnFaceWithTag (g.N + 1) (3 * g.K) m.bcType t c ∨ OnFaceWithTag (g.N + 1) (3 * g.K) bt' t c := by
        rcases List.mem_append.1 hc with h | h
        · exact Or.inl ((m0 c).1 h)
        · exact Or.inr ((m1 c).1 h)
      obtain ⟨e, i, he, hi, rfl⟩ : ∃ e i, e < 3 * g.K ∧ i < g.N + 1 ∧ c = e * (g.N + 1) + i := by
        rcases this with ⟨e, i, a, b, -, c⟩ | ⟨e, i, a, b, -, c⟩
        · exact ⟨e, i, a, b, c⟩
        · exact ⟨e, i, a, b, c⟩
      have := fn_lt (g := g) he (show i ≤ g.N by omega)
      unfold Grid.fn at this
      rwa [Nat.mul_comm] at this
    · rw [List.mem_append, m0, m1, tagged_iff he hi, tagged_iff he hi]
  obtain ⟨e1, he1, hW1⟩ := hW
  obtain ⟨e2, he2, hO2⟩ := hO
  constructor
  · obtain ⟨L, a, b, c⟩ := key 3 (by norm_num) ⟨e1, he1, Or.inl hW1⟩
    refine ⟨L, a, b, fun e he i hi => ?_⟩
    rw [c e he i hi, h3 e (by omega)]
    split_ifs with h
    · simp
    · simp
  · obtain ⟨L, a, b, c⟩ := key 2 (by norm_num) ⟨e2, he2, by
      rcases hO2 with h | h
      · exact Or.inl h
      · exact Or.inr (by rw [h3 e2 he2, if_pos h])⟩
    refine ⟨L, a, b, fun e he i hi => ?_⟩
    rw [c e he i hi, h3 e (by omega)]
    by_cases h : m.EndsIn obc e
    · simp [h]
    · simp [h]

/-- The claim "only boundary faces become open" is false: on the square, with the ends of the diagonal listed, the interior face between the two elements does. -/
theorem C90_interior : ∃ (obc : ℕ → Bool) (g : Grid) (bc : TagMap) (W O : ℕ → Prop), Provisioned Nodes1D.exactLapack (1 / 2 ^ 52) 1e-10 1e-5 1 square twoTri g ∧
    g.reopen square obc = .ok { g with bc := bc } ∧ Tags g bc W O ∧ ∃ e < 3 * g.K, O e ∧ twoTri e ≠ e := by
  obtain ⟨g, hP, -⟩ := square_grid
  obtain ⟨x, hg, hN, hK, -⟩ := hP.spec
  have hO : square.EndsIn (fun v => v == 1 || v == 2) 1 := by
    unfold Mesh.EndsIn
    simp [square]
  obtain ⟨bc, h1, h2⟩ := C90_open hP (fun v => v == 1 || v == 2) ⟨0, by decide, rfl⟩ ⟨1, by decide, Or.inr hO⟩
  exact ⟨_, g, bc, _, _, hP, h1, h2, 1, by rw [hK]; decide, Or.inr hO, by decide⟩

/-! ### C88: budget of mass -/

/-- **C88.** Whatever the state and bed, as long as there is water at every face node, every face on the boundary is a wall or open, and only those are: the total depth changes only by the numerical
flux through the open faces, whose integrand is the outward momentum plus half the largest speed times the height of the water above the tide. -/
theorem C88_budget (h : Provisioned la eps ztol tol N m P g) (hK : 0 < m.K) {bc : TagMap} {W O : ℕ → Prop} [DecidablePred W] [DecidablePred O] (hT : Tags g bc W O)
    (hWO : ∀ e < 3 * m.K, (W e ∨ O e) ↔ P e = e) (ph : Phys) (b : Bed) (t : ℝ) (q : Fields) (hq : q.Fits g) (hH : Fits g b.H) (ha : Afloat P W O g b.H t q) :
    ∃ (r : Fields) (lam : ℝ) (x : List ℝ), ({ g with bc := bc } : Grid).rhsFull ph b t q = .ok r ∧ r.Fits g ∧ IsTop P W O g ph.g b.H t q lam ∧
      (∀ i ≤ g.N, ∀ f < 3, (g.n.r.getD (g.n.mask i f) 0, g.n.s.getD (g.n.mask i f) 0) = triFacePt f (x.getD i 0)) ∧
      IsTotal g r.h.at' (-∑ e ∈ (Finset.range (3 * g.K)).filter O, faceLen g e / 2 * faceInt g.N x
        (fun i => (inner g q e i).hu * (faceNormal g e).1 + (inner g q e i).hv * (faceNormal g e).2 + lam / 2 * ((inner g q e i).h - (bedIn g b.H e i + tide t)))) := by
  obtain ⟨x, hg, -, hKe, -⟩ := h.spec
  obtain ⟨r, lam, h1, h2, h3, h4⟩ := hg.full_mass (by omega) hT (by rw [hKe]; exact hWO) ph b t q hq hH ha
  exact ⟨r, lam, x, h1, h2, h3, fun i hi f hf => hg.maskPt f hf i hi, h4⟩

/-- Without wall faces, or without open faces, src/sw2d throws. -/
theorem C88_throws (h : Provisioned la eps ztol tol N m P g) (hw : (¬ ∃ e < 3 * m.K, m.bcType[e]? = some 3) ∨ ¬ ∃ e < 3 * m.K, m.bcType[e]? = some 2) (ph : Phys) (b : Bed) (t : ℝ) (q : Fields) :
    g.rhsFull ph b t q = .throws := by
  obtain ⟨x, hg, -, hKe, -⟩ := h.spec
  apply tags_none
  rcases hw with hw | hw
  · left
    apply hg.bcNone 3 (by norm_num)
    rintro ⟨c, e, i, he, -, h, -⟩
    exact hw ⟨e, by omega, h⟩
  · right
    apply hg.bcNone 2 (by norm_num)
    rintro ⟨c, e, i, he, -, h, -⟩
    exact hw ⟨e, by omega, h⟩

/-! ### C89: water at rest -/

/-- A continuous bed. -/
def Continuous' (P : ℕ → ℕ) (g : Grid) (H : DMat ℝ) : Prop := ∀ e < 3 * g.K, ∀ i ≤ g.N, bedOut P g H e i = bedIn g H e i

theorem starPair_eq {H : ℝ} {m p : State} (hm : 0 < m.h) (hp : 0 < p.h) : starPair H H m p = (m, p) := by
  apply starPair_same
  · unfold starPair
    simp only [max_self]
    rw [add_sub_cancel_right, max_eq_right hm.le]; exact hm
  · unfold starPair
    simp only [max_self]
    rw [add_sub_cancel_right, max_eq_right hp.le]; exact hp

theorem surface_zero' (g : Grid) (d : DMat ℝ) {i k : ℕ} (hd : ∀ f < 3, ∀ i ≤ g.N, d.at' (f * (g.N + 1) + i) k = 0) : g.surface d i k = 0 := by
  unfold Grid.surface
  rw [sum_three]
  apply Finset.sum_eq_zero
  intro f hf
  apply Finset.sum_eq_zero
  intro j hj
  have hj := Finset.mem_range.1 hj
  rw [hd f (Finset.mem_range.1 hf) j (by omega)]
  ring

/-- Water at rest with level surface over a continuous bed, in an element away from the open boundary: the depth does not change, and the momentum changes by the amount by which the
discrete derivative of `H^2/2` misses `H` times the bed slope. -/
theorem GridSpec.rest (hg : GridSpec P x bt g) (hK : 0 < g.K) {W O : ℕ → Prop} [DecidablePred W] [DecidablePred O] {bc : TagMap} (hT : Tags g bc W O)
    (ph : Phys) (b : Bed) (t : ℝ) (hH : Fits g b.H) (hwet : ∀ i < g.np, ∀ k < g.K, 0 < b.H.at' i k) (hc : Continuous' P g b.H)
    {k : ℕ} (hk : k < g.K) (hO : ∀ f < 3, ¬ O (3 * k + f)) :
    ∃ r, ({ g with bc := bc } : Grid).rhsFull ph b t ⟨b.H, zeroMat g.np g.K, zeroMat g.np g.K⟩ = .ok r ∧ ∀ i < g.np, r.h.at' i k = 0 ∧
      r.hu.at' i k = ph.g * (b.H.at' i k * b.Hx.at' i k - g.slopeX ⟨g.np, g.K, fun i k => b.H.at' i k * b.H.at' i k / 2⟩ i k) ∧
      r.hv.at' i k = ph.g * (b.H.at' i k * b.Hy.at' i k - g.slopeY ⟨g.np, g.K, fun i k => b.H.at' i k * b.H.at' i k / 2⟩ i k) := by
  set q : Fields := ⟨b.H, zeroMat g.np g.K, zeroMat g.np g.K⟩ with hq
  obtain ⟨lam, d1, d2, d3, r, h1, -, e1, e2, e3, -, hd⟩ := hg.rhsFull_ok hK hT ph b t q ⟨hH, ⟨rfl, rfl⟩, rfl, rfl⟩ hH
  have hqa : ∀ i k, q.at' i k = ⟨b.H.at' i k, 0, 0⟩ := fun i k => rfl
  have hjump : ∀ f < 3, ∀ i ≤ g.N, d1.at' (f * (g.N + 1) + i) k = 0 ∧ d2.at' (f * (g.N + 1) + i) k = 0 ∧ d3.at' (f * (g.N + 1) + i) k = 0 := by
    intro f hf i hi
    have he : 3 * k + f < 3 * g.K := by omega
    have hin : inner g q (3 * k + f) i = ⟨bedIn g b.H (3 * k + f) i, 0, 0⟩ := rfl
    have hout : outer P g q (3 * k + f) i = ⟨bedOut P g b.H (3 * k + f) i, 0, 0⟩ := rfl
    have hext : extFull P W O g b.H t q (3 * k + f) i = ⟨bedIn g b.H (3 * k + f) i, 0, 0⟩ := by
      unfold extFull
      rw [if_neg (hO f hf)]
      split_ifs with h
      · rw [hin]; unfold wallState; simp
      · rw [hout, hc _ he i hi]
    have hpos : 0 < bedIn g b.H (3 * k + f) i := hwet _ (hg.maskLt _ (by omega) i hi) _ (by omega)
    have hst : star P W O g b.H t q (3 * k + f) i = (⟨bedIn g b.H (3 * k + f) i, 0, 0⟩, ⟨bedIn g b.H (3 * k + f) i, 0, 0⟩) := by
      unfold star
      rw [hext, hin, hc _ he i hi]
      exact starPair_eq hpos hpos
    have := hd (3 * k + f) he i hi
    rw [hst] at this
    simp only at this
    rw [(C51_flux ph.g _ _ _ (⟨bedIn g b.H (3 * k + f) i, 0, 0⟩ : State) ⟨bedIn g b.H (3 * k + f) i, 0, 0⟩).2.2.1, show (3 * k + f) % 3 = f by omega, show (3 * k + f) / 3 = k by omega] at this
    exact this
  refine ⟨r, h1, fun i hi => ⟨?_, ?_, ?_⟩⟩
  · rw [e1, surface_zero' g d1 fun f hf i hi => (hjump f hf i hi).1]
    simp only [hqa, fluxF, fluxG]
    simp [Grid.divergence]
  · rw [e2, surface_zero' g d2 fun f hf i hi => (hjump f hf i hi).2.1]
    simp only [hqa, fluxF, fluxG, sourceCpp]
    have : ∀ D : ℕ → ℝ, ∑ j ∈ Finset.range g.np, D j * (0 * 0 / b.H.at' j k + 0.5 * ph.g * b.H.at' j k * b.H.at' j k)
        = ph.g * ∑ j ∈ Finset.range g.np, D j * (b.H.at' j k * b.H.at' j k / 2) := by
      intro D
      rw [Finset.mul_sum]
      apply Finset.sum_congr rfl
      intro j _
      simp only [zero_mul, zero_div, zero_add]
      ring
    simp only [Grid.divergence, Grid.slopeX, this]
    change _ + ph.g * b.H.at' i k * b.Hx.at' i k + _ = _
    simp
    ring
  · rw [e3, surface_zero' g d3 fun f hf i hi => (hjump f hf i hi).2.2]
    simp only [hqa, fluxF, fluxG, sourceCpp]
    have : ∀ D : ℕ → ℝ, ∑ j ∈ Finset.range g.np, D j * (0 * 0 / b.H.at' j k + 0.5 * ph.g * b.H.at' j k * b.H.at' j k)
        = ph.g * ∑ j ∈ Finset.range g.np, D j * (b.H.at' j k * b.H.at' j k / 2) := by
      intro D
      rw [Finset.mul_sum]
      apply Finset.sum_congr rfl
      intro j _
      simp only [zero_mul, zero_div, zero_add]
      ring
    simp only [Grid.divergence, Grid.slopeY, this]
    change _ + ph.g * b.H.at' i k * b.Hy.at' i k + _ = _
    simp
    ring

/-- Filtering keeps zeros. -/
theorem inPlace_zero {n : ℕ} (F : Matrix (Fin n) (Fin n) ℝ) (u : ℕ → ℕ → ℝ) (k : ℕ) (hu : ∀ i < n, u i k = 0) : ∀ i < n, filterInPlace F u i k = 0 := by
  unfold filterInPlace
  generalize List.finRange n = l
  induction l generalizing u with
  | nil => exact hu
  | cons a l ih =>
    rw [List.foldl_cons]
    apply ih
    intro i hi
    unfold filterRow
    split_ifs
    · apply Finset.sum_eq_zero
      intro j _
      rw [hu j j.2, mul_zero]
    · exact hu i hi

/-- **C89, flat bed.** Water at rest over a bed of constant depth stays at rest in every element away from the open boundary, whatever the filter applied to the slopes. -/
theorem C89_flat (h : Provisioned la eps ztol tol N m P g) {bc : TagMap} {W O : ℕ → Prop} [DecidablePred W] [DecidablePred O] (hT : Tags g bc W O)
    (F : Matrix (Fin g.np) (Fin g.np) ℝ) (ph : Phys) (t depth : ℝ) (hd : 0 < depth) {k : ℕ} (hk : k < m.K) (hO : ∀ f < 3, ¬ O (3 * k + f)) :
    ∃ r, ({ g with bc := bc } : Grid).rhsFull ph (g.bed F ⟨g.np, g.K, fun _ _ => depth⟩) t ⟨⟨g.np, g.K, fun _ _ => depth⟩, zeroMat g.np g.K, zeroMat g.np g.K⟩ = .ok r ∧
      ∀ i < g.np, r.at' i k = ⟨0, 0, 0⟩ := by
  obtain ⟨x, hg, -, hKe, -⟩ := h.spec
  obtain ⟨r, h1, h2⟩ := hg.rest (by omega) hT ph (g.bed F ⟨g.np, g.K, fun _ _ => depth⟩) t ⟨rfl, rfl⟩ (fun _ _ _ _ => hd) (fun _ _ _ _ => rfl) (k := k) (by omega) hO
  have hsx : ∀ c : ℝ, ∀ i < g.np, g.slopeX ⟨g.np, g.K, fun _ _ => c⟩ i k = 0 := by
    intro c i hi
    obtain ⟨a, b⟩ := hg.diff_const hi
    unfold Grid.slopeX
    simp only [← Finset.sum_mul, a, b]
    ring
  have hsy : ∀ c : ℝ, ∀ i < g.np, g.slopeY ⟨g.np, g.K, fun _ _ => c⟩ i k = 0 := by
    intro c i hi
    obtain ⟨a, b⟩ := hg.diff_const hi
    unfold Grid.slopeY
    simp only [← Finset.sum_mul, a, b]
    ring
  refine ⟨r, h1, fun i hi => ?_⟩
  obtain ⟨a, b, c⟩ := h2 i hi
  unfold Fields.at'
  rw [a, b, c]
  have e1 : (g.bed F ⟨g.np, g.K, fun _ _ => depth⟩).Hx.at' i k = 0 := inPlace_zero F _ k (fun i hi => hsx _ i hi) i hi
  have e2 : (g.bed F ⟨g.np, g.K, fun _ _ => depth⟩).Hy.at' i k = 0 := inPlace_zero F _ k (fun i hi => hsy _ i hi) i hi
  rw [e1, e2]
  have e3 := hsx (depth * depth / 2) i hi
  have e4 := hsy (depth * depth / 2) i hi
  simp only [Grid.bed]
  rw [e3, e4]
  simp

/-- Derivatives on the reference triangle, order one. -/
theorem Corners.diff (hg : GridSpec P x bt g) (h : Corners g) (u : ℕ → ℝ) {i : ℕ} (hi : i < 3) :
    ∑ j ∈ Finset.range g.np, g.o.d.Dr.at' i j * u j = (u 1 - u 0) / 2 ∧ ∑ j ∈ Finset.range g.np, g.o.d.Ds.at' i j * u j = (u 2 - u 0) / 2 := by
  set p : P2 := MvPolynomial.C ((u 1 - u 0) / 2) * MvPolynomial.X 0 + MvPolynomial.C ((u 2 - u 0) / 2) * MvPolynomial.X 1 + MvPolynomial.C ((u 1 + u 2) / 2) with hp
  have hsp : TriSpace g.N p := by rw [h.order]; exact affine_space _ _ _
  have hi' : i < g.n.r.length := by rw [hg.nodes, h.np]; exact hi
  have h1 := hg.elem.diff.dr p hsp i hi'
  have h2 := hg.elem.diff.ds p hsp i hi'
  have hn : ∀ j < 3, nodal g.n.r g.n.s p j = u j := by
    intro j hj
    interval_cases j <;> simp only [nodal, hp, h.n0.1, h.n0.2, h.n1.1, h.n1.2, h.n2.1, h.n2.2] <;> simp <;> ring
  rw [hg.nodes] at h1 h2
  have hs : ∀ D : ℕ → ℝ, ∑ j ∈ Finset.range g.np, D j * u j = ∑ j ∈ Finset.range g.np, D j * nodal g.n.r g.n.s p j := by
    intro D
    apply Finset.sum_congr rfl
    intro j hj
    rw [hn j (by rw [← h.np]; exact Finset.mem_range.1 hj)]
  rw [hs, hs, h1, h2]
  simp [nodal, hp]

end Blitzdg.SW
