import Verif.SW.Conserve

/-! The right-hand side of src/sw2d-simple on arrays: never undefined, and equal to fluxes and jumps between the element's own and the neighbouring states. -/

namespace Blitzdg.SW

open Blitzdg.Sparse (DMat)
open Blitzdg.DG2D
open Blitzdg.Blitz

variable {P : ℕ → ℕ} {x : List ℝ} {bt : List Int} {g : Grid}

/-- Number of node `i` of face `e` among all face nodes. -/
def Grid.fn (g : Grid) (e i : ℕ) : ℕ := (g.N + 1) * e + i

theorem fn_lt {e i : ℕ} (he : e < 3 * g.K) (hi : i ≤ g.N) : g.fn e i < g.nf := by
  unfold Grid.fn Grid.nf
  have : (g.N + 1) * (e + 1) ≤ (g.N + 1) * (3 * g.K) := Nat.mul_le_mul_left _ he
  have e1 : (g.N + 1) * (e + 1) = (g.N + 1) * e + (g.N + 1) := by ring
  have e2 : (g.N + 1) * (3 * g.K) = 3 * (g.N + 1) * g.K := by ring
  omega

/-- Every face node has a face and a place on it. -/
theorem fn_surj {c : ℕ} (hc : c < g.nf) : ∃ e i, e < 3 * g.K ∧ i ≤ g.N ∧ c = g.fn e i := by
  refine ⟨c / (g.N + 1), c % (g.N + 1), ?_, ?_, (Nat.div_add_mod _ _).symm⟩
  · apply Nat.div_lt_of_lt_mul
    unfold Grid.nf at hc
    have e2 : (g.N + 1) * (3 * g.K) = 3 * (g.N + 1) * g.K := by ring
    omega
  · have := Nat.mod_lt c (show 0 < g.N + 1 by omega); omega

theorem fn_inj {e i e' i' : ℕ} (hi : i ≤ g.N) (hi' : i' ≤ g.N) (h : g.fn e i = g.fn e' i') : e = e' ∧ i = i' := by
  unfold Grid.fn at h
  have d1 : ((g.N + 1) * e + i) / (g.N + 1) = e := by rw [Nat.mul_add_div (Nat.succ_pos _), Nat.div_eq_of_lt (by omega)]; omega
  have d2 : ((g.N + 1) * e' + i') / (g.N + 1) = e' := by rw [Nat.mul_add_div (Nat.succ_pos _), Nat.div_eq_of_lt (by omega)]; omega
  have m1 : ((g.N + 1) * e + i) % (g.N + 1) = i := by rw [Nat.mul_add_mod, Nat.mod_eq_of_lt (by omega)]
  have m2 : ((g.N + 1) * e' + i') % (g.N + 1) = i' := by rw [Nat.mul_add_mod, Nat.mod_eq_of_lt (by omega)]
  rw [h] at d1 m1
  omega

/-- A field has one column per element and one row per node. -/
def Fits (g : Grid) (u : DMat ℝ) : Prop := u.rows = g.np ∧ u.cols = g.K

theorem vol_lt (hg : GridSpec P x bt g) {e i : ℕ} (he : e < 3 * g.K) (hi : i ≤ g.N) : vol g.np 3 g.n.mask e i < g.np * g.K := by
  have h1 := hg.maskLt (e % 3) (by omega) i hi
  have h2 : g.np * (e / 3 + 1) ≤ g.np * g.K := Nat.mul_le_mul_left _ (by omega)
  have h3 : g.np * (e / 3 + 1) = g.np * (e / 3) + g.np := by ring
  unfold vol
  omega

/-- Traces of a field. -/
theorem GridSpec.traces_ok (hg : GridSpec P x bt g) (u : DMat ℝ) (hu : Fits g u) :
    ∃ uM uP, g.traces u = .ok (uM, uP) ∧ uM.length = g.nf ∧ uP.length = g.nf ∧ ∀ e < 3 * g.K, ∀ i ≤ g.N,
      uM[g.fn e i]? = some (u.at' (g.n.mask i (e % 3)) (e / 3)) ∧
      uP[g.fn e i]? = some (u.at' (g.n.mask (across P g.N e i) (P e % 3)) (P e / 3)) := by
  obtain ⟨vec, h1, h2, h3, -⟩ := C10_flatten u (zeros (g.np * g.K)) false (by simp [zeros, hu.1, hu.2])
  have hvl : vec.length = g.np * g.K := by rw [h2]; simp [zeros]
  have hv : ∀ e < 3 * g.K, ∀ i ≤ g.N, vec[vol g.np 3 g.n.mask e i]? = some (u.at' (g.n.mask i (e % 3)) (e / 3)) := by
    intro e he i hi
    have hm := hg.maskLt (e % 3) (by omega) i hi
    have := h3 (g.n.mask i (e % 3)) (e / 3) (by rw [hu.1]; exact hm) (by rw [hu.2]; omega)
    rw [← this]
    congr 1
    simp only [pos, vol, hu.1, Bool.false_eq_true]
    ring_nf
    simp [Nat.mul_comm]
  have hmem : ∀ (m : List ℕ), m.length = g.nf → (∀ c < g.nf, ∃ a, m[c]? = some a ∧ a < g.np * g.K) →
      ∃ o, applyIndexMap vec (m.map Int.ofNat) (zeros g.nf) = .ok o ∧ o.length = g.nf ∧ ∀ c a : ℕ, m[c]? = some a → o[c]? = vec[a]? := by
    intro m hm hb
    obtain ⟨o, g1, g2, g3, -⟩ := mapLoop vec (m.map Int.ofNat) (zeros g.nf) (by
      intro i hi
      rw [List.mem_map] at hi
      obtain ⟨a, ha, rfl⟩ := hi
      obtain ⟨c, hc⟩ := List.mem_iff_getElem?.1 ha
      have hcl : c < g.nf := by
        rw [← hm]; exact (List.getElem?_eq_some_iff.1 hc).1
      obtain ⟨a', h, h'⟩ := hb c hcl
      rw [hc] at h
      obtain rfl : a = a' := by simpa using h
      constructor
      · exact Int.natCast_nonneg _
      · rw [hvl]; exact Int.ofNat_lt.2 h') (by simp [zeros, hm]) (m.map Int.ofNat).length (le_refl _)
    refine ⟨o, g1, by rw [g2]; simp [zeros], fun c a ha => ?_⟩
    have hcl : c < m.length := (List.getElem?_eq_some_iff.1 ha).1
    rw [g3 c (by simpa using hcl)]
    have : m[c] = a := by
      rw [List.getElem?_eq_getElem hcl] at ha
      simpa using ha
    simp [this]
  obtain ⟨uM, a1, a2, a3⟩ := hmem g.maps.vmapM hg.lenM fun c hc => by
    obtain ⟨e, i, he, hi, rfl⟩ := fn_surj hc
    exact ⟨_, hg.vmapM e he i hi, vol_lt hg he hi⟩
  obtain ⟨uP, b1, b2, b3⟩ := hmem g.maps.vmapP hg.lenP fun c hc => by
    obtain ⟨e, i, he, hi, rfl⟩ := fn_surj hc
    exact ⟨_, hg.vmapP e he i hi, vol_lt hg (hg.lt e he) (across_le P g.N e i hi)⟩
  refine ⟨uM, uP, ?_, a2, b2, ?_⟩
  · simp only [Grid.traces, h1, Out.bind_ok, a1, b1, Out.pure_eq]
  · intro e he i hi
    exact ⟨(a3 _ _ (hg.vmapM e he i hi)).trans (hv e he i hi), (b3 _ _ (hg.vmapP e he i hi)).trans (hv _ (hg.lt e he) _ (across_le P g.N e i hi))⟩

theorem getD_some {l : List ℝ} {c : ℕ} {v : ℝ} (h : l[c]? = some v) : l.getD c 0 = v := by
  rw [List.getD_eq_getElem?_getD, h]; rfl

/-- A face array with one column per element, as a list. -/
theorem flat_ok (a : DMat ℝ) (ha : a.rows = 3 * (g.N + 1) ∧ a.cols = g.K) :
    ∃ l, reshapeMatTo1D a (zeros g.nf) false = .ok l ∧ l.length = g.nf ∧ ∀ e < 3 * g.K, ∀ i ≤ g.N, l[g.fn e i]? = some (a.at' (e % 3 * (g.N + 1) + i) (e / 3)) := by
  obtain ⟨l, h1, h2, h3, -⟩ := C10_flatten a (zeros g.nf) false (by simp [zeros, ha.1, ha.2, Grid.nf])
  refine ⟨l, h1, by rw [h2]; simp [zeros], fun e he i hi => ?_⟩
  have hr : e % 3 * (g.N + 1) + i < 3 * (g.N + 1) := by
    have : (e % 3 + 1) * (g.N + 1) ≤ 3 * (g.N + 1) := Nat.mul_le_mul_right _ (by omega)
    have e1 : (e % 3 + 1) * (g.N + 1) = e % 3 * (g.N + 1) + (g.N + 1) := by ring
    omega
  have := h3 (e % 3 * (g.N + 1) + i) (e / 3) (by rw [ha.1]; exact hr) (by rw [ha.2]; omega)
  rw [← this]
  congr 1
  simp only [pos, ha.1, Bool.false_eq_true]
  unfold Grid.fn
  conv_lhs => rw [← Nat.div_add_mod e 3]
  simp
  ring

/-- A list of face values as an array with one column per element. -/
theorem unflat_ok (l : List ℝ) (hl : l.length = g.nf) :
    ∃ a, reshape1DToMat l (zeroMat (3 * (g.N + 1)) g.K) false = .ok a ∧ ∀ e < 3 * g.K, ∀ i ≤ g.N, a.at' (e % 3 * (g.N + 1) + i) (e / 3) = l.getD (g.fn e i) 0 := by
  obtain ⟨a, h1, -, -, h4⟩ := C10_unflatten l (zeroMat (3 * (g.N + 1)) g.K) false (by rw [hl]; exact le_refl _)
  refine ⟨a, h1, fun e he i hi => ?_⟩
  have hr : e % 3 * (g.N + 1) + i < 3 * (g.N + 1) := by
    have : (e % 3 + 1) * (g.N + 1) ≤ 3 * (g.N + 1) := Nat.mul_le_mul_right _ (by omega)
    have e1 : (e % 3 + 1) * (g.N + 1) = e % 3 * (g.N + 1) + (g.N + 1) := by ring
    omega
  have := h4 (e % 3 * (g.N + 1) + i) (e / 3) hr (by show e / 3 < g.K; omega)
  have hpos : pos false (zeroMat (3 * (g.N + 1)) g.K).rows (zeroMat (3 * (g.N + 1)) g.K).cols (e % 3 * (g.N + 1) + i) (e / 3) = g.fn e i := by
    simp only [pos, zeroMat, Bool.false_eq_true]
    unfold Grid.fn
    conv_rhs => rw [← Nat.div_add_mod e 3]
    simp
    ring
  rw [hpos] at this
  exact (getD_some this.symm).symm

/-! ### The wall loop -/

/-- What the wall loop leaves at face node `c`. -/
noncomputable def walled (setH : Bool) (nx ny : List ℝ) (m p : Trace) (W : List ℕ) (c : ℕ) : State :=
  if c ∈ W then ⟨if setH then (m.at' c).h else (p.at' c).h, (wallState (nx.getD c 0) (ny.getD c 0) (m.at' c)).hu, (wallState (nx.getD c 0) (ny.getD c 0) (m.at' c)).hv⟩ else p.at' c

structure Trace.Len (t : Trace) (n : ℕ) : Prop where
  h : t.h.length = n
  hu : t.hu.length = n
  hv : t.hv.length = n

theorem getD_set (l : List ℝ) (w c : ℕ) (v : ℝ) (hw : w < l.length) : (l.set w v).getD c 0 = if c = w then v else l.getD c 0 := by
  rw [List.getD_eq_getElem?_getD, List.getD_eq_getElem?_getD, List.getElem?_set]
  by_cases h : w = c
  · subst h; simp [hw]
  · rw [if_neg h, if_neg (fun h' => h h'.symm)]

theorem wall_loop (setH : Bool) (nx ny : List ℝ) (n : ℕ) (hnx : nx.length = n) (hny : ny.length = n) (m : Trace) (hm : m.Len n) (W : List ℕ) (hW : ∀ w ∈ W, w < n)
    (p : Trace) (hp : p.Len n) :
    ∃ p', loopM (wallStep setH nx ny m) p W = .ok p' ∧ p'.Len n ∧ ∀ c, p'.at' c = walled setH nx ny m p W c := by
  induction W generalizing p with
  | nil => exact ⟨p, rfl, hp, fun c => by simp [walled]⟩
  | cons w W ih =>
    have hw := hW w (by simp)
    have r1 : rd m.h w = .ok (m.h.getD w 0) := by rw [rd_of_lt (by rw [hm.h]; exact hw), List.getD_eq_getElem _ _ (by rw [hm.h]; exact hw)]
    have r2 : rd m.hu w = .ok (m.hu.getD w 0) := by rw [rd_of_lt (by rw [hm.hu]; exact hw), List.getD_eq_getElem _ _ (by rw [hm.hu]; exact hw)]
    have r3 : rd m.hv w = .ok (m.hv.getD w 0) := by rw [rd_of_lt (by rw [hm.hv]; exact hw), List.getD_eq_getElem _ _ (by rw [hm.hv]; exact hw)]
    have r4 : rd nx w = .ok (nx.getD w 0) := by rw [rd_of_lt (by omega), List.getD_eq_getElem _ _ (by omega)]
    have r5 : rd ny w = .ok (ny.getD w 0) := by rw [rd_of_lt (by omega), List.getD_eq_getElem _ _ (by omega)]
    set ws := wallState (nx.getD w 0) (ny.getD w 0) (m.at' w) with hws
    have hstep : wallStep setH nx ny m p w = .ok ⟨if setH then p.h.set w ws.h else p.h, p.hu.set w ws.hu, p.hv.set w ws.hv⟩ := by
      unfold wallStep
      simp only [r1, r2, r3, r4, r5, Out.bind_ok]
      have e : (⟨m.h.getD w 0, m.hu.getD w 0, m.hv.getD w 0⟩ : State) = m.at' w := rfl
      rw [e, ← hws]
      rw [wr_of_lt (by rw [hp.h]; exact hw), wr_of_lt (by rw [hp.hu]; exact hw), wr_of_lt (by rw [hp.hv]; exact hw)]
      cases setH <;> rfl
    set p1 : Trace := ⟨if setH then p.h.set w ws.h else p.h, p.hu.set w ws.hu, p.hv.set w ws.hv⟩ with hp1
    have l1 : p1.Len n := by
      refine ⟨?_, ?_, ?_⟩
      · rw [hp1]; cases setH <;> simp [hp.h]
      · rw [hp1]; simp [hp.hu]
      · rw [hp1]; simp [hp.hv]
    obtain ⟨p', h1, h2, h3⟩ := ih (fun w' hw' => hW w' (by simp [hw'])) p1 l1
    refine ⟨p', by rw [loopM_cons, hstep, Out.bind_ok, h1], h2, fun c => ?_⟩
    rw [h3 c]
    have hat : p1.at' c = if c = w then ⟨if setH then (m.at' c).h else (p.at' c).h, ws.hu, ws.hv⟩ else p.at' c := by
      unfold Trace.at'
      rw [hp1]
      by_cases hc : c = w
      · subst hc
        simp only [if_true]
        rw [getD_set _ _ _ _ (by rw [hp.hu]; exact hw), getD_set _ _ _ _ (by rw [hp.hv]; exact hw)]
        cases setH
        · simp
        · simp only [if_true]
          rw [getD_set _ _ _ _ (by rw [hp.h]; exact hw)]
          simp [hws, wallState, Trace.at']
      · simp only [if_neg hc]
        rw [getD_set _ _ _ _ (by rw [hp.hu]; exact hw), getD_set _ _ _ _ (by rw [hp.hv]; exact hw), if_neg hc, if_neg hc]
        cases setH
        · simp
        · simp only [if_true]
          rw [getD_set _ _ _ _ (by rw [hp.h]; exact hw), if_neg hc]
    unfold walled
    by_cases hc : c = w
    · subst hc
      simp only [List.mem_cons, true_or, if_true]
      by_cases hcW : c ∈ W
      · rw [if_pos hcW, hat, if_pos rfl]
        cases setH <;> simp
      · rw [if_neg hcW, hat, if_pos rfl]
    · simp only [List.mem_cons, hc, false_or]
      by_cases hcW : c ∈ W
      · rw [if_pos hcW, if_pos hcW, hat, if_neg hc]
      · rw [if_neg hcW, if_neg hcW, hat, if_neg hc]

/-! ### Face maxima -/

theorem foldl_max_ge {ι : Type} (f : ι → ℝ) (l : List ι) (a : ℝ) : a ≤ l.foldl (fun m i => max m (f i)) a ∧ ∀ i ∈ l, f i ≤ l.foldl (fun m i => max m (f i)) a := by
  induction l generalizing a with
  | nil => simp
  | cons b l ih =>
    obtain ⟨h1, h2⟩ := ih (max a (f b))
    refine ⟨(le_max_left _ _).trans h1, fun i hi => ?_⟩
    rcases List.mem_cons.1 hi with rfl | hi
    · exact (le_max_right _ _).trans h1
    · exact h2 i hi

theorem foldl_max_mem {ι : Type} (f : ι → ℝ) (l : List ι) (a : ℝ) : l.foldl (fun m i => max m (f i)) a = a ∨ ∃ i ∈ l, l.foldl (fun m i => max m (f i)) a = f i := by
  induction l generalizing a with
  | nil => simp
  | cons b l ih =>
    rcases ih (max a (f b)) with h | ⟨i, hi, h⟩
    · rcases le_total a (f b) with h' | h'
      · right; exact ⟨b, by simp, by rw [List.foldl_cons, h, max_eq_right h']⟩
      · left; rw [List.foldl_cons, h, max_eq_left h']
    · right; exact ⟨i, by simp [hi], by rw [List.foldl_cons, h]⟩

/-- `M` is the largest of the values `s 0, ..., s N`. -/
def IsMax (N : ℕ) (s : ℕ → ℝ) (M : ℝ) : Prop := (∀ i ≤ N, s i ≤ M) ∧ ∃ i ≤ N, M = s i

theorem isMax_unique {N : ℕ} {s t : ℕ → ℝ} {M M' : ℝ} (h : IsMax N s M) (h' : IsMax N t M') (h1 : ∀ i ≤ N, ∃ j ≤ N, s i = t j) (h2 : ∀ j ≤ N, ∃ i ≤ N, t j = s i) : M = M' := by
  obtain ⟨a1, i, hi, rfl⟩ := h
  obtain ⟨b1, j, hj, rfl⟩ := h'
  apply le_antisymm
  · obtain ⟨k, hk, e⟩ := h1 i hi
    rw [e]; exact b1 k hk
  · obtain ⟨k, hk, e⟩ := h2 j hj
    rw [e]; exact a1 k hk

theorem colMax_isMax (a : DMat ℝ) (j N : ℕ) (h : a.rows = N + 1) : IsMax N (fun i => a.at' i j) (colMax a j) := by
  unfold colMax
  obtain ⟨h1, h2⟩ := foldl_max_ge (fun i => a.at' i j) (List.range a.rows) (a.at' 0 j)
  refine ⟨fun i hi => h2 i (List.mem_range.2 (by omega)), ?_⟩
  rcases foldl_max_mem (fun i => a.at' i j) (List.range a.rows) (a.at' 0 j) with h3 | ⟨i, hi, h3⟩
  · exact ⟨0, Nat.zero_le _, h3⟩
  · exact ⟨i, by have := List.mem_range.1 hi; omega, h3⟩

theorem faceSpeeds_ok (grav : ℝ) (m p : Trace) :
    ∃ lam, g.faceSpeeds grav m p = .ok lam ∧ ∀ e < 3 * g.K, ∀ i ≤ g.N,
      IsMax g.N (fun j => max (speed grav (m.at' (g.fn e j))) (speed grav (p.at' (g.fn e j)))) (lam.getD (g.fn e i) 0) := by
  set s := (List.range g.nf).map fun c => max (speed grav (m.at' c)) (speed grav (p.at' c)) with hs
  have hsl : s.length = g.nf := by rw [hs]; simp
  have hnf : (g.N + 1) * (3 * g.K) = g.nf := by unfold Grid.nf; ring
  obtain ⟨a, h1, h2, h3, h4⟩ := C10_unflatten s (zeroMat (g.N + 1) (3 * g.K)) false (by rw [hsl]; exact hnf.le)
  have h2 : a.rows = g.N + 1 := h2
  have h3 : a.cols = 3 * g.K := h3
  obtain ⟨l, b1, b2, b3, -⟩ := C10_flatten (spreadMax a) s false (by show a.rows * a.cols ≤ _; rw [hsl, h2, h3]; exact hnf.le)
  refine ⟨l, ?_, fun e he i hi => ?_⟩
  · unfold Grid.faceSpeeds
    simp only [← hs, h1, Out.bind_ok]
    exact b1
  · have hb := b3 i e (by show i < a.rows; omega) (by show e < a.cols; omega)
    have hp : pos false (spreadMax a).rows (spreadMax a).cols i e = g.fn e i := by
      show e * a.rows + i = _
      rw [h2]; unfold Grid.fn; ring
    rw [hp] at hb
    rw [getD_some hb]
    show IsMax _ _ ((1 + 0) * colMax a e)
    rw [add_zero, one_mul]
    have := colMax_isMax a e g.N h2
    have hcong : ∀ j ≤ g.N, a.at' j e = max (speed grav (m.at' (g.fn e j))) (speed grav (p.at' (g.fn e j))) := by
      intro j hj
      have h5 := h4 j e (by show j < g.N + 1; omega) he
      have hp' : pos false (zeroMat (g.N + 1) (3 * g.K)).rows (zeroMat (g.N + 1) (3 * g.K)).cols j e = g.fn e j := by
        show e * (g.N + 1) + j = _
        unfold Grid.fn; ring
      rw [hp', hs, List.getElem?_map, List.getElem?_range (fn_lt he hj)] at h5
      simpa using h5
    obtain ⟨c1, j, hj, c2⟩ := this
    exact ⟨fun j hj => (hcong j hj).symm.le.trans (c1 j hj), j, hj, c2.trans (hcong j hj)⟩

/-! ### The right-hand side -/

/-- Unit normal of face `e`. -/
noncomputable def faceNormal (g : Grid) (e : ℕ) : ℝ × ℝ := unit (nrm (g.tri (e / 3)) (e % 3))

/-- State inside at node `i` of face `e`, and state of the neighbour at the same place (the same state on the boundary). -/
def inner (g : Grid) (q : Fields) (e i : ℕ) : State := q.at' (g.n.mask i (e % 3)) (e / 3)
def outer (P : ℕ → ℕ) (g : Grid) (q : Fields) (e i : ℕ) : State := q.at' (g.n.mask (across P g.N e i) (P e % 3)) (P e / 3)

/-- Exterior state used by src/sw2d-simple: the neighbour's, with reflected momentum on wall faces. -/
noncomputable def exterior (P : ℕ → ℕ) (bt : List Int) (g : Grid) (q : Fields) (e i : ℕ) : State :=
  if bt[e]? = some 3 then
    ⟨(outer P g q e i).h, (wallState (faceNormal g e).1 (faceNormal g e).2 (inner g q e i)).hu, (wallState (faceNormal g e).1 (faceNormal g e).2 (inner g q e i)).hv⟩
  else outer P g q e i

theorem tagged_iff {e i : ℕ} {t : Int} (he : e < 3 * g.K) (hi : i ≤ g.N) : OnFaceWithTag (g.N + 1) (3 * g.K) bt t (g.fn e i) ↔ bt[e]? = some t := by
  constructor
  · rintro ⟨e', i', h1, h2, h3, h4⟩
    have : g.fn e i = g.fn e' i' := by rw [h4]; unfold Grid.fn; ring
    obtain ⟨rfl, rfl⟩ := fn_inj hi (by omega) this
    exact h3
  · intro h
    exact ⟨e, i, he, by omega, h, by unfold Grid.fn; ring⟩

/-- The right-hand side of src/sw2d-simple, for every field: no access is out of range and the result is the flux divergence plus the lifted jumps between inner and exterior states, with
the largest speed on each face. -/
theorem GridSpec.rhsSimple_ok (hg : GridSpec P x bt g) (grav : ℝ) (q : Fields) (h1 : Fits g q.h) (h2 : Fits g q.hu) (h3 : Fits g q.hv) (hw : ∃ e < 3 * g.K, bt[e]? = some 3) :
    ∃ (Λ : ℕ → ℕ → ℝ) (d1 d2 d3 : DMat ℝ) (r : Fields), g.rhsSimple grav q = .ok r ∧ Fits g r.h ∧ Fits g r.hu ∧ Fits g r.hv ∧
      (∀ i k, r.h.at' i k = g.divergence (fun j k => (fluxF grav (q.at' j k)).c1) (fun j k => (fluxG grav (q.at' j k)).c1) i k + g.surface d1 i k) ∧
      (∀ i k, r.hu.at' i k = g.divergence (fun j k => (fluxF grav (q.at' j k)).c2) (fun j k => (fluxG grav (q.at' j k)).c2) i k + g.surface d2 i k) ∧
      (∀ i k, r.hv.at' i k = g.divergence (fun j k => (fluxF grav (q.at' j k)).c3) (fun j k => (fluxG grav (q.at' j k)).c3) i k + g.surface d3 i k) ∧
      (∀ e < 3 * g.K, ∀ i ≤ g.N, IsMax g.N (fun j => max (speed grav (inner g q e j)) (speed grav (exterior P bt g q e j))) (Λ e i)) ∧
      ∀ e < 3 * g.K, ∀ i ≤ g.N,
        d1.at' (e % 3 * (g.N + 1) + i) (e / 3) = (jumpFlux grav (faceNormal g e).1 (faceNormal g e).2 (Λ e i) (inner g q e i) (exterior P bt g q e i)).c1 ∧
        d2.at' (e % 3 * (g.N + 1) + i) (e / 3) = (jumpFlux grav (faceNormal g e).1 (faceNormal g e).2 (Λ e i) (inner g q e i) (exterior P bt g q e i)).c2 ∧
        d3.at' (e % 3 * (g.N + 1) + i) (e / 3) = (jumpFlux grav (faceNormal g e).1 (faceNormal g e).2 (Λ e i) (inner g q e i) (exterior P bt g q e i)).c3 := by
  obtain ⟨ew, hew, htw⟩ := hw
  obtain ⟨W, hW⟩ := hg.bcSome 3 (by norm_num) ⟨g.fn ew 0, (tagged_iff hew (Nat.zero_le _)).2 htw⟩
  have hWm := hg.bc 3 (by norm_num) W hW
  obtain ⟨nx, x1, x2, x3⟩ := flat_ok (g := g) g.nx ⟨rfl, rfl⟩
  obtain ⟨ny, y1, y2, y3⟩ := flat_ok (g := g) g.ny ⟨rfl, rfl⟩
  obtain ⟨hM, hP, a1, a2, a3, a4⟩ := hg.traces_ok q.h h1
  obtain ⟨huM, huP, b1, b2, b3, b4⟩ := hg.traces_ok q.hu h2
  obtain ⟨hvM, hvP, c1, c2, c3, c4⟩ := hg.traces_ok q.hv h3
  have hWlt : ∀ w ∈ W, w < g.nf := by
    intro w hw
    obtain ⟨e, i, he, hi, -, rfl⟩ := (hWm w).1 hw
    have := fn_lt (g := g) he (show i ≤ g.N by omega)
    unfold Grid.fn at this
    rwa [Nat.mul_comm] at this
  obtain ⟨p, p1, p2, p3⟩ := wall_loop false nx ny g.nf x2 y2 ⟨hM, huM, hvM⟩ ⟨a2, b2, c2⟩ W hWlt ⟨hP, huP, hvP⟩ ⟨a3, b3, c3⟩
  obtain ⟨lam, l1, l2⟩ := faceSpeeds_ok (g := g) grav ⟨hM, huM, hvM⟩ p
  set dF := (List.range g.nf).map fun c => jumpFlux grav (nx.getD c 0) (ny.getD c 0) (lam.getD c 0) ((⟨hM, huM, hvM⟩ : Trace).at' c) (p.at' c) with hdF
  have hdl : ∀ f : V3 → ℝ, (dF.map f).length = g.nf := fun f => by rw [hdF]; simp
  obtain ⟨d1, d1a, d1b⟩ := unflat_ok (g := g) (dF.map V3.c1) (hdl _)
  obtain ⟨d2, d2a, d2b⟩ := unflat_ok (g := g) (dF.map V3.c2) (hdl _)
  obtain ⟨d3, d3a, d3b⟩ := unflat_ok (g := g) (dF.map V3.c3) (hdl _)
  have hin : ∀ e < 3 * g.K, ∀ i ≤ g.N, (⟨hM, huM, hvM⟩ : Trace).at' (g.fn e i) = inner g q e i := by
    intro e he i hi
    unfold Trace.at' inner Fields.at'
    simp only [getD_some (a4 e he i hi).1, getD_some (b4 e he i hi).1, getD_some (c4 e he i hi).1]
  have hout : ∀ e < 3 * g.K, ∀ i ≤ g.N, (⟨hP, huP, hvP⟩ : Trace).at' (g.fn e i) = outer P g q e i := by
    intro e he i hi
    unfold Trace.at' outer Fields.at'
    simp only [getD_some (a4 e he i hi).2, getD_some (b4 e he i hi).2, getD_some (c4 e he i hi).2]
  have hnx : ∀ e < 3 * g.K, ∀ i ≤ g.N, nx.getD (g.fn e i) 0 = (faceNormal g e).1 ∧ ny.getD (g.fn e i) 0 = (faceNormal g e).2 := by
    intro e he i hi
    rw [getD_some (x3 e he i hi), getD_some (y3 e he i hi)]
    unfold Grid.nx Grid.ny faceNormal
    simp only [hg.normal_eq (e % 3) i (e / 3) (by omega) hi, and_self]
  have hext : ∀ e < 3 * g.K, ∀ i ≤ g.N, p.at' (g.fn e i) = exterior P bt g q e i := by
    intro e he i hi
    rw [p3]
    unfold walled exterior
    have hiff : g.fn e i ∈ W ↔ bt[e]? = some 3 := (hWm _).trans (tagged_iff he hi)
    rw [hin e he i hi, hout e he i hi, (hnx e he i hi).1, (hnx e he i hi).2]
    by_cases ht : bt[e]? = some 3
    · rw [if_pos (hiff.2 ht), if_pos ht]; simp
    · rw [if_neg (fun h => ht (hiff.1 h)), if_neg ht]
  have hd : ∀ e < 3 * g.K, ∀ i ≤ g.N, ∀ f : V3 → ℝ, (dF.map f).getD (g.fn e i) 0
      = f (jumpFlux grav (faceNormal g e).1 (faceNormal g e).2 (lam.getD (g.fn e i) 0) (inner g q e i) (exterior P bt g q e i)) := by
    intro e he i hi f
    have := fn_lt (g := g) he hi
    rw [List.getD_eq_getElem _ _ (by rw [hdl]; exact this)]
    simp only [hdF, List.getElem_map, List.getElem_range]
    rw [(hnx e he i hi).1, (hnx e he i hi).2, hin e he i hi, hext e he i hi]
  refine ⟨fun e i => lam.getD (g.fn e i) 0, d1, d2, d3,
    { h := ⟨g.np, g.K, fun i k => g.divergence (fun j k => (fluxF grav (q.at' j k)).c1) (fun j k => (fluxG grav (q.at' j k)).c1) i k + g.surface d1 i k⟩
      hu := ⟨g.np, g.K, fun i k => g.divergence (fun j k => (fluxF grav (q.at' j k)).c2) (fun j k => (fluxG grav (q.at' j k)).c2) i k + g.surface d2 i k⟩
      hv := ⟨g.np, g.K, fun i k => g.divergence (fun j k => (fluxF grav (q.at' j k)).c3) (fun j k => (fluxG grav (q.at' j k)).c3) i k + g.surface d3 i k⟩ }, ?_, ⟨rfl, rfl⟩, ⟨rfl, rfl⟩, ⟨rfl, rfl⟩, fun i k => rfl, fun i k => rfl, fun i k => rfl, ?_, ?_⟩
  · unfold Grid.rhsSimple tagNodes
    simp only [hW, Out.bind_ok, x1, y1, a1, b1, c1, p1, l1]
    rw [← hdF]
    unfold Grid.assemble
    simp only [d1a, d2a, d3a, Out.bind_ok]
    rfl
  · intro e he i hi
    obtain ⟨m1, j, hj, m2⟩ := l2 e he i hi
    refine ⟨fun j hj => ?_, j, hj, ?_⟩
    · have := m1 j hj
      beta_reduce at this
      rwa [hin e he j hj, hext e he j hj] at this
    · beta_reduce at m2
      rw [hin e he j hj, hext e he j hj] at m2
      exact m2
  · intro e he i hi
    exact ⟨(d1b e he i hi).trans (hd e he i hi _), (d2b e he i hi).trans (hd e he i hi _), (d3b e he i hi).trans (hd e he i hi _)⟩

/-- Without a wall face the right-hand side throws. -/
theorem GridSpec.rhsSimple_throws (hg : GridSpec P x bt g) (grav : ℝ) (q : Fields) (hw : ¬ ∃ e < 3 * g.K, bt[e]? = some 3) : g.rhsSimple grav q = .throws := by
  have : g.bc 3 = none := by
    apply hg.bcNone 3 (by norm_num)
    rintro ⟨c, e, i, he, -, h, -⟩
    exact hw ⟨e, he, h⟩
  unfold Grid.rhsSimple tagNodes
  rw [this]
  rfl

end Blitzdg.SW
