import Verif.Special.Breakdown
import Mathlib.Tactic.Linarith
import Mathlib.Tactic.NormNum
import Mathlib.Data.EReal.Basic

/-! Property C152: which broken runs are noticed. -/

namespace Blitzdg.Breakdown

open Val (num nan inf)

/-! ### Specification -/

/-- The value is a number or an infinity larger than 1e8 in size. -/
def Beyond : Val → Prop
  | num a => 1e8 < |a|
  | inf _ => True
  | nan => False

/-- What should end a run. -/
def Broken (l : List Val) : Prop := ∃ v ∈ l, Beyond v ∨ v = nan

/-! ### Reductions -/

theorem stdMax_nan (a : Val) : Val.stdMax a nan = a := by
  unfold Val.stdMax
  rw [if_neg]
  cases a <;> exact id

/-- The place of a value that is not NaN on the extended line. -/
noncomputable def key : Val → EReal
  | num a => a
  | inf s => if s then ⊥ else ⊤
  | nan => 0

theorem lt_iff {a b : Val} (ha : a ≠ nan) (hb : b ≠ nan) : Val.lt a b ↔ key a < key b := by
  cases a with
  | nan => exact absurd rfl ha
  | num x =>
    cases b with
    | nan => exact absurd rfl hb
    | num y => exact EReal.coe_lt_coe_iff.symm
    | inf t => cases t <;> simp [Val.lt, key]
  | inf s =>
    cases b with
    | nan => exact absurd rfl hb
    | num y => cases s <;> simp [Val.lt, key]
    | inf t => cases s <;> cases t <;> simp [Val.lt, key]

theorem not_lt_nan (a : Val) : ¬ Val.lt a nan := by cases a <;> exact id

theorem abs_ne {v : Val} (h : v ≠ nan) : Val.abs v ≠ nan := by cases v <;> first | exact absurd rfl h | exact fun e => nomatch e

/-- The maximum of a list, from a start value that is not NaN: NaN entries are passed over. -/
theorem maxRed_gen (l : List Val) : ∀ (m : Val), m ≠ nan →
    let r := l.foldl Val.stdMax m
    r ≠ nan ∧ (r = m ∨ r ∈ l) ∧ key m ≤ key r ∧ ∀ v ∈ l, v ≠ nan → key v ≤ key r := by
  induction l with
  | nil => exact fun m hm => ⟨hm, .inl rfl, le_refl _, by simp⟩
  | cons v l ih =>
    intro m hm
    simp only [List.foldl_cons]
    by_cases hlt : Val.lt m v
    · have e : Val.stdMax m v = v := by unfold Val.stdMax; rw [if_pos hlt]
      have hv : v ≠ nan := by rintro rfl; exact not_lt_nan _ hlt
      obtain ⟨h1, h2, h3, h4⟩ := ih _ hv
      rw [e]
      refine ⟨h1, .inr ?_, (((lt_iff hm hv).1 hlt).le).trans h3, ?_⟩
      · rcases h2 with h | h
        · exact List.mem_cons.2 (.inl h)
        · exact List.mem_cons.2 (.inr h)
      · intro w hw hwn
        rcases List.mem_cons.1 hw with rfl | hw
        · exact h3
        · exact h4 w hw hwn
    · have e : Val.stdMax m v = m := by unfold Val.stdMax; rw [if_neg hlt]
      obtain ⟨h1, h2, h3, h4⟩ := ih _ hm
      rw [e]
      refine ⟨h1, h2.imp_right (List.mem_cons_of_mem v), h3, ?_⟩
      intro w hw hwn
      rcases List.mem_cons.1 hw with rfl | hw
      · exact (not_lt.1 (mt (lt_iff hm hwn).2 hlt)).trans h3
      · exact h4 w hw hwn

/-- The same for sizes. -/
theorem maxRed_abs (l : List Val) (m : Val) (hm : m ≠ nan) :
    let r := (l.map Val.abs).foldl Val.stdMax m
    r ≠ nan ∧ (r = m ∨ ∃ v ∈ l, v ≠ nan ∧ r = Val.abs v) ∧ key m ≤ key r ∧ ∀ v ∈ l, v ≠ nan → key (Val.abs v) ≤ key r := by
  obtain ⟨h1, h2, h3, h4⟩ := maxRed_gen (l.map Val.abs) m hm
  refine ⟨h1, h2.imp_right fun h => ?_, h3, fun v hv hn => h4 _ (List.mem_map.2 ⟨v, hv, rfl⟩) (abs_ne hn)⟩
  obtain ⟨v, hv, e⟩ := List.mem_map.1 h
  exact ⟨v, hv, fun hn => h1 (by rw [← e, hn]; rfl), e.symm⟩

theorem beyond_iff {v : Val} (h : v ≠ nan) : Beyond v ↔ Val.lt (num 1e8) (Val.abs v) := by
  cases v with
  | nan => exact absurd rfl h
  | num a => exact Iff.rfl
  | inf s => exact ⟨fun _ => rfl, fun _ => trivial⟩

/-- What `normMax` of a field is. -/
theorem normMax_spec (lo : ℝ) (h : lo < 0) (l : List Val) :
    normMax lo l ≠ nan ∧ ((∀ v ∈ l, v = nan) → normMax lo l = num lo) ∧
      ((∃ v ∈ l, v ≠ nan) → (∃ v ∈ l, v ≠ nan ∧ normMax lo l = Val.abs v) ∧ ∀ v ∈ l, v ≠ nan → key (Val.abs v) ≤ key (normMax lo l)) := by
  obtain ⟨h1, h2, h3, h4⟩ := maxRed_abs l (num lo) nofun
  refine ⟨h1, fun hn => ?_, fun ⟨w, hw, hwn⟩ => ⟨?_, h4⟩⟩
  · rcases h2 with h | ⟨v, hv, hvn, -⟩
    · exact h
    · exact absurd (hn v hv) hvn
  · rcases h2 with e | h2
    · have hk := h4 w hw hwn
      have hl : key (num lo) < key (Val.abs w) := by
        cases w with
        | nan => exact absurd rfl hwn
        | num a => exact EReal.coe_lt_coe_iff.2 (h.trans_le (abs_nonneg a))
        | inf s => exact EReal.coe_lt_top lo
      rw [e] at hk
      exact absurd hl (not_lt.2 hk)
    · exact h2

theorem normMax_beyond (lo : ℝ) (h : lo < 0) (l : List Val) : Val.lt (num 1e8) (normMax lo l) ↔ ∃ v ∈ l, Beyond v := by
  obtain ⟨h1, h2, h3⟩ := normMax_spec lo h l
  constructor
  · intro hb
    by_cases hn : ∃ v ∈ l, v ≠ nan
    · obtain ⟨v, hv, hvn, e⟩ := (h3 hn).1
      rw [e] at hb
      exact ⟨v, hv, (beyond_iff hvn).2 hb⟩
    · push Not at hn
      rw [h2 hn] at hb
      change (1e8 : ℝ) < lo at hb
      norm_num at hb
      linarith
  · rintro ⟨v, hv, hb⟩
    have hvn : v ≠ nan := by rintro rfl; exact hb
    have hk := (h3 ⟨v, hv, hvn⟩).2 v hv hvn
    exact (lt_iff (a := num 1e8) (fun e => nomatch e) h1).2 (((lt_iff (a := num 1e8) (fun e => nomatch e) (abs_ne hvn)).1 ((beyond_iff hvn).1 hb)).trans_le hk)

/-! ### The tests -/

/-- **C152, one-dimensional programs.** The test of advec1d and burgers1d stops a run exactly if some entry is a number or infinity beyond 1e8; NaNs do not matter. -/
theorem C152_oned (lo : ℝ) (h : lo < 0) (u : List Val) : stops1D lo u ↔ ∃ v ∈ u, Beyond v := by
  unfold stops1D
  rw [normMax_beyond lo h]
  exact or_iff_left (normMax_spec lo h u).1

theorem abs_normMax (lo : ℝ) (h : lo < -1e8) (u : List Val) :
    Val.lt (num 1e8) (Val.abs (normMax lo u)) ↔ (∃ v ∈ u, Beyond v) ∨ ∀ v ∈ u, v = nan := by
  have h0 : lo < 0 := by norm_num at h; linarith
  obtain ⟨h1, h2, h3⟩ := normMax_spec lo h0 u
  by_cases hn : ∃ v ∈ u, v ≠ nan
  · obtain ⟨v, hv, hvn, e⟩ := (h3 hn).1
    have e2 : Val.abs (normMax lo u) = normMax lo u := by
      rw [e]
      cases v with
      | nan => rfl
      | num a => exact congrArg num (abs_abs a)
      | inf s => rfl
    rw [e2, normMax_beyond lo h0]
    refine (or_iff_left fun hc => ?_).symm
    exact hvn (hc v hv)
  · push Not at hn
    rw [h2 hn]
    refine iff_of_true ?_ (.inr hn)
    change (1e8 : ℝ) < |lo|
    rw [abs_of_neg h0]
    linarith

/-- **C152, sw2d-simple and ins2d.** The test stops a run exactly if some entry is a number or infinity beyond 1e8, or all entries are NaN. -/
theorem C152_simple (lo : ℝ) (h : lo < -1e8) (u : List Val) : stops2D lo u ↔ (∃ v ∈ u, Beyond v) ∨ ∀ v ∈ u, v = nan := by
  unfold stops2D
  rw [abs_normMax lo h]
  exact or_iff_left (normMax_spec lo (by norm_num at h; linarith) u).1

theorem sum_nan (l : List Val) : l.foldl Val.add nan = nan := by
  induction l with
  | nil => rfl
  | cons v l ih => rw [List.foldl_cons, show Val.add nan v = nan by cases v <;> rfl]; exact ih

theorem sum_of_nan (l : List Val) : ∀ m : Val, nan ∈ l → l.foldl Val.add m = nan := by
  induction l with
  | nil => exact nofun
  | cons v l ih =>
    intro m hm
    rw [List.foldl_cons]
    rcases List.mem_cons.1 hm with rfl | hm
    · rw [show Val.add m nan = nan by cases m <;> rfl]
      exact sum_nan l
    · exact ih _ hm

theorem sum_num (l : List Val) : ∀ m : ℝ, (∀ v ∈ l, ∃ a, v = num a) → ∃ s, l.foldl Val.add (num m) = num s := by
  induction l with
  | nil => exact fun m _ => ⟨m, rfl⟩
  | cons v l ih =>
    intro m hm
    obtain ⟨a, rfl⟩ := hm v (by simp)
    exact ih (m + a) fun w hw => hm w (by simp [hw])

/-- **C152, sw2d.** The test stops a run exactly if the tested field is broken: some entry is NaN, infinite or larger than 1e8 in size. -/
theorem C152_full (lo : ℝ) (h : lo < -1e8) (u : List Val) (hu : u ≠ []) : stopsFull lo u ↔ Broken u := by
  unfold stopsFull
  rw [abs_normMax lo h]
  constructor
  · rintro ((⟨v, hv, hb⟩ | hn) | hs)
    · exact ⟨v, hv, .inl hb⟩
    · obtain ⟨v, hv⟩ := List.exists_mem_of_ne_nil u hu
      exact ⟨v, hv, .inr (hn v hv)⟩
    · by_contra hc
      have : ∀ v ∈ u, ∃ a, v = num a := by
        intro v hv
        cases v with
        | num a => exact ⟨a, rfl⟩
        | inf s => exact absurd ⟨_, hv, .inl trivial⟩ hc
        | nan => exact absurd ⟨_, hv, .inr rfl⟩ hc
      obtain ⟨s, e⟩ := sum_num u 0 this
      rw [Val.sumRed, e] at hs
      exact nomatch hs
  · rintro ⟨v, hv, hb | rfl⟩
    · exact .inl (.inl ⟨v, hv, hb⟩)
    · exact .inr (sum_of_nan u _ hv)

/-- What `numpy.max` of sizes is: NaN if one is, and else the largest. -/
theorem npMax_spec (l : List Val) : ∀ m : Val,
    let r := (l.map Val.abs).foldl (fun m v => open Classical in if m = nan ∨ v = nan then nan else if Val.lt m v then v else m) m
    ((m = nan ∨ nan ∈ l) → r = nan) ∧ (m ≠ nan → nan ∉ l → r ≠ nan ∧ (r = m ∨ ∃ v ∈ l, r = Val.abs v) ∧ key m ≤ key r ∧ ∀ v ∈ l, key (Val.abs v) ≤ key r) := by
  induction l with
  | nil => exact fun m => ⟨fun h => h.resolve_right (by simp), fun hm _ => ⟨hm, .inl rfl, le_refl _, by simp⟩⟩
  | cons v l ih =>
    intro m
    simp only [List.map_cons, List.foldl_cons]
    constructor
    · intro h
      rcases h with rfl | h
      · rw [if_pos (.inl rfl)]
        exact (ih nan).1 (.inl rfl)
      · rcases List.mem_cons.1 h with rfl | h
        · rw [if_pos (.inr rfl)]
          exact (ih nan).1 (.inl rfl)
        · exact (ih _).1 (.inr h)
    · intro hm hl
      have hv : v ≠ nan := fun e => hl (by simp [e])
      have hl' : nan ∉ l := fun e => hl (by simp [e])
      rw [if_neg (not_or.2 ⟨hm, abs_ne hv⟩)]
      by_cases hlt : Val.lt m (Val.abs v)
      · rw [if_pos hlt]
        obtain ⟨h1, h2, h3, h4⟩ := (ih _).2 (abs_ne hv) hl'
        refine ⟨h1, .inr ?_, (((lt_iff hm (abs_ne hv)).1 hlt).le).trans h3, ?_⟩
        · rcases h2 with h | ⟨w, hw, h⟩
          · exact ⟨v, by simp, h⟩
          · exact ⟨w, by simp [hw], h⟩
        · intro w hw
          rcases List.mem_cons.1 hw with rfl | hw
          · exact h3
          · exact h4 w hw
      · rw [if_neg hlt]
        obtain ⟨h1, h2, h3, h4⟩ := (ih _).2 hm hl'
        refine ⟨h1, ?_, h3, ?_⟩
        · rcases h2 with h | ⟨w, hw, h⟩
          · exact .inl h
          · exact .inr ⟨w, by simp [hw], h⟩
        · intro w hw
          rcases List.mem_cons.1 hw with rfl | hw
          · exact (not_lt.1 (mt (lt_iff hm (abs_ne hv)).2 hlt)).trans h3
          · exact h4 w hw

/-- **C152, Python programs.** The test stops a run exactly if the tested field is broken. -/
theorem C152_python (u : List Val) (hu : u ≠ []) : stopsPy u ↔ Broken u := by
  obtain ⟨v, l, rfl⟩ := List.exists_cons_of_ne_nil hu
  unfold stopsPy
  simp only [List.map_cons, Val.npMax]
  obtain ⟨h1, h2⟩ := npMax_spec l (Val.abs v)
  by_cases hb : nan ∈ v :: l
  · refine iff_of_true (.inr (h1 ?_)) ⟨nan, hb, .inr rfl⟩
    rcases List.mem_cons.1 hb with rfl | h
    · exact .inl rfl
    · exact .inr h
  · have hv : v ≠ nan := fun e => hb (by simp [e])
    have hl : nan ∉ l := fun e => hb (by simp [e])
    obtain ⟨r1, r2, r3, r4⟩ := h2 (abs_ne hv) hl
    have ne : ∀ w ∈ v :: l, w ≠ nan := fun w hw e => hb (e ▸ hw)
    constructor
    · rintro (h | h)
      · obtain ⟨w, hw, e⟩ : ∃ w ∈ v :: l, _ = Val.abs w := by
          rcases r2 with e | ⟨w, hw, e⟩
          · exact ⟨v, by simp, e⟩
          · exact ⟨w, by simp [hw], e⟩
        simp only at e
        rw [e] at h
        exact ⟨w, hw, .inl ((beyond_iff (ne w hw)).2 h)⟩
      · exact absurd h r1
    · rintro ⟨w, hw, hb' | rfl⟩
      · left
        have hk := (List.forall_mem_cons (p := fun w => key (Val.abs w) ≤ _)).2 ⟨r3, r4⟩ w hw
        exact (lt_iff (a := num 1e8) (fun e => nomatch e) r1).2 (((lt_iff (a := num 1e8) (fun e => nomatch e) (abs_ne (ne w hw))).1 ((beyond_iff (ne w hw)).1 hb')).trans_le hk)
      · exact absurd hw hb

/-- **C152, refutation.** A field that holds NaN is broken; the tests of advec1d, burgers1d, sw2d-simple and ins2d let it pass if it holds any number of moderate size besides, and those of the
one-dimensional programs let even a field of NaNs alone pass. -/
theorem C152_missed (lo : ℝ) (h : lo < -1e8) (a : ℝ) (ha : |a| ≤ 1e8) :
    Broken [nan, num a] ∧ ¬ stops1D lo [nan, num a] ∧ ¬ stops2D lo [nan, num a] ∧ stopsFull lo [nan, num a] ∧ stopsPy [nan, num a] ∧ ¬ stops1D lo [nan, nan] ∧ stops2D lo [nan, nan] := by
  have hb : Broken [nan, num a] := ⟨nan, by simp, .inr rfl⟩
  have hn : ¬ ∃ v ∈ [nan, num a], Beyond v := by
    rintro ⟨v, hv, hb⟩
    simp only [List.mem_cons, List.not_mem_nil, or_false] at hv
    rcases hv with rfl | rfl
    · exact hb
    · exact absurd hb (not_lt.2 ha)
  have h0 : lo < 0 := by norm_num at h; linarith
  refine ⟨hb, ?_, ?_, (C152_full lo h _ (by simp)).2 hb, (C152_python _ (by simp)).2 hb, ?_, ?_⟩
  · rw [C152_oned lo h0]; exact hn
  · rw [C152_simple lo h]
    rintro (h | h)
    · exact hn h
    · exact nomatch h (num a) (by simp)
  · rw [C152_oned lo h0]
    rintro ⟨v, hv, hb⟩
    simp at hv
    subst hv
    exact hb
  · rw [C152_simple lo h]
    exact .inr (by simp)

/-! ### Runs -/

theorem stages_nan (f : Field → Field) (dt : ℝ) (j : ℕ) (l : List ℕ) : ∀ s : Field × Field, s.1 j = nan → (l.foldl (stage f dt) s).1 j = nan := by
  induction l with
  | nil => exact fun s h => h
  | cons i l ih =>
    intro s h
    exact ih _ (by simp only [stage, h, Val.nan_add])

/-- **C152, NaN stays, one-dimensional programs.** Whatever the right-hand side: if a node holds NaN at the start of a run of passes that end without exception, it holds NaN at the end. -/
theorem C152_oned_stays (lo : ℝ) (n : ℕ) (f : ℕ → Field → Field) (dt : ℝ) (k : ℕ) (s s' : Field × Field) (j : ℕ) (h : s.1 j = nan) (hr : run1D lo n f dt k s = some s') : s'.1 j = nan := by
  induction k generalizing s' with
  | zero => cases hr; exact h
  | succ k ih =>
    obtain ⟨t, ht, hp⟩ := Option.bind_eq_some_iff.1 hr
    unfold pass1D at hp
    simp only at hp
    split_ifs at hp
    cases hp
    exact stages_nan _ _ _ _ _ (ih t ht)

/-- **C152, NaN stays, sw2d-simple and ins2d.** -/
theorem C152_simple_stays (lo : ℝ) (n : ℕ) (H : ℝ) (rate : ℕ → Field → Val × Field) (k : ℕ) (h h' : Field) (j : ℕ) (hj : h j = nan) (hr : run2D lo n H rate k h = some h') : h' j = nan := by
  induction k generalizing h' with
  | zero => cases hr; exact hj
  | succ k ih =>
    obtain ⟨t, ht, hp⟩ := Option.bind_eq_some_iff.1 hr
    unfold pass2D at hp
    simp only at hp
    split_ifs at hp
    cases hp
    simp only [ih t ht, Val.nan_add]

/-- **C152, a run of sw2d ends with the first pass that starts from NaN** at a node below `n` (with finite bed depths), and a pass that does not end the run starts from depths that differ from the bed's
by at most 1e8.  What the last pass itself computes is not tested. -/
theorem C152_full_pass (lo : ℝ) (h0 : lo < -1e8) (n : ℕ) (hn : 0 < n) (H : ℕ → ℝ) (rate : Field → Val × Field × Field) (h : Field) :
    (passFull lo n (fun j => num (H j)) rate h = none ↔ ∃ j < n, h j = nan ∨ (∃ s, h j = inf s) ∨ ∃ a, h j = num a ∧ 1e8 < |a - H j|) := by
  unfold passFull
  simp only
  have key : stopsFull lo (entries n fun j => h j + num (-1) * num (H j)) ↔ ∃ j < n, h j = nan ∨ (∃ s, h j = inf s) ∨ ∃ a, h j = num a ∧ 1e8 < |a - H j| := by
    rw [C152_full lo h0 _ (by simp [entries]; omega)]
    unfold Broken entries
    constructor
    · rintro ⟨v, hv, hb⟩
      obtain ⟨j, hj, rfl⟩ := List.mem_map.1 hv
      refine ⟨j, List.mem_range.1 hj, ?_⟩
      rcases hh : h j with a | s | _
      · rw [hh] at hb
        right; right
        refine ⟨a, rfl, ?_⟩
        rcases hb with hb | hb
        · change (1e8 : ℝ) < |a + -1 * H j| at hb
          rwa [show a + -1 * H j = a - H j by ring] at hb
        · exact nomatch hb
      · exact .inr (.inl ⟨s, rfl⟩)
      · exact .inl rfl
    · rintro ⟨j, hj, hb⟩
      refine ⟨_, List.mem_map.2 ⟨j, List.mem_range.2 hj, rfl⟩, ?_⟩
      rcases hb with e | ⟨s, e⟩ | ⟨a, e, hb⟩
      · rw [e]; exact .inr rfl
      · rw [e]; exact .inl trivial
      · rw [e]
        left
        change (1e8 : ℝ) < |a + -1 * H j|
        rwa [show a + -1 * H j = a - H j by ring]
  rw [← key]
  split_ifs with hs
  · exact iff_of_true rfl hs
  · exact iff_of_false nofun hs

/-- **C152, a pass of a Python program** ends without exception exactly if the new depths are numbers of at most 1e8 in size. -/
theorem C152_python_pass (n : ℕ) (hn : 0 < n) (rate : Field → Val × Field) (h h' : Field) (hr : passPy n rate h = some h') : ∀ j < n, ∃ a, h' j = num a ∧ |a| ≤ 1e8 := by
  unfold passPy at hr
  simp only at hr
  split_ifs at hr with hs
  cases hr
  rw [C152_python _ (by simp [entries]; omega)] at hs
  intro j hj
  by_contra hc
  apply hs
  refine ⟨_, List.mem_map.2 ⟨j, List.mem_range.2 hj, rfl⟩, ?_⟩
  rcases hh : h j + (rate h).1 * (rate h).2 j with a | s | _
  · left
    by_contra hb
    exact hc ⟨a, hh, not_lt.1 hb⟩
  · exact .inl trivial
  · exact .inr rfl

/-- **C152, reported errors.** The error printed by advec1d and burgers1d is never NaN.  If no node holds a number it is the lowest double; else it is the largest error over the nodes that do not hold
NaN, the others being passed over. -/
theorem C152_reported (lo : ℝ) (h : lo < 0) (n : ℕ) (u : Field) (exact : ℕ → ℝ) :
    reported lo n u exact ≠ nan ∧ ((∀ j < n, u j = nan) → reported lo n u exact = num lo) ∧
      ∀ e, reported lo n u exact = num e → ∀ j < n, ∀ a, u j = num a → |a - exact j| ≤ e := by
  obtain ⟨h1, h2, h3⟩ := normMax_spec lo h (entries n fun j => u j + num (-exact j))
  refine ⟨h1, fun hn => h2 ?_, fun e he j hj a ha => ?_⟩
  · intro v hv
    obtain ⟨j, hj, rfl⟩ := List.mem_map.1 hv
    simp only [hn j (List.mem_range.1 hj), Val.nan_add]
  · have hm : (num (a + -exact j)) ∈ entries n fun j => u j + num (-exact j) :=
      List.mem_map.2 ⟨j, List.mem_range.2 hj, by rw [ha]; rfl⟩
    have hk := (h3 ⟨_, hm, nofun⟩).2 _ hm nofun
    change normMax lo _ = num e at he
    rw [he] at hk
    have := EReal.coe_le_coe_iff.1 hk
    rwa [← sub_eq_add_neg] at this

/-- A run of burgers1d or advec1d over two nodes that starts with NaN at the second goes through any number of passes (here with rates 0) and reports the error 0. -/
example (lo : ℝ) (h : lo < 0) (dt : ℝ) (k : ℕ) :
    ∃ s', run1D lo 2 (fun _ _ _ => num 0) dt k (fun j => if j = 1 then nan else num 1, fun _ => num 0) = some s' ∧ s'.1 0 = num 1 ∧ s'.1 1 = nan ∧ reported lo 2 s'.1 (fun _ => 1) = num 0 := by
  have st : ∀ l : List ℕ, l.foldl (stage (fun _ _ => num 0) dt) (fun j => if j = 1 then nan else num 1, fun _ => num 0) = (fun j => if j = 1 then nan else num 1, fun _ => num 0) := by
    intro l
    induction l with
    | nil => rfl
    | cons i l ih =>
      rw [List.foldl_cons]
      have e : stage (fun _ _ => num 0) dt (fun j => if j = 1 then nan else num 1, fun _ => num 0) i = (fun j => if j = 1 then nan else num 1, fun _ => num 0) := by
        unfold stage
        have z : ∀ c : ℝ, num c * num 0 + num dt * num 0 = num 0 := fun c => by rw [Val.num_mul, Val.num_mul, Val.num_add]; simp
        simp only [z]
        congr 1
        funext j
        split_ifs
        · exact Val.nan_add _
        · rw [Val.num_mul, Val.num_add]; simp
      rw [e]; exact ih
  have pa : ∀ f, f = (fun (_ : Field) (_ : ℕ) => num 0) → pass1D lo 2 f dt (fun j => if j = 1 then nan else num 1, fun _ => num 0) = some (fun j => if j = 1 then nan else num 1, fun _ => num 0) := by
    rintro f rfl
    unfold pass1D
    simp only
    rw [st, if_neg]
    rw [C152_oned lo h]
    rintro ⟨v, hv, hb⟩
    simp [entries, List.range_succ] at hv
    rcases hv with rfl | rfl
    · change (1e8 : ℝ) < |1| at hb
      norm_num at hb
    · exact hb
  have run : run1D lo 2 (fun _ _ _ => num 0) dt k (fun j => if j = 1 then nan else num 1, fun _ => num 0) = some (fun j => if j = 1 then nan else num 1, fun _ => num 0) := by
    induction k with
    | zero => rfl
    | succ k ih => rw [run1D, ih]; exact pa _ rfl
  refine ⟨_, run, rfl, rfl, ?_⟩
  have e : entries 2 (fun j => (if j = 1 then nan else num 1) + num (-1)) = [num 0, nan] := by
    simp [entries, List.range_succ, Val.num_add, Val.nan_add]
  unfold reported
  simp only [e]
  unfold normMax Val.maxRed
  simp only [List.map_cons, List.map_nil, List.foldl_cons, List.foldl_nil, Val.abs, stdMax_nan]
  unfold Val.stdMax
  rw [abs_zero]
  exact if_pos h

end Blitzdg.Breakdown
