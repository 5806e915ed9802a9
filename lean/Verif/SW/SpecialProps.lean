import Verif.SW.Special
import Verif.SW.FluxProps
import Verif.Special.BreakdownProps

/-!
Nodes without positive depth (C153).
-/

namespace Blitzdg.SW

open Blitzdg.Val (num nan inf)
open Blitzdg.Breakdown (key maxRed_gen lt_iff passFull C152_full_pass)

/-- No positive depth. -/
def DryState (q : State) : Prop := q.h < 0 ∨ q.h = 0 ∧ (q.hu = 0 ∨ q.hv = 0)

theorem sub_num (a b : ℝ) : Val.sub (num a) (num b) = num (a - b) := congrArg num (by ring)

/-- At positive depth the computed speed is the exact one. -/
theorem speedV_wet {g : ℝ} (hg : 0 ≤ g) {q : State} (h : 0 < q.h) : speedV g q.toV = num (speed g q) := by
  simp only [speedV, State.toV]
  rw [Val.num_div _ h.ne', Val.num_div _ h.ne', Val.num_mul, Val.num_mul, Val.num_add, Val.num_mul, Val.num_sqrt (add_nonneg (mul_self_nonneg _) (mul_self_nonneg _)), Val.num_sqrt (mul_nonneg hg h.le), Val.num_add]
  rfl

/-- Without it, NaN. -/
theorem speedV_dry {g : ℝ} (hg : 0 < g) {q : State} (h : DryState q) : speedV g q.toV = nan := by
  simp only [speedV, State.toV]
  rcases h with h | ⟨h, h'⟩
  · have e : Val.sqrt (num g * num q.h) = nan := by
      rw [Val.num_mul, Val.sqrt, if_pos (mul_neg_of_pos_of_neg hg h)]
    rw [e]
    exact Val.add_nan _
  · have z : num 0 / num q.h = nan := by
      rw [h]
      change Val.div _ _ = _
      rw [Val.div, if_pos rfl, if_pos rfl]
    have s : Val.sqrt nan = nan := rfl
    rcases h' with h' | h'
    · rw [h', z, Val.nan_mul, Val.nan_add, s, Val.nan_add]
    · rw [h', z, Val.nan_mul, Val.add_nan, s, Val.nan_add]

theorem speed_pos {g : ℝ} (hg : 0 < g) {q : State} (h : 0 < q.h) : 0 < speed g q := add_pos_of_nonneg_of_pos (Real.sqrt_nonneg _) (Real.sqrt_pos.2 (mul_pos hg h))

theorem stdMax_nan_left (v : Val) : Val.stdMax nan v = nan := by
  unfold Val.stdMax
  rw [if_neg]
  cases v <;> exact id

theorem stdMax_num (a b : ℝ) : Val.stdMax (num a) (num b) = num (max a b) := by
  unfold Val.stdMax
  by_cases h : a < b
  · rw [if_pos (show Val.lt (num a) (num b) from h), max_eq_right h.le]
  · rw [if_neg (show ¬ Val.lt (num a) (num b) from h), max_eq_left (not_lt.1 h)]

/-- `blitz::max` of numbers and NaNs: NaNs are passed over. -/
theorem maxRed_numbers (lo : ℝ) (l : List Val) (S : Set ℝ) (hS : ∀ s ∈ S, lo < s) (h1 : ∀ v ∈ l, v = nan ∨ ∃ s ∈ S, v = num s) (h2 : ∀ s ∈ S, ∃ t ∈ S, s ≤ t ∧ num t ∈ l) :
    (S = ∅ → Val.maxRed lo l = num lo) ∧ (S.Nonempty → ∃ lam, Val.maxRed lo l = num lam ∧ IsGreatest S lam) := by
  obtain ⟨r1, r2, r3, r4⟩ := maxRed_gen l (num lo) nofun
  have mem : l.foldl Val.stdMax (num lo) ∈ l → ∃ s ∈ S, l.foldl Val.stdMax (num lo) = num s := fun h => (h1 _ h).resolve_left r1
  constructor
  · intro he
    rcases r2 with h | h
    · exact h
    · obtain ⟨s, hs, -⟩ := mem h
      rw [he] at hs
      exact absurd hs (Set.notMem_empty s)
  · rintro ⟨s, hs⟩
    have up : ∀ s ∈ S, key (num s) ≤ key (l.foldl Val.stdMax (num lo)) := by
      intro s hs
      obtain ⟨t, -, hst, hm⟩ := h2 s hs
      exact le_trans (EReal.coe_le_coe_iff.2 hst) (r4 _ hm nofun)
    have hm : l.foldl Val.stdMax (num lo) ∈ l := by
      refine r2.resolve_left fun h => ?_
      have := up s hs
      rw [h] at this
      exact absurd (hS s hs) (not_lt.2 (EReal.coe_le_coe_iff.1 this))
    obtain ⟨lam, hlam, e⟩ := mem hm
    refine ⟨lam, e, hlam, fun s hs => ?_⟩
    have := up s hs
    rw [e] at this
    exact EReal.coe_le_coe_iff.1 this

/-- **C153, the dissipation coefficient.** With nodes of either kind it is the largest speed over the states of positive depth on the inner side and over those outer states whose inner partner has
positive depth; if no inner state has, it is the lowest double: negative. -/
theorem C153_coefficient (lo g : ℝ) (hlo : lo < 0) (hg : 0 < g) (l : List (State × State)) (hl : ∀ x ∈ l, (0 < x.1.h ∨ DryState x.1) ∧ (0 < x.2.h ∨ DryState x.2)) :
    ((∀ x ∈ l, ¬ 0 < x.1.h) → coefV lo g (l.map fun x => (x.1.toV, x.2.toV)) = num lo) ∧
    ((∃ x ∈ l, 0 < x.1.h) → ∃ lam, coefV lo g (l.map fun x => (x.1.toV, x.2.toV)) = num lam ∧
      IsGreatest {s | ∃ x ∈ l, 0 < x.1.h ∧ (s = speed g x.1 ∨ 0 < x.2.h ∧ s = speed g x.2)} lam) := by
  have A : ∀ s ∈ {s | ∃ x ∈ l, 0 < x.1.h ∧ (s = speed g x.1 ∨ 0 < x.2.h ∧ s = speed g x.2)}, lo < s := by
    rintro s ⟨x, -, hw, rfl | ⟨hw', rfl⟩⟩
    · exact hlo.trans (speed_pos hg hw)
    · exact hlo.trans (speed_pos hg hw')
  have B : ∀ v ∈ ((l.map fun x => (x.1.toV, x.2.toV)).map (pairSpeedV g)), v = nan ∨ ∃ s ∈ {s | ∃ x ∈ l, 0 < x.1.h ∧ (s = speed g x.1 ∨ 0 < x.2.h ∧ s = speed g x.2)}, v = num s := by
    intro v hv
    simp only [List.map_map, List.mem_map, Function.comp] at hv
    obtain ⟨x, hx, rfl⟩ := hv
    unfold pairSpeedV
    simp only
    rcases (hl x hx).1 with hw | hd
    · right
      rw [speedV_wet hg.le hw]
      rcases (hl x hx).2 with hw' | hd'
      · rw [speedV_wet hg.le hw', stdMax_num]
        rcases max_choice (speed g x.1) (speed g x.2) with e | e
        · exact ⟨_, ⟨x, hx, hw, .inl rfl⟩, congrArg num e⟩
        · exact ⟨_, ⟨x, hx, hw, .inr ⟨hw', rfl⟩⟩, congrArg num e⟩
      · rw [speedV_dry hg hd', Breakdown.stdMax_nan]
        exact ⟨_, ⟨x, hx, hw, .inl rfl⟩, rfl⟩
    · left
      rw [speedV_dry hg hd, stdMax_nan_left]
  have C : ∀ s ∈ {s | ∃ x ∈ l, 0 < x.1.h ∧ (s = speed g x.1 ∨ 0 < x.2.h ∧ s = speed g x.2)}, ∃ t ∈ {s | ∃ x ∈ l, 0 < x.1.h ∧ (s = speed g x.1 ∨ 0 < x.2.h ∧ s = speed g x.2)}, s ≤ t ∧ num t ∈ ((l.map fun x => (x.1.toV, x.2.toV)).map (pairSpeedV g)) := by
    rintro s ⟨x, hx, hw, hs⟩
    have hmem : pairSpeedV g (x.1.toV, x.2.toV) ∈ (l.map fun x => (x.1.toV, x.2.toV)).map (pairSpeedV g) := List.mem_map.2 ⟨_, List.mem_map.2 ⟨x, hx, rfl⟩, rfl⟩
    unfold pairSpeedV at hmem
    simp only [speedV_wet hg.le hw] at hmem
    rcases (hl x hx).2 with hw' | hd'
    · rw [speedV_wet hg.le hw', stdMax_num] at hmem
      refine ⟨_, ?_, ?_, hmem⟩
      · rcases max_choice (speed g x.1) (speed g x.2) with e | e
        · exact ⟨x, hx, hw, .inl e⟩
        · exact ⟨x, hx, hw, .inr ⟨hw', e⟩⟩
      · rcases hs with rfl | ⟨-, rfl⟩
        · exact le_max_left _ _
        · exact le_max_right _ _
    · rw [speedV_dry hg hd', Breakdown.stdMax_nan] at hmem
      refine ⟨_, ⟨x, hx, hw, .inl rfl⟩, ?_, hmem⟩
      rcases hs with rfl | ⟨hw', rfl⟩
      · exact le_refl _
      · rcases hd' with h | ⟨h, -⟩
        · exact absurd hw' (not_lt.2 h.le)
        · exact absurd hw' (by rw [h]; exact lt_irrefl _)
  obtain ⟨a, b⟩ := maxRed_numbers lo _ _ A B C
  refine ⟨fun h => a ?_, fun ⟨x, hx, hw⟩ => b ⟨_, x, hx, hw, .inl rfl⟩⟩
  ext s
  simp only [Set.mem_ofPred_eq, Set.mem_empty_iff_false, iff_false]
  rintro ⟨x, hx, hw, -⟩
  exact h x hx hw

/-- **C153, positive depths.** With positive depths throughout, the coefficient is the largest speed of all states, and the same seen from either side. -/
theorem C153_wet (lo g : ℝ) (hlo : lo < 0) (hg : 0 < g) (l : List (State × State)) (hne : l ≠ []) (hl : ∀ x ∈ l, 0 < x.1.h ∧ 0 < x.2.h) :
    ∃ lam, coefV lo g (l.map fun x => (x.1.toV, x.2.toV)) = num lam ∧ coefV lo g (l.map fun x => (x.2.toV, x.1.toV)) = num lam ∧
      IsGreatest {s | ∃ x ∈ l, s = speed g x.1 ∨ s = speed g x.2} lam := by
  obtain ⟨x, hx⟩ := List.exists_mem_of_ne_nil l hne
  obtain ⟨a, ha, ga⟩ := (C153_coefficient lo g hlo hg l fun x hx => ⟨.inl (hl x hx).1, .inl (hl x hx).2⟩).2 ⟨x, hx, (hl x hx).1⟩
  obtain ⟨b, hb, gb⟩ := (C153_coefficient lo g hlo hg (l.map Prod.swap) (by
    intro y hy
    obtain ⟨x, hx, rfl⟩ := List.mem_map.1 hy
    exact ⟨.inl (hl x hx).2, .inl (hl x hx).1⟩)).2 ⟨x.swap, List.mem_map.2 ⟨x, hx, rfl⟩, (hl x hx).2⟩
  have ea : {s | ∃ x ∈ l, 0 < x.1.h ∧ (s = speed g x.1 ∨ 0 < x.2.h ∧ s = speed g x.2)} = {s | ∃ x ∈ l, s = speed g x.1 ∨ s = speed g x.2} := by
    ext s
    constructor
    · rintro ⟨x, hx, -, h | ⟨-, h⟩⟩
      exacts [⟨x, hx, .inl h⟩, ⟨x, hx, .inr h⟩]
    · rintro ⟨x, hx, h | h⟩
      exacts [⟨x, hx, (hl x hx).1, .inl h⟩, ⟨x, hx, (hl x hx).1, .inr ⟨(hl x hx).2, h⟩⟩]
  have eb : {s | ∃ x ∈ l.map Prod.swap, 0 < x.1.h ∧ (s = speed g x.1 ∨ 0 < x.2.h ∧ s = speed g x.2)} = {s | ∃ x ∈ l, s = speed g x.1 ∨ s = speed g x.2} := by
    ext s
    constructor
    · rintro ⟨y, hy, -, h⟩
      obtain ⟨x, hx, rfl⟩ := List.mem_map.1 hy
      rcases h with h | ⟨-, h⟩
      exacts [⟨x, hx, .inr h⟩, ⟨x, hx, .inl h⟩]
    · rintro ⟨x, hx, h | h⟩
      exacts [⟨x.swap, List.mem_map.2 ⟨x, hx, rfl⟩, (hl x hx).2, .inr ⟨(hl x hx).1, h⟩⟩, ⟨x.swap, List.mem_map.2 ⟨x, hx, rfl⟩, (hl x hx).2, .inl h⟩]
  rw [ea] at ga
  rw [eb] at gb
  refine ⟨a, ha, ?_, ga⟩
  rw [ga.unique gb, ← hb, List.map_map]
  rfl

/-- The jump in the depth equation, for numbers. -/
theorem jumpFlux1V_num (g nx ny lam : ℝ) (m p : State) : jumpFlux1V nx ny (num lam) m.toV p.toV = num (jumpFlux g nx ny lam m p).c1 := by
  simp only [jumpFlux1V, State.toV, sub_num, Val.num_mul, Val.num_add, jumpFlux, fluxF, fluxG]

/-- **C153, balance.** The jumps of the depth equation from the two sides of a node differ by half the difference of the coefficients times the jump in depth. -/
theorem C153_balance (nx ny lam lam' : ℝ) (m p : State) :
    jumpFlux1V nx ny (num lam) m.toV p.toV + jumpFlux1V (-nx) (-ny) (num lam') p.toV m.toV = num (m.hu * nx + m.hv * ny - p.hu * nx - p.hv * ny - (lam - lam') / 2 * (m.h - p.h)) := by
  rw [jumpFlux1V_num 0, jumpFlux1V_num 0, Val.num_add]
  simp only [jumpFlux, fluxF, fluxG]
  congr 1
  ring

/-- **C153, refutation of conservation.** A face with two nodes at rest, one of them with negative depth on one side: from that side the coefficient is 1, from the other 2, and the jumps of the depth equation at
that node, which would have to cancel (the normal fluxes being zero), add up to -5/2. -/
theorem C153_one_sided (lo : ℝ) (hlo : lo < 0) :
    ∃ l : List (State × State), (∀ x ∈ l, x.1.hu = 0 ∧ x.1.hv = 0 ∧ x.2.hu = 0 ∧ x.2.hv = 0) ∧ coefV lo 1 (l.map fun x => (x.1.toV, x.2.toV)) = num 1 ∧ coefV lo 1 (l.map fun x => (x.2.toV, x.1.toV)) = num 2 ∧
      ∃ x ∈ l, ∀ nx ny : ℝ, jumpFlux1V nx ny (num 1) x.1.toV x.2.toV + jumpFlux1V (-nx) (-ny) (num 2) x.2.toV x.1.toV = num (-5 / 2) := by
  have sp : ∀ h : ℝ, speed 1 ⟨h, 0, 0⟩ = √h := by intro h; simp [speed]
  have d : DryState ⟨-1, 0, 0⟩ := .inl (by norm_num)
  have s4 : √(4 : ℝ) = 2 := by rw [show (4 : ℝ) = 2 ^ 2 by norm_num]; exact Real.sqrt_sq (by norm_num)
  have v4 : speedV 1 (State.toV ⟨4, 0, 0⟩) = num 2 := by rw [speedV_wet (by norm_num) (by norm_num), sp, s4]
  have v1 : speedV 1 (State.toV ⟨1, 0, 0⟩) = num 1 := by rw [speedV_wet (by norm_num) (by norm_num), sp, Real.sqrt_one]
  have vd : speedV 1 (State.toV ⟨-1, 0, 0⟩) = nan := speedV_dry (by norm_num) d
  refine ⟨[(⟨-1, 0, 0⟩, ⟨4, 0, 0⟩), (⟨1, 0, 0⟩, ⟨1, 0, 0⟩)], by simp, ?_, ?_, (⟨-1, 0, 0⟩, ⟨4, 0, 0⟩), by simp, fun nx ny => ?_⟩
  · simp only [coefV, Val.maxRed, List.map_cons, List.map_nil, List.foldl_cons, List.foldl_nil, pairSpeedV, v4, v1, vd, stdMax_nan_left, Breakdown.stdMax_nan, stdMax_num, max_self]
    rw [max_eq_right (by linarith)]
  · simp only [coefV, Val.maxRed, List.map_cons, List.map_nil, List.foldl_cons, List.foldl_nil, pairSpeedV, v4, v1, vd, Breakdown.stdMax_nan, stdMax_num, max_self]
    rw [max_eq_right (show lo ≤ 2 by linarith), max_eq_left (by norm_num)]
  · rw [C153_balance]
    congr 1
    norm_num

/-! ### The star step of sw2d -/

/-- The depth that the star step leaves on the side with bed depth `H` and depth `h` next to a side with bed depth `H'`: water above the higher of the two beds. -/
noncomputable def above (H H' h : ℝ) : ℝ := h - H - max (-H') (-H)

theorem star_depth (HM HP h : ℝ) : Val.stdMax (num 0) (Val.sub (num h + num (-HM)) (Val.stdMax (num (-HP)) (num (-HM)))) = num (max 0 (above HM HP h)) := by
  rw [stdMax_num, Val.num_add, sub_num, stdMax_num]
  congr 2

theorem star_depth' (HM HP h : ℝ) : Val.stdMax (num 0) (Val.sub (num h + num (-HP)) (Val.stdMax (num (-HP)) (num (-HM)))) = num (max 0 (above HP HM h)) := by
  rw [stdMax_num, Val.num_add, sub_num, stdMax_num]
  unfold above
  rw [max_comm (-HM)]
  congr 2

/-- `0*(a/0)` is NaN for every number `a`. -/
theorem zero_mul_div (a : ℝ) : num 0 * (num a / num 0) = nan := by
  by_cases h : a = 0
  · rw [show num a / num 0 = nan from ?_, Val.mul_nan]
    change Val.div _ _ = _
    rw [Val.div, if_pos rfl, if_pos h]
  · obtain ⟨s, e⟩ : ∃ s, num a / num 0 = inf s := by
      change ∃ s, Val.div _ _ = _
      rw [Val.div, if_pos rfl, if_neg h]
      exact ⟨_, rfl⟩
    rw [e]
    change Val.mul _ _ = _
    simp [Val.mul]

theorem mul_div_num {h : ℝ} (hh : 0 < h) (a : ℝ) : num h * (num a / num h) = num a := by
  rw [Val.num_div _ hh.ne', Val.num_mul, mul_div_cancel₀ _ hh.ne']

/-- **C153, star step with water on both sides**: the momenta are unchanged, the depths are those above the higher bed. -/
theorem C153_star_wet (HM HP : ℝ) (m p : State) (hm : 0 < above HM HP m.h) (hp : 0 < above HP HM p.h) :
    starPairV HM HP m.toV p.toV = (⟨num (above HM HP m.h), num m.hu, num m.hv⟩, ⟨num (above HP HM p.h), num p.hu, num p.hv⟩) := by
  simp only [starPairV, State.toV, star_depth, star_depth']
  rw [max_eq_right hm.le, max_eq_right hp.le, mul_div_num hm, mul_div_num hm, mul_div_num hp, mul_div_num hp]

/-- **C153, star step at a dry side.** If on either side no water stands above the higher bed, the jump of the depth equation at that node is NaN, whatever the momenta (even at rest) and the coefficient. -/
theorem C153_star_dry (HM HP : ℝ) (m p : State) (h : above HM HP m.h ≤ 0 ∨ above HP HM p.h ≤ 0) (nx ny : ℝ) (lam : Val) :
    jumpFlux1V nx ny lam (starPairV HM HP m.toV p.toV).1 (starPairV HM HP m.toV p.toV).2 = nan := by
  have key : Val.sub (starPairV HM HP m.toV p.toV).1.hu (starPairV HM HP m.toV p.toV).2.hu = nan := by
    simp only [starPairV, State.toV, star_depth, star_depth']
    rcases h with h | h
    · rw [max_eq_left h, zero_mul_div]
      exact Val.nan_add _
    · rw [max_eq_left h, zero_mul_div]
      unfold Val.sub
      rw [Val.mul_nan]
      exact Val.add_nan _
  unfold jumpFlux1V
  rw [key, Val.nan_mul, Val.nan_add, show ∀ v, Val.sub nan v = nan from fun v => Val.nan_add _, Val.mul_nan]

/-- A sum with a NaN in it. -/
theorem surfaceV_nan (n : ℕ) (lift fs : ℕ → ℝ) (d : ℕ → Val) (c : ℕ) (hc : c < n) (h : d c = nan) : surfaceV n lift fs d = nan :=
  Breakdown.sum_of_nan _ _ (List.mem_map.2 ⟨c, List.mem_range.2 hc, by rw [h, Val.mul_nan, Val.mul_nan]⟩)

/-- **C153, one dry face node ends the run of sw2d.** If at a face node `c` of an element no water stands above the higher bed on either side, the rate of the depth is NaN at every node of the element
(`lift j` being the row of the lift for node `j`, `vol` the volume terms); the pass, if it is not stopped by the test before it, leaves NaN at every node of the element, and the next pass stops the run. -/
theorem C153_dry_ends (lo : ℝ) (hlo : lo < -1e8) (nodes : ℕ) (H : ℕ → ℝ) (rate : ℕ → Breakdown.Field → Val × Breakdown.Field × Breakdown.Field) (h h' : Breakdown.Field) (elem : ℕ → Prop)
    (n : ℕ) (lift : ℕ → ℕ → ℝ) (fs : ℕ → ℝ) (vol : ℕ → Val) (nx ny HM HP : ℕ → ℝ) (m p : ℕ → State) (lam : Val)
    (hr : ∀ j, elem j → (rate 0 h).2.1 j = vol j + surfaceV n (lift j) fs fun c => jumpFlux1V (nx c) (ny c) lam (starPairV (HM c) (HP c) (m c).toV (p c).toV).1 (starPairV (HM c) (HP c) (m c).toV (p c).toV).2)
    (c : ℕ) (hc : c < n) (hd : above (HM c) (HP c) (m c).h ≤ 0 ∨ above (HP c) (HM c) (p c).h ≤ 0)
    (hp : passFull lo nodes (fun j => num (H j)) (rate 0) h = some h') :
    (∀ j, elem j → h' j = nan) ∧ ((∃ j < nodes, elem j) → passFull lo nodes (fun j => num (H j)) (rate 1) h' = none) := by
  have hn : ∀ j, elem j → h' j = nan := by
    intro j hj
    unfold passFull at hp
    simp only at hp
    split_ifs at hp
    cases hp
    simp only
    rw [hr j hj, surfaceV_nan n _ _ _ c hc (C153_star_dry _ _ _ _ hd _ _ _)]
    simp only [Val.add_nan, Val.mul_nan, Val.nan_add]
  refine ⟨hn, fun ⟨j, hj, he⟩ => ?_⟩
  exact (C152_full_pass lo hlo nodes (by omega) H (rate 1) h').2 ⟨j, hj, .inl (hn j he)⟩

/-- An element of three nodes at rest next to a bank: bed depth 1 and water 1 deep inside, the bed outside 3 higher.  The pass leaves NaN at all three nodes, and the next one stops the run. -/
example (lo : ℝ) (hlo : lo < -1e8) :
    ∃ (rate : ℕ → Breakdown.Field → Val × Breakdown.Field × Breakdown.Field) (h h' : Breakdown.Field), (∀ j, h j = num 1) ∧ passFull lo 3 (fun _ => num 1) (rate 0) h = some h' ∧ (∀ j < 3, h' j = nan) ∧
      passFull lo 3 (fun _ => num 1) (rate 1) h' = none := by
  let d : ℕ → Val := fun _ => jumpFlux1V 1 0 (num 1) (starPairV 1 (-2) (State.toV ⟨1, 0, 0⟩) (State.toV ⟨0, 0, 0⟩)).1 (starPairV 1 (-2) (State.toV ⟨1, 0, 0⟩) (State.toV ⟨0, 0, 0⟩)).2
  let rate : ℕ → Breakdown.Field → Val × Breakdown.Field × Breakdown.Field := fun _ _ => (num 1, fun _ => num 0 + surfaceV 3 (fun _ => 1) (fun _ => 1) d, fun _ => num 0)
  cases hp : passFull lo 3 (fun _ => num 1) (rate 0) (fun _ => num 1) with
  | none =>
    obtain ⟨j, -, h | ⟨s, h⟩ | ⟨a, h, hb⟩⟩ := (C152_full_pass lo hlo 3 (by norm_num) (fun _ => 1) (rate 0) (fun _ => num 1)).1 hp
    · exact nomatch h
    · exact nomatch h
    · cases h
      norm_num at hb
  | some h' =>
    obtain ⟨h1, h2⟩ := C153_dry_ends lo hlo 3 (fun _ => 1) rate (fun _ => num 1) h' (fun _ => True) 3 (fun _ _ => 1) (fun _ => 1) (fun _ => num 0) (fun _ => 1) (fun _ => 0) (fun _ => 1) (fun _ => -2)
      (fun _ => ⟨1, 0, 0⟩) (fun _ => ⟨0, 0, 0⟩) (num 1) (fun _ _ => rfl) 0 (by norm_num) (.inl (by norm_num [above])) hp
    exact ⟨rate, _, h', fun _ => rfl, hp, fun j _ => h1 j trivial, h2 ⟨0, by norm_num, trivial⟩⟩

/-! ### The time step -/

/-- **C153, the time step.** Nodes without positive depth are passed over; if no face node has positive depth the step is negative and the clock runs backwards. -/
theorem C153_step (lo CFL g : ℝ) (hlo : lo < 0) (hC : 0 < CFL) (hg : 0 < g) (N : ℕ) (l : List (ℝ × State)) (hl : ∀ x ∈ l, 0 < x.1 ∧ (0 < x.2.h ∨ DryState x.2)) :
    ((∃ x ∈ l, 0 < x.2.h) → ∃ a, IsGreatest {s | ∃ x ∈ l, 0 < x.2.h ∧ s = x.1 * speed g x.2} a ∧ 0 < a ∧ stepV lo CFL N g (l.map fun x => (x.1, x.2.toV)) = num (CFL / ((N + 1) ^ 2 / 2 * a))) ∧
    ((∀ x ∈ l, ¬ 0 < x.2.h) → ∃ dt < 0, stepV lo CFL N g (l.map fun x => (x.1, x.2.toV)) = num dt) := by
  have A : ∀ s ∈ {s | ∃ x ∈ l, 0 < x.2.h ∧ s = x.1 * speed g x.2}, lo < s := by
    rintro s ⟨x, hx, hw, rfl⟩
    exact hlo.trans (mul_pos (hl x hx).1 (speed_pos hg hw))
  have B : ∀ v ∈ (l.map fun x => (x.1, x.2.toV)).map (fun x => num x.1 * speedV g x.2), v = nan ∨ ∃ s ∈ {s | ∃ x ∈ l, 0 < x.2.h ∧ s = x.1 * speed g x.2}, v = num s := by
    intro v hv
    simp only [List.map_map, List.mem_map, Function.comp] at hv
    obtain ⟨x, hx, rfl⟩ := hv
    rcases (hl x hx).2 with hw | hd
    · right
      rw [speedV_wet hg.le hw]
      exact ⟨_, ⟨x, hx, hw, rfl⟩, rfl⟩
    · left
      rw [speedV_dry hg hd, Val.mul_nan]
  have C : ∀ s ∈ {s | ∃ x ∈ l, 0 < x.2.h ∧ s = x.1 * speed g x.2}, ∃ t ∈ {s | ∃ x ∈ l, 0 < x.2.h ∧ s = x.1 * speed g x.2}, s ≤ t ∧ num t ∈ (l.map fun x => (x.1, x.2.toV)).map (fun x => num x.1 * speedV g x.2) := by
    rintro s ⟨x, hx, hw, rfl⟩
    refine ⟨_, ⟨x, hx, hw, rfl⟩, le_refl _, List.mem_map.2 ⟨_, List.mem_map.2 ⟨x, hx, rfl⟩, ?_⟩⟩
    simp only [speedV_wet hg.le hw]
    rfl
  obtain ⟨a, b⟩ := maxRed_numbers lo _ _ A B C
  have hN : (0 : ℝ) < (N + 1) * (N + 1) * 0.5 := by positivity
  constructor
  · rintro ⟨x, hx, hw⟩
    obtain ⟨lam, e, hgr⟩ := b ⟨_, x, hx, hw, rfl⟩
    have hpos : 0 < lam := lt_of_lt_of_le (mul_pos (hl x hx).1 (speed_pos hg hw)) (hgr.2 ⟨x, hx, hw, rfl⟩)
    refine ⟨lam, hgr, hpos, ?_⟩
    unfold stepV
    rw [e, Val.num_mul, Val.num_div _ (mul_pos hN hpos).ne']
    congr 2
    ring
  · intro h
    have e := a (by
      ext s
      simp only [Set.mem_ofPred_eq, Set.mem_empty_iff_false, iff_false]
      rintro ⟨x, hx, hw, -⟩
      exact h x hx hw)
    have hneg := mul_neg_of_pos_of_neg hN hlo
    refine ⟨_, div_neg_of_pos_of_neg hC hneg, ?_⟩
    unfold stepV
    rw [e, Val.num_mul, Val.num_div _ hneg.ne]

/-! ### The Python programs -/

theorem npMax_nan (l : List Val) (h : nan ∈ l) : Val.npMax l = nan := by
  have key : ∀ (l : List Val) (m : Val), (m = nan ∨ nan ∈ l) → l.foldl (fun m v => open Classical in if m = nan ∨ v = nan then nan else if Val.lt m v then v else m) m = nan := by
    intro l
    induction l with
    | nil => exact fun m h => h.resolve_right (by simp)
    | cons v l ih =>
      intro m h
      rw [List.foldl_cons]
      rcases h with rfl | h
      · exact ih _ (.inl (if_pos (.inl rfl)))
      · rcases List.mem_cons.1 h with rfl | h
        · exact ih _ (.inl (if_pos (.inr rfl)))
        · exact ih _ (.inr h)
  cases l with
  | nil => rfl
  | cons v l =>
    rcases List.mem_cons.1 h with h | h
    · exact key l v (.inl h.symm)
    · exact key l v (.inr h)

/-- A depth of NaN gives a speed of NaN. -/
theorem speedV_nan (g : ℝ) (q : StateV) (h : q.h = nan) : speedV g q = nan := by
  simp only [speedV, h, Val.mul_nan]
  exact Val.add_nan _

/-- **C153, coefficient of the Python programs.** One state on either side of the face whose speed is NaN makes it NaN for the whole face, from both sides, and with it the jumps of the depth at all nodes of the face. -/
theorem C153_python_coefficient (g : ℝ) (l : List (StateV × StateV)) (h : ∃ x ∈ l, speedV g x.1 = nan ∨ speedV g x.2 = nan) :
    coefPyV g l = nan ∧ coefPyV g (l.map Prod.swap) = nan ∧ ∀ nx ny m p, jumpFlux1V nx ny (coefPyV g l) m p = nan := by
  obtain ⟨x, hx, hn⟩ := h
  have a : coefPyV g l = nan := npMax_nan _ (List.mem_map.2 ⟨x, hx, npMax_nan _ (by rcases hn with e | e <;> simp [e])⟩)
  refine ⟨a, npMax_nan _ (List.mem_map.2 ⟨x.swap, List.mem_map.2 ⟨x, hx, rfl⟩, npMax_nan _ (by rcases hn with e | e <;> simp [e])⟩), fun nx ny m p => ?_⟩
  rw [a]
  unfold jumpFlux1V
  rw [Val.nan_mul, show ∀ v, Val.sub v nan = nan from fun v => by unfold Val.sub; rw [Val.mul_nan, Val.add_nan], Val.mul_nan]

theorem rateV_nan (np n : ℕ) (filt : ℕ → ℝ) (vol : ℕ → Val) (lift : ℕ → ℕ → ℝ) (fs : ℕ → ℝ) (d : ℕ → Val) (hnp : 0 < np) (c : ℕ) (hc : c < n) (h : d c = nan) : rateV np n filt vol lift fs d = nan :=
  Breakdown.sum_of_nan _ _ (List.mem_map.2 ⟨0, List.mem_range.2 hnp, by rw [surfaceV_nan n _ _ _ c hc h, Val.add_nan, Val.mul_nan]⟩)

/-- One evaluation of the rate of the depth on one element of a Python program: `m`, `p` are the states at the face nodes, and node `c` lies on the face with the state pairs `face c`. -/
structure ElemRate (g : ℝ) (elem : ℕ → Prop) (m p : ℕ → StateV) (face : ℕ → List (StateV × StateV)) (n : ℕ) (r : Breakdown.Field) : Prop where
  /-- The pairs of a face are those of its nodes. -/
  faces : ∀ c < n, (m c, p c) ∈ face c
  /-- The rate is the filtered one with the jumps of the face nodes. -/
  rate : ∀ j, elem j → ∃ np filt vol lift fs, ∃ nx ny : ℕ → ℝ, 0 < np ∧ r j = rateV np n filt vol lift fs fun c => jumpFlux1V (nx c) (ny c) (coefPyV g (face c)) (m c) (p c)

/-- **C153, a dry face node ends the run of sw2d.py in the same pass.** If the state at a face node, on either side, has no positive depth, both evaluations of the rate are NaN on the whole element - in the second one the
depth at the face nodes is that of the predictor at a node of the element - and the pass raises the exception. -/
theorem C153_python_ends (g : ℝ) (hg : 0 < g) (nodes : ℕ) (dt : ℝ) (rate : ℕ → Breakdown.Field → Breakdown.Field) (h : Breakdown.Field) (elem : ℕ → Prop) (n : ℕ)
    (m p : ℕ → State) (face : ℕ → List (StateV × StateV)) (h1 : ElemRate g elem (fun c => (m c).toV) (fun c => (p c).toV) face n (rate 0 h))
    (m' p' : ℕ → StateV) (face' : ℕ → List (StateV × StateV)) (h2 : ElemRate g elem m' p' face' n (rate 1 fun j => h j + num 0.5 * num dt * rate 0 h j))
    (node : ℕ → ℕ) (hnode : ∀ c < n, elem (node c)) (hm' : ∀ c < n, (m' c).h = h (node c) + num 0.5 * num dt * rate 0 h (node c))
    (c : ℕ) (hc : c < n) (hd : DryState (m c) ∨ DryState (p c)) (j : ℕ) (hj : j < nodes) (he : elem j) : predictPy nodes dt rate h = none := by
  have a : ∀ i, elem i → rate 0 h i = nan := by
    intro i hi
    obtain ⟨np, filt, vol, lift, fs, nx, ny, hnp, e⟩ := h1.rate i hi
    rw [e]
    exact rateV_nan _ _ _ _ _ _ _ hnp c hc ((C153_python_coefficient g _ ⟨_, h1.faces c hc, hd.imp (speedV_dry hg) (speedV_dry hg)⟩).2.2 _ _ _ _)
  have b : ∀ i, elem i → rate 1 (fun j => h j + num 0.5 * num dt * rate 0 h j) i = nan := by
    intro i hi
    obtain ⟨np, filt, vol, lift, fs, nx, ny, hnp, e⟩ := h2.rate i hi
    rw [e]
    refine rateV_nan _ _ _ _ _ _ _ hnp c hc ((C153_python_coefficient g _ ⟨_, h2.faces c hc, .inl (speedV_nan g _ ?_)⟩).2.2 _ _ _ _)
    simp only
    rw [hm' c hc, a _ (hnode c hc), Val.mul_nan, Val.add_nan]
  unfold predictPy
  cases hp : Breakdown.passPy nodes (fun _ => (num dt, rate 1 fun j => h j + num 0.5 * num dt * rate 0 h j)) h with
  | none => rfl
  | some h' =>
    have q := Breakdown.C152_python_pass nodes (by omega) _ h h' hp j hj
    unfold Breakdown.passPy at hp
    simp only at hp
    split_ifs at hp
    cases hp
    obtain ⟨x, hx, -⟩ := q
    simp only [b j he, Val.mul_nan, Val.add_nan] at hx
    exact nomatch hx

/-- One node, one face with a dry outer state. -/
example (h : Breakdown.Field) : predictPy 1 1 (fun _ _ _ => rateV 1 1 (fun _ => 1) (fun _ => num 0) (fun _ _ => 1) (fun _ => 1) fun _ => jumpFlux1V 1 0 (coefPyV 1 [(State.toV ⟨1, 0, 0⟩, State.toV ⟨-1, 0, 0⟩)]) (State.toV ⟨1, 0, 0⟩) (State.toV ⟨-1, 0, 0⟩)) h = none := by
  have d : DryState ⟨-1, 0, 0⟩ := .inl (by norm_num)
  refine C153_python_ends 1 (by norm_num) 1 1 _ h (fun j => j = 0) 1 (fun _ => ⟨1, 0, 0⟩) (fun _ => ⟨-1, 0, 0⟩) (fun _ => [(State.toV ⟨1, 0, 0⟩, State.toV ⟨-1, 0, 0⟩)])
    ⟨fun _ _ => by simp, fun _ _ => ⟨1, _, _, _, _, fun _ => 1, fun _ => 0, by norm_num, rfl⟩⟩
    (fun _ => ⟨nan, num 0, num 0⟩) (fun _ => State.toV ⟨-1, 0, 0⟩) (fun _ => [(⟨nan, num 0, num 0⟩, State.toV ⟨-1, 0, 0⟩)])
    ⟨fun _ _ => by simp, fun _ _ => ⟨1, fun _ => 1, fun _ => num 0, fun _ _ => 1, fun _ => 1, fun _ => 1, fun _ => 0, by norm_num, ?_⟩⟩ (fun _ => 0) (fun _ _ => rfl) ?_ 0 (by norm_num) (.inr d) 0 (by norm_num) rfl
  · have z' := (C153_python_coefficient 1 [((⟨nan, num 0, num 0⟩ : StateV), State.toV ⟨-1, 0, 0⟩)] ⟨_, List.mem_singleton.2 rfl, .inl (speedV_nan _ _ rfl)⟩).2.2
    rw [rateV_nan _ _ _ _ _ _ _ (by norm_num) 0 (by norm_num), rateV_nan _ _ _ _ _ _ _ (by norm_num) 0 (by norm_num)]
    · exact z' _ _ _ _
    · exact (C153_python_coefficient 1 [(State.toV ⟨1, 0, 0⟩, State.toV ⟨-1, 0, 0⟩)] ⟨_, List.mem_singleton.2 rfl, .inr (speedV_dry one_pos d)⟩).2.2 _ _ _ _
  · intro c hc
    rw [rateV_nan _ _ _ _ _ _ _ (by norm_num) 0 (by norm_num), Val.mul_nan, Val.add_nan]
    exact (C153_python_coefficient 1 [(State.toV ⟨1, 0, 0⟩, State.toV ⟨-1, 0, 0⟩)] ⟨_, List.mem_singleton.2 rfl, .inr (speedV_dry one_pos d)⟩).2.2 _ _ _ _

end Blitzdg.SW
