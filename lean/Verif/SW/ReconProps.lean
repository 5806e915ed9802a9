import Verif.SW.Recon
import Mathlib.Data.List.GetD
import Mathlib.Tactic.Linarith
import Mathlib.Tactic.NormNum

/-!
C126: the depths reconstructed at faces by swhelpers/limiters.py.
-/

namespace Blitzdg.SW

theorem ent_map (n : ℕ) (f : ℕ → ℝ) {i : ℕ} (hi : i < n) : ent ((List.range n).map f) i = f i := by
  unfold ent
  rw [List.getD_eq_getElem _ _ (by simpa using hi)]
  simp

theorem len_rangeMap (n : ℕ) (f : ℕ → ℝ) : ((List.range n).map f).length = n := by simp

/-- By how much the outer surface is raised: where bed and surface both fall towards the outside, by twice the step of the bed or up to the inner surface, whichever is less. -/
noncomputable def rise (etaM hM etaP hP : ℝ) : ℝ := max 0 (min (2 * ((etaM - hM) - (etaP - hP))) (etaM - etaP))

theorem minmod_down {d : ℝ} (h : d ≤ 0) : minmod d 1e-3 = 0 := by
  unfold minmod
  have : ¬ d * 1e-3 > 0 := by linarith
  rw [if_neg fun h => this h.2, if_neg fun h => this h.2]

theorem minmod_up {d : ℝ} (h : 0 ≤ d) : minmod d (-1 * 1e-3) = 0 := by
  unfold minmod
  have : ¬ d * (-1 * 1e-3) > 0 := by linarith
  rw [if_neg fun h => this h.2, if_neg fun h => this h.2]

theorem minmod_le {d : ℝ} (h : 0 < d) : minmod d 1e-3 ≤ d := by
  unfold minmod
  split_ifs with h1 h2
  · exact le_refl _
  · linarith [h2.1]
  · exact h.le

theorem minmod_nonneg {d : ℝ} (h : 0 < d) : 0 ≤ minmod d 1e-3 := by
  unfold minmod
  split_ifs with h1 h2
  · exact h.le
  · norm_num
  · exact le_refl _

theorem minmod_nonpos {d : ℝ} (h : d < 0) : minmod d (-1 * 1e-3) ≤ 0 := by
  unfold minmod
  split_ifs with h1 h2
  · exact h.le
  · norm_num
  · exact le_refl _

/-- The correction before it is limited: twice the step where the bed falls towards the outside, negative where it rises. -/
theorem corr_value (zM zP : ℝ) :
    let c := zM - zP - ((zP - 0.5 * minmod (zP - zM) 1e-3) - (zM + 0.5 * minmod (zM - zP) (-1 * 1e-3)))
    (zP ≤ zM → c = 2 * (zM - zP)) ∧ (zM < zP → c ≤ 0) := by
  intro c
  constructor
  · intro h
    show zM - zP - _ = _
    rw [minmod_down (by linarith), minmod_up (by linarith)]
    norm_num
    ring
  · intro h
    have h1 := minmod_le (d := zP - zM) (by linarith)
    have h2 := minmod_nonpos (d := zM - zP) (by linarith)
    show zM - zP - ((zP - 0.5 * minmod (zP - zM) 1e-3) - (zM + 0.5 * minmod (zM - zP) (-1 * 1e-3))) ≤ 0
    linarith

theorem limited {c d e s : ℝ} (h1 : 0 ≤ s → c = 2 * s) (h2 : s < 0 → c ≤ 0) :
    (if (if c > d then d else c) ≤ 0 then e else e + (if c > d then d else c)) = e + max 0 (min (2 * s) d) := by
  have hm : (if c > d then d else c) = min c d := by
    split_ifs with h
    · exact (min_eq_right h.le).symm
    · exact (min_eq_left (not_lt.1 h)).symm
  rw [hm]
  rcases le_or_gt 0 s with h | h
  · rw [h1 h]
    split_ifs with h0
    · rw [max_eq_left h0, add_zero]
    · rw [max_eq_right (not_le.1 h0).le]
  · have : min c d ≤ 0 := (min_le_left _ _).trans (h2 h)
    rw [if_pos this, max_eq_left ((min_le_left _ _).trans (by linarith)), add_zero]

theorem subA_ok {a b : List ℝ} (h : a.length = b.length) : subA a b = .ok ((List.range a.length).map fun i => ent a i - ent b i) := if_pos h

/-- **C126, what the call does.** For arrays of equal length it returns arrays of that length; entry by entry the outer surface is raised as said above, in the caller's own array, the bed of a face is the higher of the inner bed and the
bed `etaP - hP` of the raised surface, and the depths are those above it, at least `1e-3`. -/
theorem C126_values (etaM hM etaP hP : List ℝ) (h1 : hM.length = etaM.length) (h2 : etaP.length = etaM.length) (h3 : hP.length = etaM.length) :
    ∃ R, surfaceReconstruction etaM hM etaP hP = .ok R ∧ R.hM.length = etaM.length ∧ R.hP.length = etaM.length ∧ R.etaP.length = etaM.length ∧ ∀ i < etaM.length,
      let up := rise (ent etaM i) (ent hM i) (ent etaP i) (ent hP i)
      let bed := max (ent etaM i - ent hM i) (ent etaP i + up - ent hP i)
      ent R.etaP i = ent etaP i + up ∧ ent R.hM i = max 1e-3 (ent etaM i - bed) ∧ ent R.hP i = max 1e-3 (ent etaP i + up - bed) := by
  unfold surfaceReconstruction
  rw [subA_ok h1.symm, Out.bind_ok, subA_ok (h2.trans h3.symm), Out.bind_ok, subA_ok (by simp [h2]), Out.bind_ok, subA_ok (by simp [h2]), Out.bind_ok]
  unfold minmodA
  rw [if_pos (by simp [h2]), Out.bind_ok, if_pos (by simp), Out.bind_ok]
  simp only [len_rangeMap, h2]
  rw [subA_ok (by simp [h3]), Out.bind_ok, subA_ok (by simp), Out.bind_ok, subA_ok (by simp), Out.bind_ok]
  refine ⟨_, rfl, by simp [floorA], by simp [floorA], by simp, fun i hi => ?_⟩
  have hfl : ∀ f : ℕ → ℝ, ent (floorA ((List.range etaM.length).map f)) i = max 1e-3 (f i) := by
    intro f
    unfold floorA ent
    rw [List.getD_eq_getElem _ _ (by simpa using hi)]
    simp only [List.getElem_map, List.getElem_range]
    split_ifs with h
    · exact (max_eq_left h).symm
    · exact (max_eq_right (not_le.1 h).le).symm
  have hr1 : ent (List.replicate etaM.length (1e-3 : ℝ)) i = 1e-3 := by unfold ent; rw [List.getD_eq_getElem _ _ (by simpa using hi)]; simp
  have hr2 : ent (List.replicate etaM.length (-1 * 1e-3 : ℝ)) i = -1 * 1e-3 := by unfold ent; rw [List.getD_eq_getElem _ _ (by simpa using hi)]; simp
  simp only [len_rangeMap, hfl, ent_map _ _ hi, corrStep, hr1, hr2]
  have hcv := corr_value (ent etaM i - ent hM i) (ent etaP i - ent hP i)
  have hlim := limited (d := ent etaM i - ent etaP i) (e := ent etaP i) (s := (ent etaM i - ent hM i) - (ent etaP i - ent hP i)) (fun h => hcv.1 (by linarith)) (fun h => hcv.2 (by linarith))
  rw [hlim]
  have hmax : ∀ a b : ℝ, (if a > b then a else b) = max b a := by
    intro a b
    split_ifs with h
    · exact (max_eq_right h.le).symm
    · exact (max_eq_left (not_lt.1 h)).symm
  rw [hmax]
  exact ⟨rfl, rfl, rfl⟩

/-- **C126, bounds.** Whatever the fields, the depths returned are at least `1e-3` and never more than the depths passed in (or `1e-3`); the outer surface is never lowered and never raised beyond the inner one. -/
theorem C126_bounds (etaM hM etaP hP : List ℝ) (h1 : hM.length = etaM.length) (h2 : etaP.length = etaM.length) (h3 : hP.length = etaM.length) :
    ∃ R, surfaceReconstruction etaM hM etaP hP = .ok R ∧ ∀ i < etaM.length,
      1e-3 ≤ ent R.hM i ∧ ent R.hM i ≤ max 1e-3 (ent hM i) ∧ 1e-3 ≤ ent R.hP i ∧ ent R.hP i ≤ max 1e-3 (ent hP i) ∧ ent etaP i ≤ ent R.etaP i ∧ ent R.etaP i ≤ max (ent etaP i) (ent etaM i) := by
  obtain ⟨R, hR, -, -, -, h⟩ := C126_values etaM hM etaP hP h1 h2 h3
  refine ⟨R, hR, fun i hi => ?_⟩
  obtain ⟨e1, e2, e3⟩ := h i hi
  rw [e1, e2, e3]
  refine ⟨le_max_left _ _, max_le_max_left _ ?_, le_max_left _ _, max_le_max_left _ ?_, ?_, ?_⟩
  · linarith [le_max_left (ent etaM i - ent hM i) (ent etaP i + rise (ent etaM i) (ent hM i) (ent etaP i) (ent hP i) - ent hP i)]
  · linarith [le_max_right (ent etaM i - ent hM i) (ent etaP i + rise (ent etaM i) (ent hM i) (ent etaP i) (ent hP i) - ent hP i)]
  · have h0 : 0 ≤ rise (ent etaM i) (ent hM i) (ent etaP i) (ent hP i) := le_max_left _ _
    linarith
  · unfold rise
    rcases le_total 0 (min (2 * ((ent etaM i - ent hM i) - (ent etaP i - ent hP i))) (ent etaM i - ent etaP i)) with h0 | h0
    · rw [max_eq_right h0]
      refine le_trans ?_ (le_max_right _ _)
      linarith [min_le_right (2 * ((ent etaM i - ent hM i) - (ent etaP i - ent hP i))) (ent etaM i - ent etaP i)]
    · rw [max_eq_left h0, add_zero]
      exact le_max_left _ _

/-- **C126, still water.** Where the surfaces on both sides agree, the two depths returned agree, whatever the bed does: both are the smaller of the two depths passed in (at least `1e-3`), and the surface is left alone. -/
theorem C126_rest (etaM hM etaP hP : List ℝ) (h1 : hM.length = etaM.length) (h2 : etaP.length = etaM.length) (h3 : hP.length = etaM.length) :
    ∃ R, surfaceReconstruction etaM hM etaP hP = .ok R ∧ ∀ i < etaM.length, ent etaP i = ent etaM i →
      ent R.hM i = max 1e-3 (min (ent hM i) (ent hP i)) ∧ ent R.hP i = max 1e-3 (min (ent hM i) (ent hP i)) ∧ ent R.etaP i = ent etaP i := by
  obtain ⟨R, hR, -, -, -, h⟩ := C126_values etaM hM etaP hP h1 h2 h3
  refine ⟨R, hR, fun i hi he => ?_⟩
  obtain ⟨e1, e2, e3⟩ := h i hi
  have hr : rise (ent etaM i) (ent hM i) (ent etaP i) (ent hP i) = 0 := by
    unfold rise
    rw [he, sub_self]
    exact max_eq_left (min_le_right _ _)
  have hb : ent etaM i - max (ent etaM i - ent hM i) (ent etaM i + 0 - ent hP i) = min (ent hM i) (ent hP i) := by
    rw [add_zero]
    rcases le_total (ent hM i) (ent hP i) with h | h
    · rw [max_eq_left (by linarith), min_eq_left h]; ring
    · rw [max_eq_right (by linarith), min_eq_right h]; ring
  rw [e1, e2, e3, hr, he, hb]
  exact ⟨rfl, by rw [← hb, add_zero], add_zero _⟩

/-- **C126, continuous bed.** Where the bed is the same on both sides, depths of at least `1e-3` come back as they were, and the surface is left alone. -/
theorem C126_flat (etaM hM etaP hP : List ℝ) (h1 : hM.length = etaM.length) (h2 : etaP.length = etaM.length) (h3 : hP.length = etaM.length) :
    ∃ R, surfaceReconstruction etaM hM etaP hP = .ok R ∧ ∀ i < etaM.length, ent etaP i - ent hP i = ent etaM i - ent hM i →
      ent R.hM i = max 1e-3 (ent hM i) ∧ ent R.hP i = max 1e-3 (ent hP i) ∧ ent R.etaP i = ent etaP i := by
  obtain ⟨R, hR, -, -, -, h⟩ := C126_values etaM hM etaP hP h1 h2 h3
  refine ⟨R, hR, fun i hi he => ?_⟩
  obtain ⟨e1, e2, e3⟩ := h i hi
  have hr : rise (ent etaM i) (ent hM i) (ent etaP i) (ent hP i) = 0 := by
    unfold rise
    rw [he, sub_self, mul_zero]
    exact max_eq_left (min_le_left _ _)
  rw [e1, e2, e3, hr, add_zero, ← he, max_self]
  refine ⟨by rw [he]; congr 1; ring, by congr 1; ring, rfl⟩

/-- **C126, lengths.** Arrays of different lengths raise. -/
theorem C126_lengths (etaM hM etaP hP : List ℝ) (h : hM.length ≠ etaM.length ∨ hP.length ≠ etaP.length ∨ etaP.length ≠ etaM.length) : surfaceReconstruction etaM hM etaP hP = .throws := by
  unfold surfaceReconstruction
  by_cases h1 : etaM.length = hM.length
  · rw [subA_ok h1, Out.bind_ok]
    by_cases h2 : etaP.length = hP.length
    · rw [subA_ok h2, Out.bind_ok]
      have h3 : etaP.length ≠ etaM.length := by
        rcases h with h | h | h
        · exact absurd h1.symm h
        · exact absurd h2.symm h
        · exact h
      have : ∀ f g : ℕ → ℝ, subA ((List.range etaP.length).map f) ((List.range etaM.length).map g) = .throws := fun f g => if_neg (by simpa using h3)
      rw [this]
      rfl
    · have : subA etaP hP = .throws := if_neg h2
      rw [this]
      rfl
  · have : subA etaM hM = .throws := if_neg h1
    rw [this]
    rfl

/-- **C126, refuted: the arguments are left alone.** With both beds falling and the inner surface one higher the call overwrites the caller's outer surface by the inner one. -/
theorem C126_argument_refuted : ∃ etaM hM etaP hP R, etaM.length = 1 ∧ hM.length = 1 ∧ etaP.length = 1 ∧ hP.length = 1 ∧ surfaceReconstruction etaM hM etaP hP = .ok R ∧ R.etaP ≠ etaP ∧ R.etaP = etaM := by
  obtain ⟨R, hR, -, -, hl, h⟩ := C126_values [2] [1] [1] [1] rfl rfl rfl
  obtain ⟨e1, -, -⟩ := h 0 (by norm_num)
  have : ent R.etaP 0 = 2 := by
    rw [e1]
    norm_num [ent, rise]
  refine ⟨[2], [1], [1], [1], R, rfl, rfl, rfl, rfl, hR, ?_⟩
  have hR1 : R.etaP = [2] := by
    match hq : R.etaP, hl with
    | [a], _ =>
      rw [hq] at this
      have : a = 2 := this
      rw [this]
  rw [hR1]
  norm_num

/-- **C126, refuted: one depth per side of a face.** The two elements at a face call with their roles exchanged; for a step in bed and surface one call gives the lower element depth one, the other the minimal depth `1e-3`, so the
depths that enter the fluxes of the two elements differ. -/
theorem C126_sides_refuted : ∃ etaM hM etaP hP R S, etaM.length = 1 ∧ hM.length = 1 ∧ etaP.length = 1 ∧ hP.length = 1 ∧ surfaceReconstruction etaM hM etaP hP = .ok R ∧ surfaceReconstruction etaP hP etaM hM = .ok S ∧
    ent R.hM 0 = ent S.hP 0 ∧ ent R.hP 0 = 1 ∧ ent S.hM 0 = 1e-3 := by
  obtain ⟨R, hR, -, -, -, h⟩ := C126_values [2] [1] [1] [1] rfl rfl rfl
  obtain ⟨S, hS, -, -, -, g⟩ := C126_values [1] [1] [2] [1] rfl rfl rfl
  obtain ⟨-, e2, e3⟩ := h 0 (by norm_num)
  obtain ⟨-, g2, g3⟩ := g 0 (by norm_num)
  refine ⟨[2], [1], [1], [1], R, S, rfl, rfl, rfl, rfl, hR, hS, ?_, ?_, ?_⟩
  · rw [e2, g3]; norm_num [ent, rise]
  · rw [e3]; norm_num [ent, rise]
  · rw [g2]; norm_num [ent, rise]

/-- Still water over a step in the bed: both sides get the smaller depth. -/
example : ∃ R, surfaceReconstruction [5, 5] [2, 3] [5, 5] [4, 1] = .ok R ∧ ent R.hM 0 = 2 ∧ ent R.hP 0 = 2 ∧ ent R.hM 1 = 1 ∧ ent R.hP 1 = 1 := by
  obtain ⟨R, hR, h⟩ := C126_rest [5, 5] [2, 3] [5, 5] [4, 1] rfl rfl rfl
  obtain ⟨a, b, -⟩ := h 0 (by norm_num) rfl
  obtain ⟨c, d, -⟩ := h 1 (by norm_num) rfl
  refine ⟨R, hR, ?_, ?_, ?_, ?_⟩
  · rw [a]; norm_num [ent]
  · rw [b]; norm_num [ent]
  · rw [c]; norm_num [ent]
  · rw [d]; norm_num [ent]

end Blitzdg.SW
