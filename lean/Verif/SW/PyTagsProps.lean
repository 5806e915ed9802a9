import Verif.SW.PyMapsDemo

/-!
C117: correction of the boundary tags.
-/

namespace Blitzdg.SW

open Blitzdg.DG2D

/-! ### Specification -/

/-- Midpoint of a segment, first coordinate. -/
noncomputable def midX (e : (ℝ × ℝ) × (ℝ × ℝ)) : ℝ := (e.1.1 + e.2.1) / 2

/-- The face is at one of the ends of the channel, as the code sees it. -/
def AtEnd (e : (ℝ × ℝ) × (ℝ × ℝ)) : Prop := |midX e| < 1e-6 ∨ |midX e - 8000| < 1e-6

/-- End points of face `e` of a mesh. -/
def Mesh.ends (m : Mesh) (e : ℕ) : (ℝ × ℝ) × (ℝ × ℝ) := faceEnds (m.tri (e / 3)) (e % 3)

/-! ### The loop -/

theorem corner_ok {m : Mesh} {P : ℕ → ℕ} (h : m.Ok P) {e j : ℕ} (he : e < m.K) (hj : j < 3) : cornerX m.ev m.vert e j = .ok (m.corner e j).1 := by
  have h1 : 3 * e + j < m.ev.length := by rw [h.lenEv]; omega
  have h2 := h.ltEv _ (List.getElem_mem h1)
  have h3 : 3 * m.ev[3 * e + j] < m.vert.length := by rw [h.lenVert]; omega
  unfold cornerX Mesh.corner
  rw [List.getElem?_eq_getElem h1]
  simp only
  rw [List.getElem?_eq_getElem h3]
  simp only [List.getD_eq_getElem _ _ h1, List.getD_eq_getElem _ _ h3]

theorem ends_corner (m : Mesh) {c : ℕ} : (m.ends c).1.1 = (m.corner (c / 3) (c % 3)).1 ∧ (m.ends c).2.1 = (m.corner (c / 3) ((c % 3 + 1) % 3)).1 := by
  unfold Mesh.ends
  rcases (by omega : c % 3 = 0 ∨ c % 3 = 1 ∨ c % 3 = 2) with h | h | h <;> simp [h, faceEnds, Mesh.tri]

open Classical in
theorem correctTag_eq (t old : Int) (e : (ℝ × ℝ) × (ℝ × ℝ)) : correctTag t old e.1.1 e.2.1 = if AtEnd e then t else old := by
  have h : (0.5 : ℝ) * (e.1.1 + e.2.1) = midX e := by unfold midX; norm_num; ring
  unfold correctTag AtEnd
  simp only [h, sub_zero]
  by_cases h1 : |midX e| < 1e-6 <;> by_cases h2 : |midX e - 8000| < 1e-6 <;> simp only [h1, h2, if_true, if_false, or_true, true_or, or_self]

open Classical in
theorem tag_loop {m : Mesh} {P : ℕ → ℕ} (h : m.Ok P) (t : Int) (n : ℕ) (hn : n ≤ 3 * m.K) (bc : List Int) (hb : 3 * m.K ≤ bc.length) :
    ∃ bc', loopM (tagStep m.ev m.vert t) bc (List.range n) = .ok bc' ∧ bc'.length = bc.length ∧
      ∀ c, bc'[c]? = if c < n ∧ AtEnd (m.ends c) then some t else bc[c]? := by
  induction n with
  | zero => exact ⟨bc, rfl, rfl, fun c => by simp⟩
  | succ n ih =>
    obtain ⟨bc', h1, h2, h3⟩ := ih (by omega)
    have hlt : n < bc'.length := by omega
    have hstep : tagStep m.ev m.vert t bc' n = .ok (bc'.set n (if AtEnd (m.ends n) then t else bc'[n])) := by
      unfold tagStep
      rw [corner_ok h (by omega) (by omega), corner_ok h (by omega) (by omega), List.getElem?_eq_getElem hlt]
      simp only [Out.bind_ok, Out.pure_eq]
      rw [← correctTag_eq, (ends_corner m).1, (ends_corner m).2]
    refine ⟨_, by rw [List.range_succ, loopM_append, h1, Out.bind_ok, loopM_cons, hstep]; rfl, by simp [h2], fun c => ?_⟩
    by_cases hc : c = n
    · subst hc
      have h4 := h3 c
      rw [if_neg (by omega), List.getElem?_eq_getElem hlt] at h4
      rw [List.getElem?_set_self hlt]
      by_cases ha : AtEnd (m.ends c)
      · rw [if_pos ha, if_pos ⟨by omega, ha⟩]
      · rw [if_neg ha, if_neg (fun h => ha h.2), h4]
    · rw [List.getElem?_set_ne (Ne.symm hc), h3 c]
      congr 1
      exact propext ⟨fun h => ⟨by omega, h.2⟩, fun h => ⟨by omega, h.2⟩⟩

open Classical in
/-- **C117, table.** On every conforming mesh the corrected table has the given tag on each face whose midpoint is within 1e-6 of x = 0 or x = 8000, and is unchanged elsewhere. -/
theorem C117_table {m : Mesh} {P : ℕ → ℕ} (h : m.Ok P) (hb : m.bcType.length = 3 * m.K) (t : Int) :
    ∃ bc, correctTable m.ev m.vert t m.bcType = .ok bc ∧ bc.length = m.bcType.length ∧ ∀ e < 3 * m.K, bc[e]? = if AtEnd (m.ends e) then some t else m.bcType[e]? := by
  obtain ⟨bc, h1, h2, h3⟩ := tag_loop h t (3 * m.K) (le_refl _) m.bcType hb.ge
  refine ⟨bc, ?_, h2, fun e he => ?_⟩
  · unfold correctTable
    rw [hb, Nat.mul_div_cancel_left _ (by norm_num), h1]
  · rw [h3 e]
    simp only [he, true_and]

theorem corner_cases (ev : List ℕ) (vert : List ℝ) (e j : ℕ) : (∃ x, cornerX ev vert e j = .ok x) ∨ cornerX ev vert e j = .throws := by
  unfold cornerX
  rcases ev[3 * e + j]? with _ | v
  · exact Or.inr rfl
  · simp only
    rcases vert[3 * v]? with _ | x
    · exact Or.inr rfl
    · exact Or.inl ⟨x, rfl⟩

theorem tagStep_cases (ev : List ℕ) (vert : List ℝ) (t : Int) (bc : List Int) (c : ℕ) : (∃ bc', tagStep ev vert t bc c = .ok bc') ∨ tagStep ev vert t bc c = .throws := by
  unfold tagStep
  rcases corner_cases ev vert (c / 3) (c % 3) with ⟨x, h1⟩ | h1
  · rcases corner_cases ev vert (c / 3) ((c % 3 + 1) % 3) with ⟨y, h2⟩ | h2
    · simp only [h1, h2, Out.bind_ok]
      rcases bc[c]? with _ | v
      · exact Or.inr rfl
      · exact Or.inl ⟨_, rfl⟩
    · rw [h1, h2]; exact Or.inr rfl
  · rw [h1]; exact Or.inr rfl

theorem tag_throws (ev : List ℕ) (vert : List ℝ) (t : Int) (l : List ℕ) {c : ℕ} (hc : c ∈ l) (h : cornerX ev vert (c / 3) (c % 3) = .throws) (bc : List Int) : loopM (tagStep ev vert t) bc l = .throws := by
  induction l generalizing bc with
  | nil => simp at hc
  | cons a l ih =>
    rw [loopM_cons]
    by_cases ha : a = c
    · subst ha
      unfold tagStep
      rw [h]
      rfl
    · rcases tagStep_cases ev vert t bc a with ⟨bc', hb⟩ | hb
      · rw [hb, Out.bind_ok, ih (by rcases List.mem_cons.1 hc with rfl | h; exact absurd rfl ha; exact h)]
      · rw [hb]; rfl

/-- **C117, bad numbers.** A vertex number of an element of the table beyond the table of vertices makes the call raise. -/
theorem C117_index (ev : List ℕ) (vert : List ℝ) (t : Int) (bc : List Int) {k j v : ℕ} (hk : k < bc.length / 3) (hj : j < 3) (hv : ev[3 * k + j]? = some v) (hb : vert.length ≤ 3 * v) :
    correctTable ev vert t bc = .throws := by
  refine tag_throws ev vert t _ (c := 3 * k + j) (List.mem_range.2 (by omega)) ?_ bc
  unfold cornerX
  rw [show (3 * k + j) / 3 = k by omega, show (3 * k + j) % 3 = j by omega, hv]
  simp only
  rw [List.getElem?_eq_none_iff.2 hb]

/-! ### Meshes of a channel -/

/-- All vertices of elements are between x = 0 and x = 8000, and none is closer than 2e-6 to one of these lines without being on it. -/
def Between (m : Mesh) : Prop := ∀ k < m.K, ∀ j < 3, (m.corner k j).1 = 0 ∨ (m.corner k j).1 = 8000 ∨ 2e-6 ≤ (m.corner k j).1 ∧ (m.corner k j).1 ≤ 8000 - 2e-6

/-- The third corner is on the inner side of the face. -/
theorem third {T : Tri} (h : 0 < cross T) {f : ℕ} (hf : f < 3) {X : ℝ} (h1 : (faceEnds T f).1.1 = X) (h2 : (faceEnds T f).2.1 = X) :
    ∃ x, (x = T.xa ∨ x = T.xb ∨ x = T.xc) ∧ 0 < ((faceEnds T f).2.2 - (faceEnds T f).1.2) * (X - x) := by
  unfold cross at h
  rcases (by omega : f = 0 ∨ f = 1 ∨ f = 2) with rfl | rfl | rfl <;> simp only [faceEnds, if_true, if_false, one_ne_zero, OfNat.ofNat_ne_zero, show ¬ (2 : ℕ) = 1 by norm_num] at h1 h2 ⊢
  · exact ⟨T.xc, by simp, by subst h1; rw [h2] at h; linarith⟩
  · exact ⟨T.xa, by simp, by rw [h1, h2] at h; linarith⟩
  · exact ⟨T.xb, by simp, by rw [h1, h2] at h; linarith⟩

theorem opposite {a b u v : ℝ} (h1 : 0 < (b - a) * u) (h2 : 0 < (a - b) * v) (h3 : 0 ≤ u * v) : False := by
  nlinarith [mul_pos h1 h2, mul_nonneg (sq_nonneg (b - a)) h3]

/-- **C117, channel.** On a mesh of a channel between x = 0 and x = 8000 the faces which get the tag are exactly those lying on one of the two lines, and all of them are boundary faces: interior faces and the
other boundary faces keep their tags. -/
theorem C117_channel {m : Mesh} {P : ℕ → ℕ} (h : m.Ok P) (hb : m.bcType.length = 3 * m.K) (hm : Between m) (t : Int) :
    ∃ bc, correctTable m.ev m.vert t m.bcType = .ok bc ∧ ({ m with bcType := bc } : Mesh).Ok P ∧ ∀ e < 3 * m.K,
      (((m.ends e).1.1 = 0 ∧ (m.ends e).2.1 = 0 ∨ (m.ends e).1.1 = 8000 ∧ (m.ends e).2.1 = 8000) → P e = e ∧ bc[e]? = some t) ∧
      (¬ ((m.ends e).1.1 = 0 ∧ (m.ends e).2.1 = 0 ∨ (m.ends e).1.1 = 8000 ∧ (m.ends e).2.1 = 8000) → bc[e]? = m.bcType[e]?) := by
  obtain ⟨bc, h1, h2, h3⟩ := C117_table h hb t
  have hrange : ∀ k < m.K, ∀ j < 3, 0 ≤ (m.corner k j).1 ∧ (m.corner k j).1 ≤ 8000 := by
    intro k hk j hj
    rcases hm k hk j hj with h | h | h
    · rw [h]; norm_num
    · rw [h]; norm_num
    · constructor <;> linarith
  have hT : ∀ k < m.K, ∀ x, x = (m.tri k).xa ∨ x = (m.tri k).xb ∨ x = (m.tri k).xc → 0 ≤ x ∧ x ≤ 8000 := by
    rintro k hk x (rfl | rfl | rfl)
    · exact hrange k hk 0 (by norm_num)
    · exact hrange k hk 1 (by norm_num)
    · exact hrange k hk 2 (by norm_num)
  have bnd : ∀ e < 3 * m.K, ∀ X : ℝ, (X = 0 ∨ X = 8000) → (m.ends e).1.1 = X → (m.ends e).2.1 = X → P e = e := by
    intro e he X hX h4 h5
    by_contra hne
    have hm' := h.meet e he hne
    have hlt : P e < 3 * m.K := h.conn.lt e he
    obtain ⟨x, hx, k1⟩ := third (h.ccw (e / 3) (by omega)) (f := e % 3) (by omega) h4 h5
    obtain ⟨x', hx', k2⟩ := third (h.ccw (P e / 3) (by omega)) (f := P e % 3) (by omega) (X := X) (by rw [hm']; exact h5) (by rw [hm']; exact h4)
    rw [hm'] at k2
    simp only [Prod.fst_swap, Prod.snd_swap] at k2
    obtain ⟨a1, a2⟩ := hT _ (by omega) x hx
    obtain ⟨b1, b2⟩ := hT _ (by omega) x' hx'
    rcases hX with rfl | rfl
    · exact opposite k1 k2 (mul_nonneg_of_nonpos_of_nonpos (by linarith) (by linarith))
    · exact opposite k1 k2 (mul_nonneg (by linarith) (by linarith))
  have far : ∀ e < 3 * m.K, ¬ ((m.ends e).1.1 = 0 ∧ (m.ends e).2.1 = 0 ∨ (m.ends e).1.1 = 8000 ∧ (m.ends e).2.1 = 8000) → ¬ AtEnd (m.ends e) := by
    intro e he hno ha
    have c1 := hm (e / 3) (by omega) (e % 3) (by omega)
    have c2 := hm (e / 3) (by omega) ((e % 3 + 1) % 3) (by omega)
    rw [← (ends_corner m).1] at c1
    rw [← (ends_corner m).2] at c2
    unfold AtEnd midX at ha
    generalize (m.ends e).1.1 = a at *
    generalize (m.ends e).2.1 = b at *
    apply hno
    rcases ha with ha | ha <;> rw [abs_lt] at ha
    · left
      rcases c1 with c1 | c1 | c1 <;> rcases c2 with c2 | c2 | c2 <;> first | exact ⟨c1, c2⟩ | (exfalso; linarith [ha.2])
    · right
      rcases c1 with c1 | c1 | c1 <;> rcases c2 with c2 | c2 | c2 <;> first | exact ⟨c1, c2⟩ | (exfalso; linarith [ha.1])
  refine ⟨bc, h1, ⟨h.conn, h.lenEv, h.ltEv, h.lenVert, ?_, h.ccw, h.meet⟩, fun e he => ⟨fun hl => ?_, fun hl => ?_⟩⟩
  · show 3 * m.K ≤ bc.length
    omega
  · have ha : AtEnd (m.ends e) := by
      unfold AtEnd midX
      rcases hl with ⟨a, b⟩ | ⟨a, b⟩
      · left; rw [a, b]; norm_num
      · right; rw [a, b]; norm_num
    refine ⟨?_, by rw [h3 e he, if_pos ha]⟩
    rcases hl with ⟨a, b⟩ | ⟨a, b⟩
    · exact bnd e he 0 (Or.inl rfl) a b
    · exact bnd e he 8000 (Or.inr rfl) a b
  · rw [h3 e he, if_neg (far e he hl)]

/-- The channel of two triangles, all boundary faces tagged as walls before the correction. -/
example : ({ channel with bcType := [3, 0, 3, 3, 3, 0] } : Mesh).Ok twoTri ∧ Between { channel with bcType := [3, 0, 3, 3, 3, 0] } ∧
    correctTable channel.ev channel.vert 2 [3, 0, 3, 3, 3, 0] = .ok channel.bcType := by
  have hok : ({ channel with bcType := [3, 0, 3, 3, 3, 0] } : Mesh).Ok twoTri := ⟨channel_ok.conn, channel_ok.lenEv, channel_ok.ltEv, channel_ok.lenVert, le_refl _, channel_ok.ccw, channel_ok.meet⟩
  have hb : Between { channel with bcType := [3, 0, 3, 3, 3, 0] } := by
    intro k hk j hj
    have hk : k < 2 := hk
    interval_cases k <;> interval_cases j <;> norm_num [Mesh.corner, channel]
  refine ⟨hok, hb, ?_⟩
  obtain ⟨bc, h1, h2, h3⟩ := C117_table hok rfl 2
  have h1' : correctTable channel.ev channel.vert 2 [3, 0, 3, 3, 3, 0] = .ok bc := h1
  rw [h1']
  congr 1
  apply List.ext_getElem?
  intro c
  by_cases hc : c < 6
  · rw [h3 c hc]
    interval_cases c <;> norm_num [AtEnd, midX, Mesh.ends, faceEnds, Mesh.tri, Mesh.corner, channel]
  · have : bc.length = 6 := h2
    rw [List.getElem?_eq_none_iff.2 (by omega), List.getElem?_eq_none_iff.2 (by simp [channel]; omega)]

/-- Two triangles on either side of the line x = 0, walls all around. -/
noncomputable def kite : Mesh where
  K := 2
  nv := 4
  ev := [0, 1, 2, 1, 3, 2]
  vert := [-1, 0, 0, 0, -1, 0, 0, 1, 0, 1, 0, 0]
  E := [0, 1, 0, 1, 1, 0]
  F := [0, 2, 2, 0, 1, 1]
  bcType := [3, 0, 3, 3, 3, 0]

theorem kite_ok : kite.Ok twoTri where
  conn := twoTri_conn
  lenEv := rfl
  ltEv := by intro v hv; simp only [kite, List.mem_cons, List.not_mem_nil, or_false] at hv ⊢; omega
  lenVert := rfl
  lenBc := le_refl _
  ccw := by
    intro k hk
    have hk : k < 2 := hk
    interval_cases k <;> norm_num [cross, Mesh.tri, Mesh.corner, kite]
  meet := by
    intro e he hne
    have he : e < 6 := he
    interval_cases e <;> first | exact absurd rfl hne | (norm_num [twoTri, faceEnds, Mesh.tri, Mesh.corner, kite])

/-- **C117, other meshes, refuted.** On a mesh with an interior face at x = 0 the correction gives the tag to the interior face, from both sides. -/
theorem C117_interior_false : ∃ (m : Mesh) (P : ℕ → ℕ), m.Ok P ∧ ∃ bc, correctTable m.ev m.vert 2 m.bcType = .ok bc ∧ ∃ e < 3 * m.K, P e ≠ e ∧ m.bcType[e]? = some 0 ∧ bc[e]? = some 2 ∧ bc[P e]? = some 2 := by
  obtain ⟨bc, h1, -, h3⟩ := C117_table kite_ok rfl 2
  refine ⟨kite, twoTri, kite_ok, bc, h1, 1, by norm_num [kite], by decide, rfl, ?_, ?_⟩
  · rw [h3 1 (by norm_num [kite]), if_pos]
    norm_num [AtEnd, midX, Mesh.ends, faceEnds, Mesh.tri, Mesh.corner, kite]
  · rw [show twoTri 1 = 5 from rfl, h3 5 (by norm_num [kite]), if_pos]
    norm_num [AtEnd, midX, Mesh.ends, faceEnds, Mesh.tri, Mesh.corner, kite]

end Blitzdg.SW
