import Verif.Curved.Snap
import Mathlib.Tactic.Linarith
import Mathlib.Tactic.Positivity
import Mathlib.Tactic.NormNum
import Mathlib.Tactic.Ring
import Mathlib.Data.List.Nodup
import Mathlib.Tactic.FinCases
import Mathlib.Tactic.IntervalCases

/-! C112: moving boundary vertices onto a curve. -/

namespace Blitzdg.Curved

/-- Distance in the plane. -/
noncomputable def eucl (p q : ℝ × ℝ) : ℝ := √((p.1 - q.1) ^ 2 + (p.2 - q.2) ^ 2)

/-- `p` is the first among the samples nearest to `v`. -/
def Nearest (curve : List (ℝ × ℝ)) (v p : ℝ × ℝ) : Prop :=
  ∃ m : ℕ, curve[m]? = some p ∧ (∀ q ∈ curve, eucl v p ≤ eucl v q) ∧ ∀ j < m, ∀ q, curve[j]? = some q → eucl v p < eucl v q

/-- Some sample is within 200 of `v`. -/
def Close (curve : List (ℝ × ℝ)) (v : ℝ × ℝ) : Prop := ∃ p ∈ curve, eucl v p ≤ 200

/-- Face `bf = (element, face)` runs from vertex `i1` to vertex `i2`. -/
def Ends (EToV : List (List ℕ)) (numFaces : ℕ) (bf : ℕ × ℕ) (i1 i2 : ℕ) : Prop :=
  ∃ row, EToV[bf.1]? = some row ∧ row[bf.2]? = some i1 ∧ row[(bf.2 + 1) % numFaces]? = some i2

/-- Vertex `v` is an end of one of the faces. -/
def EndOf (EToV : List (List ℕ)) (numFaces : ℕ) (faces : List (ℕ × ℕ)) (v : ℕ) : Prop := ∃ bf ∈ faces, ∃ i1 i2, Ends EToV numFaces bf i1 i2 ∧ (v = i1 ∨ v = i2)

/-- Both ends of the face are within 200 of the curve, for the given positions of the vertices. -/
def NearCurve (verts : List (ℝ × ℝ)) (EToV : List (List ℕ)) (numFaces : ℕ) (curve : List (ℝ × ℝ)) (bf : ℕ × ℕ) : Prop :=
  ∃ i1 i2 v1 v2, Ends EToV numFaces bf i1 i2 ∧ verts[i1]? = some v1 ∧ verts[i2]? = some v2 ∧ Close curve v1 ∧ Close curve v2

/-- All faces have two ends among the vertices. -/
def FacesOk (verts : List (ℝ × ℝ)) (EToV : List (List ℕ)) (numFaces : ℕ) (faces : List (ℕ × ℕ)) : Prop :=
  ∀ bf ∈ faces, ∃ i1 i2, Ends EToV numFaces bf i1 i2 ∧ i1 < verts.length ∧ i2 < verts.length

open Classical in
/-- What the call is meant to do: the faces with both ends near the curve are listed, their ends (and no other vertices) are moved, each to the sample nearest to where it was, and flagged. -/
structure Result (verts : List (ℝ × ℝ)) (EToV : List (List ℕ)) (numFaces : ℕ) (curve : List (ℝ × ℝ)) (bcFaces : List (ℕ × ℕ)) (s : Snapped) : Prop where
  faces : s.faces = bcFaces.filter (NearCurve verts EToV numFaces curve)
  len : s.verts.length = verts.length
  lenM : s.modified.length = verts.length
  moved : ∀ v p, verts[v]? = some p → EndOf EToV numFaces s.faces v → ∃ p', s.verts[v]? = some p' ∧ Nearest curve p p' ∧ eucl p p' ≤ 200 ∧ s.modified[v]? = some 1
  kept : ∀ v p, verts[v]? = some p → ¬ EndOf EToV numFaces s.faces v → s.verts[v]? = some p ∧ s.modified[v]? = some 0

theorem hypot_eq (v p : ℝ × ℝ) : hypot v p = eucl v p := by
  unfold hypot eucl
  congr 1
  ring

theorem eucl_nonneg (p q : ℝ × ℝ) : 0 ≤ eucl p q := Real.sqrt_nonneg _

theorem eucl_self (p : ℝ × ℝ) : eucl p p = 0 := by simp [eucl]

theorem eq_of_eucl {p q : ℝ × ℝ} (h : eucl p q ≤ 0) : q = p := by
  have h0 : (p.1 - q.1) ^ 2 + (p.2 - q.2) ^ 2 = 0 := by
    have := Real.sqrt_eq_zero'.1 (le_antisymm h (eucl_nonneg p q))
    have h1 := sq_nonneg (p.1 - q.1)
    have h2 := sq_nonneg (p.2 - q.2)
    linarith
  have h1 : (p.1 - q.1) ^ 2 = 0 := by nlinarith [sq_nonneg (p.1 - q.1), sq_nonneg (p.2 - q.2)]
  have h2 : (p.2 - q.2) ^ 2 = 0 := by nlinarith [sq_nonneg (p.1 - q.1), sq_nonneg (p.2 - q.2)]
  have h1 := pow_eq_zero_iff (two_ne_zero) |>.1 h1
  have h2 := pow_eq_zero_iff (two_ne_zero) |>.1 h2
  ext <;> linarith

/-- The first position of the smallest entry. -/
def FirstMin (l : List ℝ) (m : ℕ) : Prop := ∃ d, l[m]? = some d ∧ (∀ x ∈ l, d ≤ x) ∧ ∀ j < m, ∀ x, l[j]? = some x → d < x

theorem argminFrom_spec (pre : List ℝ) (b : ℕ) (v : ℝ) (l : List ℝ) (hb : pre[b]? = some v) (hmin : ∀ x ∈ pre, v ≤ x) (hfirst : ∀ j < b, ∀ x, pre[j]? = some x → v < x) :
    FirstMin (pre ++ l) (argminFrom b v pre.length l) := by
  induction l generalizing pre b v with
  | nil => exact ⟨v, by simpa [argminFrom] using hb, by simpa using hmin, by simpa [argminFrom] using hfirst⟩
  | cons x l ih =>
    have hlt : b < pre.length := (List.getElem?_eq_some_iff.1 hb).1
    have hlen : (pre ++ [x]).length = pre.length + 1 := by simp
    unfold argminFrom
    split_ifs with h
    · have := ih (pre ++ [x]) pre.length x (by simp) (fun y hy => ?_) (fun j hj y hy => ?_)
      · simpa using this
      · rcases List.mem_append.1 hy with h1 | h1
        · exact h.le.trans (hmin y h1)
        · exact (List.mem_singleton.1 h1).ge
      · rw [List.getElem?_append_left hj] at hy
        exact lt_of_lt_of_le h (hmin y (List.mem_of_getElem? hy))
    · have := ih (pre ++ [x]) b v (by rw [List.getElem?_append_left hlt]; exact hb) (fun y hy => ?_) (fun j hj y hy => ?_)
      · simpa using this
      · rcases List.mem_append.1 hy with h1 | h1
        · exact hmin y h1
        · rw [List.mem_singleton.1 h1]; exact not_lt.1 h
      · rw [List.getElem?_append_left (by omega)] at hy
        exact hfirst j hj y hy

theorem argmin_spec (l : List ℝ) (h : l ≠ []) : ∃ m, argmin l = .ok m ∧ FirstMin l m := by
  match l, h with
  | x :: l, _ =>
    refine ⟨_, rfl, ?_⟩
    have := argminFrom_spec [x] 0 x l rfl (by simp) (by simp)
    simpa using this

/-- The search in the script finds the nearest sample and its distance. -/
theorem search (curve : List (ℝ × ℝ)) (h : curve ≠ []) (v : ℝ × ℝ) :
    ∃ m p, argmin (curve.map (hypot v)) = .ok m ∧ index (curve.map (hypot v)) m = .ok (eucl v p) ∧ index curve m = .ok p ∧ Nearest curve v p := by
  obtain ⟨m, hm, d, hd, hmin, hf⟩ := argmin_spec (curve.map (hypot v)) (by simpa using h)
  rw [List.getElem?_map] at hd
  obtain ⟨p, hp, he⟩ := Option.map_eq_some_iff.1 hd
  have he : d = eucl v p := by rw [← he, hypot_eq]
  subst he
  refine ⟨m, p, hm, ?_, ?_, m, hp, fun q hq => ?_, fun j hj q hq => ?_⟩
  · unfold index
    rw [List.getElem?_map, hp]
    simp [hypot_eq]
  · unfold index
    rw [hp]
  · rw [← hypot_eq v q]
    exact hmin _ (List.mem_map_of_mem hq)
  · rw [← hypot_eq v q]
    exact hf j hj _ (by rw [List.getElem?_map, hq]; rfl)

theorem nearest_unique {curve : List (ℝ × ℝ)} {v p q : ℝ × ℝ} (hp : Nearest curve v p) (hq : Nearest curve v q) : p = q := by
  obtain ⟨m, e1, m1, f1⟩ := hp
  obtain ⟨n, e2, m2, f2⟩ := hq
  have h12 := m1 q (List.mem_of_getElem? e2)
  have h21 := m2 p (List.mem_of_getElem? e1)
  rcases lt_trichotomy m n with h | h | h
  · exact absurd (f2 m h p e1) (not_lt.2 h12)
  · subst h
    rw [e1] at e2
    exact Option.some.inj e2
  · exact absurd (f1 n h q e2) (not_lt.2 h21)

theorem nearest_self {curve : List (ℝ × ℝ)} {v p : ℝ × ℝ} (hv : v ∈ curve) (hp : Nearest curve v p) : p = v := by
  obtain ⟨m, -, m1, -⟩ := hp
  exact eq_of_eucl ((m1 v hv).trans (eucl_self v).le)

theorem nearest_mem {curve : List (ℝ × ℝ)} {v p : ℝ × ℝ} (hp : Nearest curve v p) : p ∈ curve := by
  obtain ⟨m, h, -⟩ := hp
  exact List.mem_of_getElem? h

theorem close_iff {curve : List (ℝ × ℝ)} {v p : ℝ × ℝ} (hp : Nearest curve v p) : Close curve v ↔ eucl v p ≤ 200 := by
  obtain ⟨m, h, m1, -⟩ := id hp
  exact ⟨fun ⟨q, hq, hd⟩ => (m1 q hq).trans hd, fun h' => ⟨p, nearest_mem hp, h'⟩⟩

theorem Ends.unique {EToV : List (List ℕ)} {nf : ℕ} {bf : ℕ × ℕ} {i1 i2 j1 j2 : ℕ} (h : Ends EToV nf bf i1 i2) (h' : Ends EToV nf bf j1 j2) : i1 = j1 ∧ i2 = j2 := by
  obtain ⟨r, a, b, c⟩ := h
  obtain ⟨r', a', b', c'⟩ := h'
  rw [a] at a'
  obtain rfl := Option.some.inj a'
  rw [b] at b'
  rw [c] at c'
  exact ⟨Option.some.inj b', Option.some.inj c'⟩

theorem index_some {α : Type} {l : List α} {i : ℕ} {a : α} (h : l[i]? = some a) : index l i = .ok a := by
  unfold index
  rw [h]

/-- A vertex during the loop: where it was, or on its nearest sample. -/
def Cur (curve : List (ℝ × ℝ)) (o v : ℝ × ℝ) : Prop := v = o ∨ (Nearest curve o v ∧ Close curve o)

theorem Result.cur {verts EToV numFaces curve done s} (h : Result verts EToV numFaces curve done s) {i : ℕ} (hi : i < verts.length) : ∃ o v, verts[i]? = some o ∧ s.verts[i]? = some v ∧ Cur curve o v := by
  have ho : verts[i]? = some verts[i] := List.getElem?_eq_getElem hi
  by_cases hc : EndOf EToV numFaces s.faces i
  · obtain ⟨p, h1, h2, h3, -⟩ := h.moved i _ ho hc
    exact ⟨_, p, ho, h1, .inr ⟨h2, (close_iff h2).2 h3⟩⟩
  · exact ⟨_, _, ho, (h.kept i _ ho hc).1, .inl rfl⟩

/-- Searching from the current position decides and finds the same as searching from the original one. -/
theorem Cur.search {curve : List (ℝ × ℝ)} (hc : curve ≠ []) {o v : ℝ × ℝ} (h : Cur curve o v) :
    ∃ m p d, argmin (curve.map (hypot v)) = .ok m ∧ index (curve.map (hypot v)) m = .ok d ∧ index curve m = .ok p ∧ (d > 200 ↔ ¬ Close curve o) ∧ (Close curve o → Nearest curve o p) := by
  obtain ⟨m, p, h1, h2, h3, h4⟩ := Curved.search curve hc v
  refine ⟨m, p, _, h1, h2, h3, ?_⟩
  rcases h with rfl | ⟨hn, hcl⟩
  · exact ⟨by rw [close_iff h4, not_le], fun _ => h4⟩
  · have := nearest_self (nearest_mem hn) h4
    subst this
    exact ⟨by simp [eucl_self, hcl], fun _ => hn⟩

theorem get_set2 {α : Type} (l : List α) (i j v : ℕ) (a b : α) (hi : i < l.length) (hj : j < l.length) : ((l.set i a).set j b)[v]? = if v = j then some b else if v = i then some a else l[v]? := by
  rw [List.getElem?_set, List.getElem?_set]
  by_cases h1 : v = j
  · subst h1; simp [hj]
  · rw [if_neg (by omega), if_neg h1]
    by_cases h2 : v = i
    · subst h2; simp [hi]
    · rw [if_neg (by omega), if_neg h2]

theorem snap_step {verts : List (ℝ × ℝ)} {EToV : List (List ℕ)} {nf : ℕ} {curve : List (ℝ × ℝ)} (hc : curve ≠ []) {done : List (ℕ × ℕ)} {s : Snapped} (h : Result verts EToV nf curve done s) (bf : ℕ × ℕ)
    (hbf : ∃ i1 i2, Ends EToV nf bf i1 i2 ∧ i1 < verts.length ∧ i2 < verts.length) : ∃ s', snapFace EToV nf curve s bf = .ok s' ∧ Result verts EToV nf curve (done ++ [bf]) s' := by
  classical
  obtain ⟨i1, i2, he, hi1, hi2⟩ := hbf
  obtain ⟨row, r1, r2, r3⟩ := id he
  obtain ⟨o1, v1, a1, b1, c1⟩ := h.cur hi1
  obtain ⟨o2, v2, a2, b2, c2⟩ := h.cur hi2
  obtain ⟨m1, p1, d1, e1, f1, g1, k1, n1⟩ := c1.search hc
  obtain ⟨m2, p2, d2, e2, f2, g2, k2, n2⟩ := c2.search hc
  obtain ⟨q1, hm1⟩ : ∃ q, s.modified[i1]? = some q := ⟨_, List.getElem?_eq_getElem (by rw [h.lenM]; exact hi1)⟩
  obtain ⟨q2, hm2⟩ : ∃ q, s.modified[i2]? = some q := ⟨_, List.getElem?_eq_getElem (by rw [h.lenM]; exact hi2)⟩
  have hnear : NearCurve verts EToV nf curve bf ↔ Close curve o1 ∧ Close curve o2 := by
    constructor
    · rintro ⟨j1, j2, w1, w2, hj, x1, x2, y1, y2⟩
      obtain ⟨rfl, rfl⟩ := hj.unique he
      rw [a1] at x1; rw [a2] at x2
      rw [Option.some.inj x1, Option.some.inj x2]
      exact ⟨y1, y2⟩
    · exact fun ⟨y1, y2⟩ => ⟨i1, i2, o1, o2, he, a1, a2, y1, y2⟩
  unfold snapFace
  simp only [index_some r1, index_some r2, index_some r3, index_some b1, index_some b2, e1, e2, f1, f2, g1, g2, index_some hm1, index_some hm2, Out.bind_ok, Out.pure_eq]
  by_cases hcl : Close curve o1 ∧ Close curve o2
  · rw [if_neg (by rw [k1, k2]; tauto)]
    refine ⟨_, rfl, ?_, by simp [h.len], by simp [h.lenM], fun v p hv hend => ?_, fun v p hv hend => ?_⟩
    · simp [List.filter_append, h.faces, hnear, hcl]
    · have hl1 : i1 < s.verts.length := by rw [h.len]; exact hi1
      have hl2 : i2 < s.verts.length := by rw [h.len]; exact hi2
      have hl3 : i1 < s.modified.length := by rw [h.lenM]; exact hi1
      have hl4 : i2 < s.modified.length := by rw [h.lenM]; exact hi2
      simp only []
      rw [get_set2 _ _ _ _ _ _ hl1 hl2, get_set2 _ _ _ _ _ _ hl3 hl4]
      by_cases x2 : v = i2
      · subst x2
        rw [a2] at hv
        obtain rfl := Option.some.inj hv
        exact ⟨p2, by simp, n2 hcl.2, (close_iff (n2 hcl.2)).1 hcl.2, by simp⟩
      · by_cases x1 : v = i1
        · subst x1
          rw [a1] at hv
          obtain rfl := Option.some.inj hv
          exact ⟨p1, by simp [x2], n1 hcl.1, (close_iff (n1 hcl.1)).1 hcl.1, by simp⟩
        · rw [if_neg x2, if_neg x1, if_neg x2, if_neg x1]
          refine h.moved v p hv ?_
          obtain ⟨b, hb, j1, j2, hj, hvj⟩ := hend
          rcases List.mem_append.1 hb with hb | hb
          · exact ⟨b, hb, j1, j2, hj, hvj⟩
          · rw [List.mem_singleton.1 hb] at hj
            obtain ⟨rfl, rfl⟩ := hj.unique he
            tauto
    · have x1 : v ≠ i1 := fun e => hend ⟨bf, by simp, i1, i2, he, .inl e⟩
      have x2 : v ≠ i2 := fun e => hend ⟨bf, by simp, i1, i2, he, .inr e⟩
      have := h.kept v p hv fun ⟨b, hb, r⟩ => hend ⟨b, List.mem_append_left _ hb, r⟩
      simp only []
      rw [List.getElem?_set_ne x2.symm, List.getElem?_set_ne x1.symm, List.getElem?_set_ne x2.symm, List.getElem?_set_ne x1.symm]
      exact this
  · rw [if_pos (by rw [k1, k2]; tauto)]
    refine ⟨s, rfl, ?_, h.len, h.lenM, h.moved, h.kept⟩
    simp [List.filter_append, h.faces, hnear, hcl]

/-- **C112, result.** For every mesh, every list of boundary faces with ends among the vertices and every non-empty curve the call returns, and what it returns is as specified: in particular it does not depend on
the order in which the faces are visited, and vertices shared by several faces end at one place. -/
theorem C112_result (verts : List (ℝ × ℝ)) (EToV : List (List ℕ)) (nf : ℕ) (curve : List (ℝ × ℝ)) (bcFaces : List (ℕ × ℕ)) (hc : curve ≠ []) (hf : FacesOk verts EToV nf bcFaces) :
    ∃ s, adjustStraightEdges verts EToV bcFaces curve nf = .ok s ∧ Result verts EToV nf curve bcFaces s := by
  suffices H : ∀ rest done s, Result verts EToV nf curve done s → FacesOk verts EToV nf rest → ∃ s', loopM (snapFace EToV nf curve) s rest = .ok s' ∧ Result verts EToV nf curve (done ++ rest) s' by
    refine H bcFaces [] _ ⟨by simp, rfl, by simp, fun v p _ h => ?_, fun v p hv _ => ⟨hv, ?_⟩⟩ hf
    · obtain ⟨b, hb, -⟩ := h
      simp at hb
    · have := (List.getElem?_eq_some_iff.1 hv).1
      simp [this]
  intro rest
  induction rest with
  | nil => intro done s h _; exact ⟨s, rfl, by simpa using h⟩
  | cons bf rest ih =>
    intro done s h hok
    obtain ⟨s1, e1, h1⟩ := snap_step hc h bf (hok bf (by simp))
    obtain ⟨s2, e2, h2⟩ := ih (done ++ [bf]) s1 h1 fun b hb => hok b (by simp [hb])
    exact ⟨s2, by rw [loopM_cons, e1, Out.bind_ok, e2], by simpa using h2⟩

theorem Result.ext {verts EToV nf curve fs fs'} {s s' : Snapped} (h : Result verts EToV nf curve fs s) (h' : Result verts EToV nf curve fs' s') (hp : ∀ b, b ∈ s.faces ↔ b ∈ s'.faces) :
    s.verts = s'.verts ∧ s.modified = s'.modified := by
  have hend : ∀ v, EndOf EToV nf s.faces v ↔ EndOf EToV nf s'.faces v := fun v => by
    unfold EndOf
    simp only [hp]
  have key : ∀ v : ℕ, s.verts[v]? = s'.verts[v]? ∧ s.modified[v]? = s'.modified[v]? := by
    intro v
    by_cases hv : v < verts.length
    · have ho : verts[v]? = some verts[v] := List.getElem?_eq_getElem hv
      by_cases hc : EndOf EToV nf s.faces v
      · obtain ⟨p, a, b, -, c⟩ := h.moved v _ ho hc
        obtain ⟨p', a', b', -, c'⟩ := h'.moved v _ ho ((hend v).1 hc)
        rw [a, a', c, c', nearest_unique b b']
        exact ⟨rfl, rfl⟩
      · obtain ⟨a, c⟩ := h.kept v _ ho hc
        obtain ⟨a', c'⟩ := h'.kept v _ ho fun x => hc ((hend v).2 x)
        rw [a, a', c, c']
        exact ⟨rfl, rfl⟩
    · constructor
      · rw [List.getElem?_eq_none (by rw [h.len]; omega), List.getElem?_eq_none (by rw [h'.len]; omega)]
      · rw [List.getElem?_eq_none (by rw [h.lenM]; omega), List.getElem?_eq_none (by rw [h'.lenM]; omega)]
  exact ⟨List.ext_getElem? fun v => (key v).1, List.ext_getElem? fun v => (key v).2⟩

/-- **C112, order.** Listing the boundary faces in another order moves the vertices to the same places and lists the same curved faces. -/
theorem C112_order (verts : List (ℝ × ℝ)) (EToV : List (List ℕ)) (nf : ℕ) (curve : List (ℝ × ℝ)) (fs fs' : List (ℕ × ℕ)) (hc : curve ≠ []) (hf : FacesOk verts EToV nf fs) (hp : fs.Perm fs') :
    ∃ s s', adjustStraightEdges verts EToV fs curve nf = .ok s ∧ adjustStraightEdges verts EToV fs' curve nf = .ok s' ∧ s.verts = s'.verts ∧ s.modified = s'.modified ∧ s.faces.Perm s'.faces := by
  obtain ⟨s, e, h⟩ := C112_result verts EToV nf curve fs hc hf
  obtain ⟨s', e', h'⟩ := C112_result verts EToV nf curve fs' hc fun b hb => hf b (hp.mem_iff.2 hb)
  have hpf : s.faces.Perm s'.faces := by
    rw [h.faces, h'.faces]
    exact hp.filter _
  obtain ⟨h1, h2⟩ := h.ext h' fun b => hpf.mem_iff
  exact ⟨s, s', e, e', h1, h2, hpf⟩

/-- **C112, repetition.** Calling again with the vertices returned changes nothing: the same vertices and the same curved faces. -/
theorem C112_again (verts : List (ℝ × ℝ)) (EToV : List (List ℕ)) (nf : ℕ) (curve : List (ℝ × ℝ)) (fs : List (ℕ × ℕ)) (hc : curve ≠ []) (hf : FacesOk verts EToV nf fs) :
    ∃ s s', adjustStraightEdges verts EToV fs curve nf = .ok s ∧ adjustStraightEdges s.verts EToV fs curve nf = .ok s' ∧ s'.verts = s.verts ∧ s'.faces = s.faces := by
  classical
  obtain ⟨s, e, h⟩ := C112_result verts EToV nf curve fs hc hf
  obtain ⟨s', e', h'⟩ := C112_result s.verts EToV nf curve fs hc fun b hb => by rw [h.len]; exact hf b hb
  have hclose : ∀ (i : ℕ) (o v : ℝ × ℝ), verts[i]? = some o → s.verts[i]? = some v → (Close curve v ↔ Close curve o) := by
    intro i o v ho hv
    obtain ⟨o', v', a, b, c⟩ := h.cur (List.getElem?_eq_some_iff.1 ho).1
    rw [ho] at a; rw [hv] at b
    obtain rfl := Option.some.inj a
    obtain rfl := Option.some.inj b
    rcases c with rfl | ⟨hn, hcl⟩
    · exact Iff.rfl
    · exact ⟨fun _ => hcl, fun _ => ⟨v, nearest_mem hn, by rw [eucl_self]; norm_num⟩⟩
  have hnear : ∀ b ∈ fs, (NearCurve s.verts EToV nf curve b ↔ NearCurve verts EToV nf curve b) := by
    intro b hb
    constructor
    · rintro ⟨i1, i2, v1, v2, he, a1, a2, c1, c2⟩
      have l1 : i1 < verts.length := by rw [← h.len]; exact (List.getElem?_eq_some_iff.1 a1).1
      have l2 : i2 < verts.length := by rw [← h.len]; exact (List.getElem?_eq_some_iff.1 a2).1
      have o1 := List.getElem?_eq_getElem l1
      have o2 := List.getElem?_eq_getElem l2
      exact ⟨i1, i2, _, _, he, o1, o2, (hclose _ _ _ o1 a1).1 c1, (hclose _ _ _ o2 a2).1 c2⟩
    · rintro ⟨i1, i2, v1, v2, he, a1, a2, c1, c2⟩
      have l1 : i1 < s.verts.length := by rw [h.len]; exact (List.getElem?_eq_some_iff.1 a1).1
      have l2 : i2 < s.verts.length := by rw [h.len]; exact (List.getElem?_eq_some_iff.1 a2).1
      have o1 := List.getElem?_eq_getElem l1
      have o2 := List.getElem?_eq_getElem l2
      exact ⟨i1, i2, _, _, he, o1, o2, (hclose _ _ _ a1 o1).2 c1, (hclose _ _ _ a2 o2).2 c2⟩
  have hfaces : s'.faces = s.faces := by
    rw [h.faces, h'.faces]
    exact List.filter_congr fun b hb => by simp only [hnear b hb]
  refine ⟨s, s', e, e', List.ext_getElem? fun v => ?_, hfaces⟩
  by_cases hv : v < verts.length
  · have ho : verts[v]? = some verts[v] := List.getElem?_eq_getElem hv
    have hs : s.verts[v]? = some (s.verts[v]'(by rw [h.len]; exact hv)) := List.getElem?_eq_getElem (by rw [h.len]; exact hv)
    by_cases hend : EndOf EToV nf s.faces v
    · obtain ⟨p, a, b, -⟩ := h.moved v _ ho hend
      obtain ⟨p', a', b', -⟩ := h'.moved v p a (by rw [hfaces]; exact hend)
      rw [a', a, nearest_self (nearest_mem b) b']
    · rw [(h'.kept v _ hs (by rw [hfaces]; exact hend)).1, hs]
  · rw [List.getElem?_eq_none (by rw [h'.len, h.len]; omega), List.getElem?_eq_none (by rw [h.len]; omega)]

/-- **C112, empty curve.** With no samples and at least one boundary face the call raises. -/
theorem C112_empty (verts : List (ℝ × ℝ)) (EToV : List (List ℕ)) (nf : ℕ) (bf : ℕ × ℕ) (fs : List (ℕ × ℕ)) (hf : FacesOk verts EToV nf (bf :: fs)) :
    adjustStraightEdges verts EToV (bf :: fs) [] nf = .throws := by
  obtain ⟨i1, i2, ⟨row, r1, r2, r3⟩, h1, h2⟩ := hf bf (by simp)
  unfold adjustStraightEdges
  rw [loopM_cons]
  have e1 : verts[i1]? = some verts[i1] := List.getElem?_eq_getElem h1
  have e2 : verts[i2]? = some verts[i2] := List.getElem?_eq_getElem h2
  unfold snapFace
  simp only [index_some r1, index_some r2, index_some r3, index_some e1, index_some e2, Out.bind_ok, List.map_nil, argmin]
  rfl

/-! ### A mesh of two triangles below a curve with three samples -/

def twoVerts : List (ℝ × ℝ) := [(0, 0), (100, 0), (100, 1000), (0, 1000)]
def twoElems : List (List ℕ) := [[0, 1, 2], [0, 2, 3]]
/-- All four sides. -/
def twoFaces : List (ℕ × ℕ) := [(0, 0), (0, 1), (1, 1), (1, 2)]
def threeSamples : List (ℝ × ℝ) := [(0, 10), (60, 20), (130, 0)]

theorem twoFaces_ok : FacesOk twoVerts twoElems 3 twoFaces := by
  intro b hb
  fin_cases hb
  · exact ⟨0, 1, ⟨_, rfl, rfl, rfl⟩, by decide, by decide⟩
  · exact ⟨1, 2, ⟨_, rfl, rfl, rfl⟩, by decide, by decide⟩
  · exact ⟨2, 3, ⟨_, rfl, rfl, rfl⟩, by decide, by decide⟩
  · exact ⟨3, 0, ⟨_, rfl, rfl, rfl⟩, by decide, by decide⟩

theorem near0 : Nearest threeSamples (0, 0) (0, 10) := by
  refine ⟨0, rfl, fun q hq => ?_, by simp⟩
  unfold threeSamples at hq
  apply Real.sqrt_le_sqrt
  fin_cases hq <;> norm_num

theorem near1 : Nearest threeSamples (100, 0) (130, 0) := by
  refine ⟨2, rfl, fun q hq => ?_, fun j hj q hq => ?_⟩
  · unfold threeSamples at hq
    apply Real.sqrt_le_sqrt
    fin_cases hq <;> norm_num
  · unfold threeSamples at hq
    apply Real.sqrt_lt_sqrt (by positivity)
    interval_cases j <;> simp at hq <;> subst hq <;> norm_num

theorem far_high (x : ℝ) : ¬ Close threeSamples (x, 1000) := by
  rintro ⟨p, hp, h⟩
  unfold eucl at h
  rw [Real.sqrt_le_left (by norm_num)] at h
  unfold threeSamples at hp
  simp only [List.mem_cons, List.not_mem_nil, or_false] at hp
  have := sq_nonneg (x - p.1)
  rcases hp with rfl | rfl | rfl <;> norm_num at h this <;> linarith

/-- The bottom side is curved, its ends move to the first and to the last sample, the upper vertices stay. -/
example : ∃ s, adjustStraightEdges twoVerts twoElems twoFaces threeSamples 3 = .ok s ∧ s.faces = [(0, 0)] ∧ s.verts = [(0, 10), (130, 0), (100, 1000), (0, 1000)] ∧ s.modified = [1, 1, 0, 0] := by
  classical
  obtain ⟨s, e, h⟩ := C112_result twoVerts twoElems 3 threeSamples twoFaces (by simp [threeSamples]) twoFaces_ok
  have c0 : Close threeSamples (0, 0) := ⟨(0, 10), by simp [threeSamples], by unfold eucl; rw [Real.sqrt_le_left (by norm_num)]; norm_num⟩
  have c1 : Close threeSamples (100, 0) := ⟨(130, 0), by simp [threeSamples], by unfold eucl; rw [Real.sqrt_le_left (by norm_num)]; norm_num⟩
  have n0 : NearCurve twoVerts twoElems 3 threeSamples (0, 0) := ⟨0, 1, _, _, ⟨_, rfl, rfl, rfl⟩, rfl, rfl, c0, c1⟩
  have n1 : ¬ NearCurve twoVerts twoElems 3 threeSamples (0, 1) := by
    rintro ⟨i1, i2, v1, v2, he, a1, a2, -, hc⟩
    obtain ⟨rfl, rfl⟩ := he.unique (j1 := 1) (j2 := 2) ⟨_, rfl, rfl, rfl⟩
    obtain rfl := Option.some.inj a2
    exact far_high _ hc
  have n2 : ¬ NearCurve twoVerts twoElems 3 threeSamples (1, 1) := by
    rintro ⟨i1, i2, v1, v2, he, a1, a2, -, hc⟩
    obtain ⟨rfl, rfl⟩ := he.unique (j1 := 2) (j2 := 3) ⟨_, rfl, rfl, rfl⟩
    obtain rfl := Option.some.inj a2
    exact far_high _ hc
  have n3 : ¬ NearCurve twoVerts twoElems 3 threeSamples (1, 2) := by
    rintro ⟨i1, i2, v1, v2, he, a1, a2, hc, -⟩
    obtain ⟨rfl, rfl⟩ := he.unique (j1 := 3) (j2 := 0) ⟨_, rfl, rfl, rfl⟩
    obtain rfl := Option.some.inj a1
    exact far_high _ hc
  have hfc : s.faces = [(0, 0)] := by
    rw [h.faces]
    simp [twoFaces, n0, n1, n2, n3]
  have hend : ∀ v, EndOf twoElems 3 s.faces v ↔ v = 0 ∨ v = 1 := by
    intro v
    rw [hfc]
    constructor
    · rintro ⟨b, hb, i1, i2, he, hv⟩
      rw [List.mem_singleton.1 hb] at he
      obtain ⟨rfl, rfl⟩ := he.unique (j1 := 0) (j2 := 1) ⟨_, rfl, rfl, rfl⟩
      exact hv
    · exact fun hv => ⟨(0, 0), by simp, 0, 1, ⟨_, rfl, rfl, rfl⟩, hv⟩
  obtain ⟨p0, a0, b0, -, m0⟩ := h.moved 0 (0, 0) rfl ((hend 0).2 (.inl rfl))
  obtain ⟨p1, a1, b1, -, m1⟩ := h.moved 1 (100, 0) rfl ((hend 1).2 (.inr rfl))
  obtain ⟨a2, m2⟩ := h.kept 2 (100, 1000) rfl (by rw [hend]; omega)
  obtain ⟨a3, m3⟩ := h.kept 3 (0, 1000) rfl (by rw [hend]; omega)
  rw [nearest_unique b0 near0] at a0
  rw [nearest_unique b1 near1] at a1
  have l1 : s.verts.length = 4 := h.len
  have l2 : s.modified.length = 4 := h.lenM
  refine ⟨s, e, hfc, List.ext_getElem? fun v => ?_, List.ext_getElem? fun v => ?_⟩
  · by_cases hv : v < 4
    · interval_cases v <;> assumption
    · rw [List.getElem?_eq_none (by omega), List.getElem?_eq_none (by simp; omega)]
  · by_cases hv : v < 4
    · interval_cases v <;> assumption
    · rw [List.getElem?_eq_none (by omega), List.getElem?_eq_none (by simp; omega)]

/-- **C112, refuted: edges can collapse.** Two ends of a face with the same nearest sample are moved to one point: the triangle returned has no area. -/
theorem C112_collapse : ∃ s, FacesOk [(0, 0), (1, 0), (0, 1)] [[0, 1, 2]] 3 [(0, 0)] ∧ adjustStraightEdges [(0, 0), (1, 0), (0, 1)] [[0, 1, 2]] [(0, 0)] [(0, -1), (50, 0)] 3 = .ok s ∧
    s.faces = [(0, 0)] ∧ s.verts = [(0, -1), (0, -1), (0, 1)] := by
  classical
  have hok : FacesOk [(0, 0), (1, 0), (0, 1)] [[0, 1, 2]] 3 [(0, 0)] := by
    intro b hb
    rw [List.mem_singleton.1 hb]
    exact ⟨0, 1, ⟨_, rfl, rfl, rfl⟩, by simp, by simp⟩
  obtain ⟨s, e, h⟩ := C112_result [(0, 0), (1, 0), (0, 1)] [[0, 1, 2]] 3 [(0, -1), (50, 0)] [(0, 0)] (by simp) hok
  have near : ∀ x : ℝ, 0 ≤ x → x ≤ 1 → Nearest [(0, -1), (50, 0)] (x, 0) (0, -1) := by
    intro x h0 h1
    refine ⟨0, rfl, fun q hq => ?_, by simp⟩
    apply Real.sqrt_le_sqrt
    simp only [List.mem_cons, List.not_mem_nil, or_false] at hq
    rcases hq with rfl | rfl
    · exact le_refl _
    · norm_num
      nlinarith
  have c : ∀ x : ℝ, 0 ≤ x → x ≤ 1 → Close [(0, -1), (50, 0)] (x, 0) := fun x h0 h1 =>
    ⟨(0, -1), by simp, by unfold eucl; rw [Real.sqrt_le_left (by norm_num)]; norm_num; nlinarith⟩
  have hfc : s.faces = [(0, 0)] := by
    rw [h.faces]
    have : NearCurve [(0, 0), (1, 0), (0, 1)] [[0, 1, 2]] 3 [(0, -1), (50, 0)] (0, 0) := ⟨0, 1, (0, 0), (1, 0), ⟨_, rfl, rfl, rfl⟩, rfl, rfl, c 0 (by norm_num) (by norm_num), c 1 (by norm_num) (by norm_num)⟩
    simp [this]
  have hend : ∀ v, EndOf [[0, 1, 2]] 3 s.faces v ↔ v = 0 ∨ v = 1 := by
    intro v
    rw [hfc]
    constructor
    · rintro ⟨b, hb, i1, i2, he, hv⟩
      rw [List.mem_singleton.1 hb] at he
      obtain ⟨rfl, rfl⟩ := he.unique (j1 := 0) (j2 := 1) ⟨_, rfl, rfl, rfl⟩
      exact hv
    · exact fun hv => ⟨(0, 0), by simp, 0, 1, ⟨_, rfl, rfl, rfl⟩, hv⟩
  obtain ⟨p0, a0, b0, -, m0⟩ := h.moved 0 (0, 0) rfl ((hend 0).2 (.inl rfl))
  obtain ⟨p1, a1, b1, -, m1⟩ := h.moved 1 (1, 0) rfl ((hend 1).2 (.inr rfl))
  obtain ⟨a2, m2⟩ := h.kept 2 (0, 1) rfl (by rw [hend]; omega)
  rw [nearest_unique b0 (near 0 (by norm_num) (by norm_num))] at a0
  rw [nearest_unique b1 (near 1 (by norm_num) (by norm_num))] at a1
  have l1 : s.verts.length = 3 := h.len
  refine ⟨s, hok, e, hfc, List.ext_getElem? fun v => ?_⟩
  by_cases hv : v < 3
  · interval_cases v <;> assumption
  · rw [List.getElem?_eq_none (by omega), List.getElem?_eq_none (by simp; omega)]

end Blitzdg.Curved
