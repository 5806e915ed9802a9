import Verif.DG2D.Maps
import Verif.Blitz.ReshapeProps
import Mathlib.Tactic.Ring

/-! Property C40: the boundary hash of the two-dimensional provisioners. -/

namespace Blitzdg.DG2D

open Sparse Blitz

theorem flat_cols {α : Type} (a : DMat α) (z : α) :
    reshapeMatTo1D a (List.replicate (a.rows * a.cols) z) false
      = .ok ((List.range (a.rows * a.cols)).map fun c => a.at' (c % a.rows) (c / a.rows)) := by
  obtain ⟨d, h1, h2, h3, _⟩ := C10_flatten a (List.replicate (a.rows * a.cols) z) false (by simp)
  rw [h1]
  congr 1
  apply List.ext_getElem?
  intro c
  simp only [List.length_replicate] at h2
  by_cases hc : c < a.rows * a.cols
  · obtain ⟨i, j, hi, hj, rfl⟩ := exists_pos false a.rows a.cols c hc
    rw [h3 i j hi hj, List.getElem?_map, List.getElem?_range hc]
    simp only [pos, Bool.false_eq_true, if_false, Option.map_some]
    have e : j * a.rows + i = i + a.rows * j := by ring
    rw [e, Nat.add_mul_mod_self_left, Nat.mod_eq_of_lt hi, Nat.add_mul_div_left _ _ (by omega), Nat.div_eq_of_lt hi]
    simp
  · rw [List.getElem?_eq_none (by omega), List.getElem?_eq_none (by simp; omega)]

/-- Positions `c, c+1, ...` of the entries equal to `t`. -/
def placesFrom (t : Int) : Nat → List Int → List Nat
  | _, [] => []
  | c, a :: l => if a = t then c :: placesFrom t (c + 1) l else placesFrom t (c + 1) l

theorem hash_fold (l : List Int) (m : TagMap) (c : Nat) (t : Int) :
    (l.foldl hashStep (m, c)).1 t
      = if t = 0 ∨ placesFrom t c l = [] then m t else some ((m t).getD [] ++ placesFrom t c l) := by
  induction l generalizing m c with
  | nil => simp [placesFrom]
  | cons a l ih =>
    rw [List.foldl_cons]
    simp only [hashStep]
    rw [ih]
    by_cases ht : t = 0
    · subst ht
      by_cases ha : a = 0
      · simp [ha]
      · have : ¬ (0 : Int) = a := fun e => ha e.symm
        simp [ha, push, this]
    · by_cases hat : a = t
      · subst hat
        simp only [ht, ne_eq, not_false_eq_true, if_true, false_or, placesFrom, push]
        by_cases hp : placesFrom a (c + 1) l = []
        · simp [hp]
        · simp [hp]
      · have : ¬ t = a := fun e => hat e.symm
        by_cases ha : a = 0
        · simp [ht, ha, placesFrom, Ne.symm ht]
        · simp [ha, ht, placesFrom, hat, push, this]

theorem mem_placesFrom {t : Int} {l : List Int} {c x : Nat} : x ∈ placesFrom t c l ↔ ∃ i, x = c + i ∧ l[i]? = some t := by
  induction l generalizing c with
  | nil => simp [placesFrom]
  | cons a l ih =>
    have hs : (∃ i, x = c + i ∧ (a :: l)[i]? = some t) ↔ (x = c ∧ a = t) ∨ ∃ i, x = c + 1 + i ∧ l[i]? = some t := by
      constructor
      · rintro ⟨i, hi, hl⟩
        cases i with
        | zero => left; exact ⟨by simpa using hi, by simpa using hl⟩
        | succ i => right; exact ⟨i, by omega, by simpa using hl⟩
      · rintro (⟨h1, h2⟩ | ⟨i, hi, hl⟩)
        · exact ⟨0, by simpa using h1, by simp [h2]⟩
        · exact ⟨i + 1, by omega, by simpa using hl⟩
    rw [hs]
    unfold placesFrom
    split
    · next h => rw [List.mem_cons, ih]; simp [h]
    · next h => rw [ih]; simp [h]

theorem sorted_placesFrom (t : Int) (l : List Int) (c : Nat) : (placesFrom t c l).Pairwise (· < ·) := by
  induction l generalizing c with
  | nil => simp [placesFrom]
  | cons a l ih =>
    unfold placesFrom
    split
    · refine List.pairwise_cons.2 ⟨fun x hx => ?_, ih _⟩
      obtain ⟨i, hi, _⟩ := mem_placesFrom.1 hx; omega
    · exact ih _

/-- The nodes of all faces, each carrying the tag of its face. -/
def tagsOfNodes (nfp nfaces : Nat) (bc : List Int) : List Int := (List.range (nfp * nfaces)).map fun c => bc.getD (c / nfp) 0

theorem boundaryNodes_ok (nfp nfaces : Nat) (bc : List Int) (h : nfaces ≤ bc.length) :
    boundaryNodes nfp nfaces bc = .ok (tagsOfNodes nfp nfaces bc) := by
  rw [boundaryNodes, if_neg (by omega), flat_cols { rows := nfp, cols := nfaces, at' := fun _ j => 1 * bc.getD j 0 } (0 : Int)]
  simp [tagsOfNodes]

theorem buildBCHash_ok (nfp nfaces : Nat) (bc : List Int) (m : TagMap) (h : nfaces ≤ bc.length) :
    ∃ m', buildBCHash nfp nfaces bc m = .ok m' ∧ ∀ t, m' t =
      if t = 0 ∨ placesFrom t 0 (tagsOfNodes nfp nfaces bc) = [] then m t
      else some ((m t).getD [] ++ placesFrom t 0 (tagsOfNodes nfp nfaces bc)) := by
  refine ⟨_, by rw [buildBCHash, boundaryNodes_ok _ _ _ h]; rfl, fun t => hash_fold _ _ _ _⟩

/-- Specification: `c` is the number of a node of a face with tag `t`. -/
def OnFaceWithTag (nfp nfaces : Nat) (bc : List Int) (t : Int) (c : Nat) : Prop :=
  ∃ g n, g < nfaces ∧ n < nfp ∧ bc[g]? = some t ∧ c = g * nfp + n

theorem mem_places (nfp nfaces : Nat) (bc : List Int) (h : nfaces ≤ bc.length) (t : Int) (c : Nat) :
    c ∈ placesFrom t 0 (tagsOfNodes nfp nfaces bc) ↔ OnFaceWithTag nfp nfaces bc t c := by
  rw [mem_placesFrom]
  simp only [Nat.zero_add, exists_eq_left']
  constructor
  · intro hc
    obtain ⟨hl, hc⟩ := List.getElem?_eq_some_iff.1 hc
    have hlt : c < nfp * nfaces := by simpa [tagsOfNodes] using hl
    have hp : 0 < nfp := by rcases Nat.eq_zero_or_pos nfp with h | h; (· subst h; simp at hlt); (· exact h)
    have hg : c / nfp < nfaces := Nat.div_lt_of_lt_mul hlt
    have hg' : c / nfp < bc.length := by omega
    refine ⟨c / nfp, c % nfp, hg, Nat.mod_lt _ hp, ?_, ?_⟩
    · rw [List.getElem?_eq_getElem hg']
      simpa [tagsOfNodes, List.getD_eq_getElem?_getD, hg'] using hc
    · rw [Nat.mul_comm]; exact (Nat.div_add_mod c nfp).symm
  · rintro ⟨g, n, hg, hn, ht, rfl⟩
    have hlt : g * nfp + n < nfp * nfaces := by
      have : (g + 1) * nfp ≤ nfaces * nfp := Nat.mul_le_mul_right _ hg
      rw [Nat.mul_comm nfp]; linarith [Nat.succ_mul g nfp]
    have hd : (g * nfp + n) / nfp = g := by
      rw [Nat.mul_comm, Nat.mul_add_div (by omega), Nat.div_eq_of_lt hn, Nat.add_zero]
    rw [tagsOfNodes, List.getElem?_map, List.getElem?_range hlt]
    simp [hd, List.getD_eq_getElem?_getD, ht]

/-- C40, first call.  On a provisioner with an empty map, for every number of nodes per face, number of faces and tag table,
after `buildBCHash` there is no entry for tag 0, a tag without nodes has no entry, and the list of any other tag is strictly
increasing and contains exactly the numbers of the nodes of the faces with that tag.  Missing from the full statement: a later
call replaces the lists; it does not (`C40_history`, `C40_not_replaced`). -/
theorem C40_hash_partial (nfp nfaces : Nat) (bc : List Int) (h : nfaces ≤ bc.length) :
    ∃ m, buildBCHash nfp nfaces bc TagMap.empty = .ok m ∧ m 0 = none ∧
      ∀ t, t ≠ 0 → ((∀ c, ¬ OnFaceWithTag nfp nfaces bc t c) → m t = none) ∧
        ((∃ c, OnFaceWithTag nfp nfaces bc t c) →
          ∃ L, m t = some L ∧ L.Pairwise (· < ·) ∧ ∀ c, c ∈ L ↔ OnFaceWithTag nfp nfaces bc t c) := by
  obtain ⟨m, hm, hmt⟩ := buildBCHash_ok nfp nfaces bc TagMap.empty h
  refine ⟨m, hm, by rw [hmt]; simp [TagMap.empty], fun t ht => ⟨fun hno => ?_, fun hex => ?_⟩⟩
  · rw [hmt, if_pos]; · rfl
    right
    rw [List.eq_nil_iff_forall_not_mem]
    exact fun c hc => hno c ((mem_places _ _ _ h _ _).1 hc)
  · obtain ⟨c, hc⟩ := hex
    refine ⟨placesFrom t 0 (tagsOfNodes nfp nfaces bc), ?_, sorted_placesFrom _ _ _, fun c => mem_places _ _ _ h _ _⟩
    rw [hmt, if_neg]
    · simp [TagMap.empty]
    · rintro (h0 | h0)
      · exact ht h0
      · have := (mem_places nfp nfaces bc h t c).2 hc
        rw [h0] at this; simp at this

/-- Every history of calls, started on an empty map: the list under each tag is the concatenation of the lists the single
calls would have produced. -/
theorem C40_history (nfp nfaces : Nat) (tables : List (List Int)) (h : ∀ bc ∈ tables, nfaces ≤ bc.length) :
    ∃ m, loopM (fun m bc => buildBCHash nfp nfaces bc m) TagMap.empty tables = .ok m ∧ m 0 = none ∧
      ∀ t, t ≠ 0 → ∃ single : List Int → List Nat,
        (∀ bc ∈ tables, ∃ m1, buildBCHash nfp nfaces bc TagMap.empty = .ok m1 ∧ (m1 t).getD [] = single bc) ∧
        (m t).getD [] = tables.flatMap single := by
  have key : ∀ m0 : TagMap, ∃ m, loopM (fun m bc => buildBCHash nfp nfaces bc m) m0 tables = .ok m ∧ m 0 = m0 0 ∧
      ∀ t, t ≠ 0 → (m t).getD [] = (m0 t).getD [] ++ tables.flatMap fun bc => placesFrom t 0 (tagsOfNodes nfp nfaces bc) := by
    induction tables with
    | nil => intro m0; exact ⟨m0, rfl, rfl, fun t _ => by simp⟩
    | cons bc l ih =>
      intro m0
      obtain ⟨m1, h1, h1t⟩ := buildBCHash_ok nfp nfaces bc m0 (h bc (by simp))
      obtain ⟨m2, h2, h20, h2t⟩ := ih (fun b hb => h b (by simp [hb])) m1
      refine ⟨m2, by rw [loopM_cons, h1]; exact h2, by rw [h20, h1t]; simp, fun t ht => ?_⟩
      rw [h2t t ht, h1t, List.flatMap_cons]
      by_cases hp : placesFrom t 0 (tagsOfNodes nfp nfaces bc) = []
      · simp [hp]
      · simp [hp, ht]
  obtain ⟨m, hm, hm0, hmt⟩ := key TagMap.empty
  refine ⟨m, hm, hm0, fun t ht => ⟨fun bc => placesFrom t 0 (tagsOfNodes nfp nfaces bc), fun bc hbc => ?_, ?_⟩⟩
  · obtain ⟨m1, h1, h1t⟩ := buildBCHash_ok nfp nfaces bc TagMap.empty (h bc hbc)
    refine ⟨m1, h1, ?_⟩
    rw [h1t]
    by_cases hp : placesFrom t 0 (tagsOfNodes nfp nfaces bc) = []
    · simp [hp, TagMap.empty]
    · simp [hp, ht, TagMap.empty]
  · rw [hmt t ht]; simp [TagMap.empty]

/-- A second call with a table that has no wall face leaves the wall nodes of the first in the map, and a second call with the
same table lists every node twice. -/
theorem C40_not_replaced : ∃ m1 m2 m3, buildBCHash 2 3 [3, 0, 3] TagMap.empty = .ok m1 ∧
    buildBCHash 2 3 [3, 0, 3] m1 = .ok m2 ∧ buildBCHash 2 3 [6, 0, 6] m1 = .ok m3 ∧
    m1 3 = some [0, 1, 4, 5] ∧ m2 3 = some [0, 1, 4, 5, 0, 1, 4, 5] ∧ m3 3 = some [0, 1, 4, 5] ∧ m3 6 = some [0, 1, 4, 5] := by
  obtain ⟨m1, h1, h1t⟩ := buildBCHash_ok 2 3 [3, 0, 3] TagMap.empty (by simp)
  obtain ⟨m2, h2, h2t⟩ := buildBCHash_ok 2 3 [3, 0, 3] m1 (by simp)
  obtain ⟨m3, h3, h3t⟩ := buildBCHash_ok 2 3 [6, 0, 6] m1 (by simp)
  have e : placesFrom 3 0 (tagsOfNodes 2 3 [3, 0, 3]) = [0, 1, 4, 5] := by decide
  have e' : placesFrom 3 0 (tagsOfNodes 2 3 [6, 0, 6]) = [] := by decide
  have e6 : placesFrom 6 0 (tagsOfNodes 2 3 [6, 0, 6]) = [0, 1, 4, 5] := by decide
  have e6' : placesFrom 6 0 (tagsOfNodes 2 3 [3, 0, 3]) = [] := by decide
  refine ⟨m1, m2, m3, h1, h2, h3, ?_, ?_, ?_, ?_⟩
  · rw [h1t]; simp [e, TagMap.empty]
  · rw [h2t, h1t]; simp [e, TagMap.empty]
  · rw [h3t, h1t]; simp [e, e', TagMap.empty]
  · rw [h3t, h1t]; simp [e6, e6', TagMap.empty]

/-- A table shorter than the number of faces is read outside its bounds. -/
theorem C40_short_table (nfp nfaces : Nat) (bc : List Int) (m : TagMap) (h : bc.length < nfaces) (hp : 0 < nfp) :
    buildBCHash nfp nfaces bc m = .ub := by
  simp [buildBCHash, boundaryNodes, h, hp]

/-- The hypotheses of the theorems are met by a table with two walls and an inflow. -/
example : OnFaceWithTag 2 3 [3, 0, 1] 3 1 ∧ ¬ OnFaceWithTag 2 3 [3, 0, 1] 3 4 := by
  refine ⟨⟨0, 1, by omega, by omega, rfl, rfl⟩, ?_⟩
  rintro ⟨g, n, hg, hn, ht, hc⟩
  have : g = 2 := by omega
  subst this
  simp at ht

end Blitzdg.DG2D
