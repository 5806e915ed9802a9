import Verif.Blitz.Model
import Mathlib.Data.List.Lex
import Mathlib.Data.List.Range
import Mathlib.Data.List.Nodup
import Mathlib.Tactic.Linarith
import Mathlib.Tactic.NormNum

/-! Properties C13 and C15 (`unique`, `uniquetolMatlab`). -/

namespace Blitzdg.Blitz

open Blitzdg.Sparse (DMat)

variable {α : Type}

/-! ### Specification -/

/-- What is assumed of `std::sort(first, last, comp)`: the result is a rearrangement in which no element is smaller than an
earlier one.  Which of several equivalent elements comes first is unspecified. -/
def IsSort (sort : (Nat → Nat → Bool) → List Nat → List Nat) : Prop :=
  ∀ comp l, (sort comp l).Perm l ∧
    -- order is only promised for a comparison that is induced by some linear order of keys
    (∀ (K : Type) (_ : LinearOrder K) (key : Nat → K), (∀ a b, comp a b = decide (key a < key b)) →
      (sort comp l).Pairwise fun a b => key a ≤ key b)

/-- Rows `l` and `r` agree in every column. -/
def SameRow (a : DMat α) (l r : Nat) : Prop := ∀ j, j < a.cols → a.at' l j = a.at' r j

/-! ### Lemmas -/

theorem compareExact_key [LinearOrder α] (a : DMat α) (ord : List Nat) (l r : Nat) :
    compareExact a ord l r = decide (ord.map (a.at' l) < ord.map (a.at' r)) := by
  induction ord with
  | nil => simp [compareExact]
  | cons j ord ih =>
    simp only [compareExact, List.map_cons, List.cons_lt_cons_iff]
    rcases lt_trichotomy (a.at' l j) (a.at' r j) with h | h | h
    · simp [h]
    · simp [h, ih]
    · simp [h, not_lt_of_gt h, (ne_of_gt h)]

theorem set_shape {β : Type} (reps mid : List β) (next : β) (rest : List β) :
    ∃ mid', (reps ++ (mid ++ next :: rest)).set reps.length next = (reps ++ [next]) ++ (mid' ++ rest) ∧
      mid'.length = mid.length := by
  cases mid with
  | nil => exact ⟨[], by simp [List.set_append_right], rfl⟩
  | cons y m => exact ⟨m ++ [next], by simp [List.set_append_right], by simp⟩

/-- Invariant of the loop of `unique` after processing the prefix `pre` (nonempty) of the sorted list. -/
structure UInv {K : Type} [LinearOrder K] (key : Nat → K) (n : Nat) (pre rest : List Nat) (s : UState) : Prop where
  shape : ∃ reps mid, s.1 = reps ++ (mid ++ rest) ∧ reps.length + mid.length = pre.length ∧ reps.length = s.2.2 + 1 ∧
    reps.Pairwise (fun a b => key a < key b) ∧ (∀ r ∈ reps, r ∈ pre) ∧
    (∀ x ∈ pre, ∃ t, ∃ h : t < reps.length, s.2.1[x]? = some t ∧ key reps[t] = key x) ∧
    (∃ rl pl, reps.getLast? = some rl ∧ pre.getLast? = some pl ∧ key rl = key pl)
  sclen : s.2.1.length = n

theorem uinv_step {K : Type} [LinearOrder K] (key : Nat → K) (comp : Nat → Nat → Bool)
    (hcomp : ∀ a b, comp a b = decide (key a < key b)) (n : Nat) (pre : List Nat) (next : Nat) (rest : List Nat)
    (hsort : (pre ++ next :: rest).Pairwise fun a b => key a ≤ key b) (hnd : (pre ++ next :: rest).Nodup) (hlt : next < n)
    (s : UState) (h : UInv key n pre (next :: rest) s) :
    ∃ s', uniqueStep comp s pre.length = .ok s' ∧ UInv key n (pre ++ [next]) rest s' := by
  obtain ⟨⟨reps, mid, hg, hlen, hi, hpw, hsub, hsc, rl, pl, hrl, hpl, hk⟩, hscl⟩ := h
  obtain ⟨g, sc, i⟩ := s
  simp only at hg hi hsc hscl
  subst hg
  have hne : reps ≠ [] := by intro h0; simp [h0] at hi
  have hrdi : rd (reps ++ (mid ++ next :: rest)) i = .ok rl := by
    rw [rd_eq_ok, List.getElem?_append_left (by omega)]
    rw [List.getLast?_eq_getElem?] at hrl
    rw [← hrl]; congr 1; omega
  have hrdk : rd (reps ++ (mid ++ next :: rest)) pre.length = .ok next := by
    rw [rd_eq_ok, ← hlen, List.getElem?_append_right (by omega), Nat.add_sub_cancel_left, List.getElem?_append_right (by omega)]
    simp
  have hnp : next ∉ pre := by
    have := hnd
    rw [List.nodup_append] at this
    intro hm
    exact this.2.2 next hm next (by simp) rfl
  have hplm : pl ∈ pre := List.mem_of_getLast? hpl
  have hle : key pl ≤ key next := by
    rw [List.pairwise_append] at hsort
    exact hsort.2.2 pl hplm next (by simp)
  have hother : ∀ x ∈ pre, ∀ v, (sc.set next v)[x]? = sc[x]? := by
    intro x hx v
    rw [List.getElem?_set_ne]
    rintro rfl; exact hnp hx
  unfold uniqueStep
  simp only [hrdi, hrdk, Out.bind_ok]
  by_cases hd : key rl < key next
  · have hc : (comp rl next || comp next rl) = true := by simp [hcomp, hd]
    rw [if_pos hc]
    obtain ⟨mid', hset, hml⟩ := set_shape reps mid next rest
    rw [wr_of_lt (by simp; omega), Out.bind_ok, wr_of_lt (by omega), Out.bind_ok]
    refine ⟨_, rfl, ⟨reps ++ [next], mid', ?_, ?_, ?_, ?_, ?_, ?_, next, next, ?_, ?_, rfl⟩, by simp [hscl]⟩
    · simp only; rw [← hi]; exact hset
    · simp; omega
    · simp [hi]
    · rw [List.pairwise_append]
      refine ⟨hpw, by simp, ?_⟩
      intro r hr x hx
      simp only [List.mem_singleton] at hx
      subst hx
      have : key r ≤ key rl := by
        obtain ⟨q, hq, rfl⟩ := List.mem_iff_getElem.1 hr
        rw [List.getLast?_eq_getElem?, List.getElem?_eq_some_iff] at hrl
        obtain ⟨hq', rfl⟩ := hrl
        by_cases hqq : q = reps.length - 1
        · subst hqq; exact le_refl _
        · exact le_of_lt (List.pairwise_iff_getElem.1 hpw q (reps.length - 1) hq hq' (by omega))
      exact lt_of_le_of_lt this hd
    · intro r hr
      rcases List.mem_append.1 hr with h | h
      · exact List.mem_append.2 (Or.inl (hsub r h))
      · exact List.mem_append.2 (Or.inr h)
    · intro x hx
      rcases List.mem_append.1 hx with h | h
      · obtain ⟨t, ht, h1, h2⟩ := hsc x h
        refine ⟨t, by simp; omega, ?_, ?_⟩
        · simp only; rw [hother x h]; exact h1
        · rw [List.getElem_append_left ht]; exact h2
      · simp only [List.mem_singleton] at h
        subst h
        refine ⟨i + 1, by simp; omega, ?_, ?_⟩
        · simp only; rw [List.getElem?_set_self (by omega)]
        · simp [← hi]
    · simp
    · simp
  · have heq : key rl = key next := le_antisymm (by rw [hk]; exact hle) (not_lt.1 hd)
    have hc : (comp rl next || comp next rl) = false := by simp [hcomp, heq]
    rw [if_neg (by simp [hc]), wr_of_lt (by omega), Out.bind_ok]
    refine ⟨_, rfl, ⟨reps, mid ++ [next], ?_, ?_, hi, hpw, ?_, ?_, rl, next, hrl, by simp, heq⟩, by simp [hscl]⟩
    · simp
    · simp; omega
    · intro r hr; exact List.mem_append.2 (Or.inl (hsub r hr))
    · intro x hx
      rcases List.mem_append.1 hx with h | h
      · obtain ⟨t, ht, h1, h2⟩ := hsc x h
        refine ⟨t, ht, ?_, h2⟩
        simp only; rw [hother x h]; exact h1
      · simp only [List.mem_singleton] at h
        subst h
        refine ⟨i, by omega, ?_, ?_⟩
        · simp only; rw [List.getElem?_set_self (by omega)]
        · rw [← heq]
          rw [List.getLast?_eq_getElem?, List.getElem?_eq_some_iff] at hrl
          obtain ⟨hq', rfl⟩ := hrl
          congr 2; omega

theorem uinv_loop {K : Type} [LinearOrder K] (key : Nat → K) (comp : Nat → Nat → Bool)
    (hcomp : ∀ a b, comp a b = decide (key a < key b)) (n : Nat) (rest : List Nat) :
    ∀ (pre : List Nat) (s : UState), (pre ++ rest).Pairwise (fun a b => key a ≤ key b) → (pre ++ rest).Nodup →
      (∀ x ∈ rest, x < n) → UInv key n pre rest s →
      ∃ s', loopM (uniqueStep comp) s (List.range' pre.length rest.length) = .ok s' ∧ UInv key n (pre ++ rest) [] s' := by
  induction rest with
  | nil => intro pre s _ _ _ h; exact ⟨s, rfl, by simpa using h⟩
  | cons x rest ih =>
    intro pre s h1 h2 h3 h4
    obtain ⟨s1, e1, i1⟩ := uinv_step key comp hcomp n pre x rest h1 h2 (h3 x List.mem_cons_self) s h4
    obtain ⟨s2, e2, i2⟩ := ih (pre ++ [x]) s1 (by simpa using h1) (by simpa using h2)
      (fun y hy => h3 y (List.mem_cons_of_mem _ hy)) i1
    refine ⟨s2, ?_, by simpa using i2⟩
    rw [List.length_cons, List.range'_succ, loopM_cons, e1, Out.bind_ok]
    simpa using e2

theorem uniqueFrom_spec {K : Type} [LinearOrder K] (key : Nat → K) (comp : Nat → Nat → Bool)
    (hcomp : ∀ a b, comp a b = decide (key a < key b)) (n : Nat) (hn : 0 < n) (sorted : List Nat)
    (hperm : sorted.Perm (List.range n)) (hsort : sorted.Pairwise fun a b => key a ≤ key b) :
    ∃ g sc, uniqueFrom comp n sorted = .ok (g, sc) ∧ sc.length = n ∧ (∀ r ∈ g, r < n) ∧
      g.Pairwise (fun a b => key a < key b) ∧
      ∀ x, x < n → ∃ t, ∃ h : t < g.length, sc[x]? = some t ∧ key g[t] = key x := by
  have hlen : sorted.length = n := by rw [hperm.length_eq, List.length_range]
  have hnd : sorted.Nodup := hperm.nodup_iff.2 List.nodup_range
  have hmem : ∀ x, x ∈ sorted ↔ x < n := fun x => by rw [hperm.mem_iff, List.mem_range]
  cases sorted with
  | nil => simp at hlen; omega
  | cons x0 rest =>
    have hx0 : x0 < n := (hmem x0).1 List.mem_cons_self
    have h0 : uniqueStep comp (x0 :: rest, List.replicate n 0, 0) 0 = .ok (x0 :: rest, (List.replicate n 0).set x0 0, 0) := by
      unfold uniqueStep
      have : (comp x0 x0 || comp x0 x0) = false := by simp [hcomp]
      simp only [rd, List.getElem?_cons_zero, Out.bind_ok, this, Bool.false_eq_true, if_false]
      rw [wr_of_lt (by simpa using hx0)]; rfl
    have hinv : UInv key n [x0] rest (x0 :: rest, (List.replicate n 0).set x0 0, 0) := by
      refine ⟨⟨[x0], [], by simp, by simp, by simp, by simp, by simp, ?_, x0, x0, by simp, by simp, rfl⟩, by simp⟩
      intro x hx
      simp only [List.mem_singleton] at hx
      subst hx
      exact ⟨0, by simp, by simp [hx0], rfl⟩
    obtain ⟨s', e, hI, hscl⟩ := uinv_loop key comp hcomp n rest [x0] _ (by simpa using hsort) (by simpa using hnd)
      (fun y hy => (hmem y).1 (List.mem_cons_of_mem _ hy)) hinv
    obtain ⟨reps, mid, hg, hl, hi, hpw, hsub, hsc, _⟩ := hI
    obtain ⟨g, sc, i⟩ := s'
    simp only [List.append_nil] at hg hi hsc hscl
    have hrg : List.range n = 0 :: List.range' 1 rest.length := by
      rw [← hlen, List.length_cons, List.range_eq_range', List.range'_succ]
    refine ⟨reps, sc, ?_, hscl, ?_, hpw, ?_⟩
    · unfold uniqueFrom
      rw [hrg, loopM_cons, h0, Out.bind_ok]
      simp only [List.length_singleton] at e
      rw [e, Out.bind_ok, hg]
      simp only [Out.pure_eq, resize]
      rw [← hi, List.take_left]
      have : reps.length - (reps ++ mid).length = 0 := by simp
      rw [this]; simp
    · intro r hr
      exact (hmem r).1 (by simpa using hsub r hr)
    · intro x hx
      have := hsc x (by simpa using (hmem x).2 hx)
      exact this

/-- **C13.** For a matrix with at least one row, over any linearly ordered value type and for any sorting algorithm, `unique`
returns without out-of-range access; the gathered indices are row numbers of pairwise different rows; `scatter` has one
entry per row and row `gather[scatter[i]]` equals row `i`; each gathered row is assigned to itself. -/
theorem C13_unique_partial [LinearOrder α] (sort : (Nat → Nat → Bool) → List Nat → List Nat) (hs : IsSort sort)
    (a : DMat α) (hrows : 0 < a.rows) :
    ∃ g sc, unique sort a = .ok (g, sc) ∧ sc.length = a.rows ∧ (∀ r ∈ g, r < a.rows) ∧
      g.Pairwise (fun l r => ¬ SameRow a l r) ∧
      (∀ i, i < a.rows → ∃ t, ∃ h : t < g.length, sc[i]? = some t ∧ SameRow a g[t] i) ∧
      (∀ t (h : t < g.length), sc[g[t]]? = some t) := by
  have hcomp : ∀ l r, compareExact a (List.range a.cols) l r = @decide _ (LinearOrder.toDecidableLT
      ((List.range a.cols).map (a.at' l)) ((List.range a.cols).map (a.at' r))) := by
    intro l r; rw [compareExact_key]; congr
  obtain ⟨hp, hso⟩ := hs (compareExact a (List.range a.cols)) (List.range a.rows)
  obtain ⟨g, sc, h1, h2, h3, h4, h5⟩ := uniqueFrom_spec (fun r => (List.range a.cols).map (a.at' r)) _
    (fun l r => hcomp l r) a.rows hrows _ hp (hso (List α) _ _ (fun l r => hcomp l r))
  have hsame : ∀ l r, (List.range a.cols).map (a.at' l) = (List.range a.cols).map (a.at' r) ↔ SameRow a l r := by
    intro l r
    rw [List.map_inj_left]
    simp [SameRow]
  refine ⟨g, sc, h1, h2, h3, ?_, ?_, ?_⟩
  · refine h4.imp ?_
    intro l r hlt hsr
    rw [(hsame l r).2 hsr] at hlt
    exact lt_irrefl _ hlt
  · intro i hi
    obtain ⟨t, ht, e1, e2⟩ := h5 i hi
    exact ⟨t, ht, e1, (hsame _ _).1 e2⟩
  · intro t ht
    obtain ⟨t', ht', e1, e2⟩ := h5 g[t] (h3 _ (List.getElem_mem ht))
    rw [e1]
    congr 1
    rcases lt_trichotomy t' t with h | h | h
    · have := List.pairwise_iff_getElem.1 h4 t' t ht' ht h
      rw [e2] at this; exact absurd this (lt_irrefl _)
    · exact h
    · have := List.pairwise_iff_getElem.1 h4 t t' ht ht' h
      rw [e2] at this; exact absurd this (lt_irrefl _)

/-- **C13 refuted for empty matrices.** With no rows `gather` is `[0]`, an index of a row that does not exist, for every
sorting algorithm that returns an empty list for an empty list. -/
theorem C13_empty_wrong [LinearOrder α] (sort : (Nat → Nat → Bool) → List Nat → List Nat) (hs : IsSort sort)
    (a : DMat α) (hrows : a.rows = 0) : unique sort a = .ok ([0], []) := by
  have hp := (hs (compareExact a (List.range a.cols)) (List.range a.rows)).1
  rw [hrows] at hp
  have : sort (compareExact a (List.range a.cols)) (List.range 0) = [] := by simpa using hp
  simp [unique, uniqueFrom, hrows, resize]
  have this' : sort (compareExact a (List.range a.cols)) [] = [] := by simpa using this
  rw [this']; rfl

/-- A concrete sorting function: insertion sort. -/
def insSort (comp : Nat → Nat → Bool) : List Nat → List Nat
  | [] => []
  | x :: l => ins x (insSort comp l)
where
  ins (x : Nat) : List Nat → List Nat
    | [] => [x]
    | y :: l => if comp y x then y :: ins x l else x :: y :: l

theorem ins_perm (comp : Nat → Nat → Bool) (x : Nat) (l : List Nat) : (insSort.ins comp x l).Perm (x :: l) := by
  induction l with
  | nil => exact List.Perm.refl _
  | cons y l ih =>
    unfold insSort.ins
    split
    · exact ((List.Perm.cons y ih).trans (List.Perm.swap x y l))
    · exact List.Perm.refl _

/-- The hypothesis `IsSort` is satisfiable. -/
theorem insSort_isSort : IsSort insSort := by
  intro comp l
  constructor
  · induction l with
    | nil => exact List.Perm.refl _
    | cons x l ih => exact (ins_perm comp x _).trans (List.Perm.cons x ih)
  · intro K _ key hk
    induction l with
    | nil => exact List.Pairwise.nil
    | cons x l ih =>
      have : ∀ l : List Nat, l.Pairwise (fun a b => key a ≤ key b) → (insSort.ins comp x l).Pairwise (fun a b => key a ≤ key b) := by
        intro l
        induction l with
        | nil => intro _; simp [insSort.ins]
        | cons y l ihl =>
          intro hp
          unfold insSort.ins
          rw [List.pairwise_cons] at hp
          by_cases h : comp y x = true
          · rw [if_pos h, List.pairwise_cons]
            rw [hk] at h
            refine ⟨?_, ihl hp.2⟩
            intro z hz
            rcases List.mem_cons.1 ((ins_perm comp x l).mem_iff.1 hz) with rfl | hz
            · exact le_of_lt (by simpa using h)
            · exact hp.1 z hz
          · rw [if_neg h, List.pairwise_cons, List.pairwise_cons]
            rw [hk] at h
            have hxy : key x ≤ key y := by simpa using h
            refine ⟨?_, hp⟩
            intro z hz
            rcases List.mem_cons.1 hz with rfl | hz
            · exact hxy
            · exact le_trans hxy (hp.1 z hz)
      exact this _ ih

/-- Rows (1,2), (0,5), (1,2), (0,5), (3,0). -/
example : unique insSort { rows := 5, cols := 2, at' := fun i j => ([[1,2],[0,5],[1,2],[0,5],[3,0]] : List (List Int))[i]![j]! }
    = .ok ([1, 0, 4], [1, 0, 1, 0, 2]) := by decide

/-! ### C15 -/

/-- `x` is linked to `r` by a chain of rows, each equal to its predecessor or within tolerance of it. -/
inductive Chain (comp : Nat → Nat → Bool) : Nat → Nat → Prop
  | refl (r) : Chain comp r r
  | step {r x y} : Chain comp r x → comp x y = true → Chain comp r y

structure MInv (comp : Nat → Nat → Bool) (n : Nat) (pre rest : List Nat) (s : UState) : Prop where
  shape : ∃ reps mid, s.1 = reps ++ (mid ++ rest) ∧ reps.length + mid.length = pre.length ∧ reps.length = s.2.2 + 1 ∧
    reps.Sublist pre ∧ reps.Nodup ∧
    (reps ++ mid).getLast? = pre.getLast? ∧
    (∀ x ∈ pre, ∃ t, ∃ h : t < reps.length, s.2.1[x]? = some t ∧ Chain comp reps[t] x) ∧
    (∀ pl, pre.getLast? = some pl → s.2.1[pl]? = some s.2.2)
  sclen : s.2.1.length = n

theorem minv_step (comp : Nat → Nat → Bool) (n : Nat) (pre : List Nat) (next : Nat) (rest : List Nat) (hpre : pre ≠ [])
    (hnd : (pre ++ next :: rest).Nodup) (hlt : next < n) (s : UState) (h : MInv comp n pre (next :: rest) s) :
    ∃ s', matlabStep comp s (pre.length - 1) = .ok s' ∧ MInv comp n (pre ++ [next]) rest s' := by
  obtain ⟨⟨reps, mid, hg, hlen, hi, hsub, hrnd, hlast, hsc, hpl⟩, hscl⟩ := h
  obtain ⟨g, sc, i⟩ := s
  simp only at hg hi hsc hscl hpl
  subst hg
  have hp0 : 0 < pre.length := List.length_pos_iff.2 hpre
  obtain ⟨pl, hpl0⟩ : ∃ pl, pre.getLast? = some pl := ⟨pre.getLast hpre, List.getLast?_eq_some_getLast hpre⟩
  have hrdc : rd (reps ++ (mid ++ next :: rest)) (pre.length - 1) = .ok pl := by
    rw [rd_eq_ok, ← List.append_assoc, List.getElem?_append_left (by simp; omega), ← hpl0, ← hlast,
      List.getLast?_eq_getElem?]
    congr 1; simp; omega
  have hrdk : rd (reps ++ (mid ++ next :: rest)) (pre.length - 1 + 1) = .ok next := by
    rw [rd_eq_ok, show pre.length - 1 + 1 = reps.length + mid.length by omega, List.getElem?_append_right (by omega),
      Nat.add_sub_cancel_left, List.getElem?_append_right (by omega)]
    simp
  have hnp : next ∉ pre := by
    rw [List.nodup_append] at hnd
    intro hm
    exact hnd.2.2 next hm next (by simp) rfl
  have hother : ∀ x ∈ pre, ∀ v, (sc.set next v)[x]? = sc[x]? := by
    intro x hx v
    rw [List.getElem?_set_ne]
    rintro rfl; exact hnp hx
  unfold matlabStep
  simp only [hrdc, hrdk, Out.bind_ok]
  by_cases hc : comp pl next = true
  · rw [if_pos hc, wr_of_lt (by omega), Out.bind_ok]
    refine ⟨_, rfl, ⟨reps, mid ++ [next], ?_, ?_, hi, ?_, hrnd, ?_, ?_, ?_⟩, by simp [hscl]⟩
    · simp
    · simp; omega
    · exact hsub.trans (List.sublist_append_left _ _)
    · rw [← List.append_assoc]; simp
    · intro x hx
      rcases List.mem_append.1 hx with h | h
      · obtain ⟨t, ht, h1, h2⟩ := hsc x h
        refine ⟨t, ht, ?_, h2⟩
        simp only; rw [hother x h]; exact h1
      · simp only [List.mem_singleton] at h
        subst h
        obtain ⟨t, ht, h1, h2⟩ := hsc pl (List.mem_of_getLast? hpl0)
        have := hpl pl hpl0
        rw [h1] at this
        obtain rfl : t = i := Option.some.inj this
        refine ⟨t, ht, ?_, h2.step hc⟩
        simp only; rw [List.getElem?_set_self (by omega)]
    · intro pl' hpl'
      simp only [List.getLast?_concat, Option.some.injEq] at hpl'
      subst hpl'
      simp only; rw [List.getElem?_set_self (by omega)]
  · rw [if_neg hc]
    obtain ⟨mid', hset, hml⟩ := set_shape reps mid next rest
    rw [wr_of_lt (by simp; omega), Out.bind_ok, wr_of_lt (by omega), Out.bind_ok]
    have hlast' : (reps ++ [next] ++ mid').getLast? = some next := by
      cases mid with
      | nil =>
        have : mid' = [] := by simpa using hml
        simp [this]
      | cons y m =>
        have h2 : (reps ++ (y :: m ++ next :: rest)).set reps.length next = reps ++ [next] ++ (m ++ [next] ++ rest) := by
          simp [List.set_append_right]
        rw [h2] at hset
        have h3 := List.append_cancel_left hset
        have h4 : mid' = m ++ [next] := (List.append_cancel_right h3).symm
        rw [h4, ← List.append_assoc, List.getLast?_concat]
    refine ⟨_, rfl, ⟨reps ++ [next], mid', ?_, ?_, ?_, ?_, ?_, ?_, ?_, ?_⟩, by simp [hscl]⟩
    · simp only; rw [← hi]; exact hset
    · simp; omega
    · simp [hi]
    · exact List.Sublist.append hsub (List.Sublist.refl _)
    · rw [List.nodup_append]
      refine ⟨hrnd, by simp, ?_⟩
      intro x hx y hy
      simp only [List.mem_singleton] at hy
      rintro rfl
      subst hy; exact hnp (hsub.subset hx)
    · rw [hlast']; simp
    · intro x hx
      rcases List.mem_append.1 hx with h | h
      · obtain ⟨t, ht, h1, h2⟩ := hsc x h
        refine ⟨t, by simp; omega, ?_, ?_⟩
        · simp only; rw [hother x h]; exact h1
        · rw [List.getElem_append_left ht]; exact h2
      · simp only [List.mem_singleton] at h
        subst h
        refine ⟨i + 1, by simp; omega, ?_, ?_⟩
        · simp only; rw [List.getElem?_set_self (by omega)]
        · have : (reps ++ [x])[i + 1]'(by simp; omega) = x := by simp [← hi]
          rw [this]; exact Chain.refl _
    · intro pl' hpl'
      simp only [List.getLast?_concat, Option.some.injEq] at hpl'
      subst hpl'
      simp only; rw [List.getElem?_set_self (by omega)]

theorem minv_loop (comp : Nat → Nat → Bool) (n : Nat) (rest : List Nat) :
    ∀ (pre : List Nat) (s : UState), pre ≠ [] → (pre ++ rest).Nodup → (∀ x ∈ rest, x < n) → MInv comp n pre rest s →
      ∃ s', loopM (matlabStep comp) s (List.range' (pre.length - 1) rest.length) = .ok s' ∧ MInv comp n (pre ++ rest) [] s' := by
  induction rest with
  | nil => intro pre s _ _ _ h; exact ⟨s, rfl, by simpa using h⟩
  | cons x rest ih =>
    intro pre s h1 h2 h3 h4
    obtain ⟨s1, e1, i1⟩ := minv_step comp n pre x rest h1 h2 (h3 x List.mem_cons_self) s h4
    obtain ⟨s2, e2, i2⟩ := ih (pre ++ [x]) s1 (by simp) (by simpa using h2)
      (fun y hy => h3 y (List.mem_cons_of_mem _ hy)) i1
    have hp0 : 0 < pre.length := List.length_pos_iff.2 h1
    refine ⟨s2, ?_, by simpa using i2⟩
    rw [List.length_cons, List.range'_succ, loopM_cons, e1, Out.bind_ok]
    rw [← e2]; congr 2; simp; omega

/-- What `uniquetolMatlab` guarantees for any tolerance comparison: with at least one row there is no out-of-range access,
every row is assigned to a representative to which it is linked by a chain of pairwise close rows. -/
theorem matlabFrom_spec (comp : Nat → Nat → Bool) (n : Nat) (hn : 0 < n) (sorted : List Nat)
    (hperm : sorted.Perm (List.range n)) :
    ∃ g sc, matlabFrom comp n sorted = .ok (g, sc) ∧ g.Sublist sorted ∧ sc.length = n ∧ g.Nodup ∧ (∀ r ∈ g, r < n) ∧
      ∀ x, x < n → ∃ t, ∃ h : t < g.length, sc[x]? = some t ∧ Chain comp g[t] x := by
  have hlen : sorted.length = n := by rw [hperm.length_eq, List.length_range]
  have hnd : sorted.Nodup := hperm.nodup_iff.2 List.nodup_range
  have hmem : ∀ x, x ∈ sorted ↔ x < n := fun x => by rw [hperm.mem_iff, List.mem_range]
  cases sorted with
  | nil => simp at hlen; omega
  | cons x0 rest =>
    have hx0 : x0 < n := (hmem x0).1 List.mem_cons_self
    have hinv : MInv comp n [x0] rest (x0 :: rest, (List.replicate n 0).set x0 0, 0) := by
      refine ⟨⟨[x0], [], by simp, by simp, by simp, by simp, by simp, by simp, ?_, ?_⟩, by simp⟩
      · intro x hx
        simp only [List.mem_singleton] at hx
        subst hx
        exact ⟨0, by simp, by simp [hx0], Chain.refl _⟩
      · intro pl hpl
        simp only [List.getLast?_singleton, Option.some.injEq] at hpl
        subst hpl
        simp [hx0]
    obtain ⟨s', e, hI, hscl⟩ := minv_loop comp n rest [x0] _ (by simp) (by simpa using hnd)
      (fun y hy => (hmem y).1 (List.mem_cons_of_mem _ hy)) hinv
    obtain ⟨reps, mid, hg, hl, hi, hsub, hrnd, _, hsc, _⟩ := hI
    obtain ⟨g, sc, i⟩ := s'
    simp only [List.append_nil] at hg hi hsc hscl
    refine ⟨reps, sc, ?_, by simpa using hsub, hscl, hrnd, ?_, ?_⟩
    · unfold matlabFrom
      have h0 : rd (x0 :: rest) 0 = .ok x0 := rfl
      rw [h0, Out.bind_ok, wr_of_lt (by simpa using hx0), Out.bind_ok]
      have hrg : List.range (n - 1) = List.range' ([x0].length - 1) rest.length := by
        rw [← hlen, List.range_eq_range']; simp
      rw [hrg, e, Out.bind_ok, hg]
      simp only [Out.pure_eq, resize]
      rw [← hi, List.take_left]
      have : reps.length - (reps ++ mid).length = 0 := by simp
      rw [this]; simp
    · intro r hr
      exact (hmem r).1 (by simpa using hsub.subset hr)
    · intro x hx
      exact hsc x (by simpa using (hmem x).2 hx)

/-- **C15 (partial).** `uniquetolMatlab` with `tol > 0` on a matrix with at least one row: no out-of-range access, all rows are assigned,
and row `i` is linked to row `gather[scatter[i]]` by a chain of rows each within tolerance of the next.
Missing: closeness to the representative itself, which is false, see `C15_chain_refutes`. -/
theorem C15_matlab_partial [Field α] [LinearOrder α] (sort : (Nat → Nat → Bool) → List Nat → List Nat) (hs : IsSort sort)
    (a : DMat α) (hrows : 0 < a.rows) (tol : α) (ht : 0 < tol) :
    ∃ g sc, uniquetolMatlab sort a tol = .ok (g, sc) ∧ sc.length = a.rows ∧ g.Nodup ∧ (∀ r ∈ g, r < a.rows) ∧
      ∀ i, i < a.rows → ∃ t, ∃ h : t < g.length, sc[i]? = some t ∧ Chain (compareEQ a tol) g[t] i := by
  unfold uniquetolMatlab
  rw [if_neg (not_le.2 ht)]
  obtain ⟨g, sc, h1, -, h2⟩ := matlabFrom_spec (compareEQ a tol) _ hrows _ (hs (compareExact a (orderColsByNorm sort a)) _).1
  exact ⟨g, sc, h1, h2⟩

/-- Rows `l` and `r` agree in every column within `tol` times the largest absolute value of that column. -/
def Close [Field α] [LinearOrder α] (a : DMat α) (tol : α) (l r : Nat) : Prop :=
  ∀ j, j < a.cols → ∀ M, (∀ i, i < a.rows → |a.at' i j| ≤ M) → 0 ≤ M → |a.at' l j - a.at' r j| ≤ M * tol

/-- **C15 refuted.** One column with the values 8, 9, 10 and tolerance 1/8: all three rows get the representative 8, though
10 differs from it by 2, more than 10 * 1/8. -/
theorem C15_chain_refutes : ∃ (a : DMat ℚ) (tol : ℚ), 0 < tol ∧ ∃ g sc i t, ∃ h : t < g.length,
    uniquetolMatlab insSort a tol = .ok (g, sc) ∧ i < a.rows ∧ sc[i]? = some t ∧ ¬ Close a tol g[t] i := by
  refine ⟨{ rows := 3, cols := 1, at' := fun i _ => 8 + i }, 1 / 8, by norm_num, [0], [0, 0, 0], 2, 0, by decide, ?_, by decide, by decide, ?_⟩
  · decide +kernel
  · intro h
    have := h 0 (by decide) 10 (by
      intro i hi
      simp only at hi ⊢
      rcases i with _ | _ | _ | i <;> norm_num [abs_of_nonneg]; omega) (by norm_num)
    norm_num at this

/-- With no rows the code reads and writes element 0 of empty vectors. -/
theorem C15_empty_ub (comp : Nat → Nat → Bool) : matlabFrom comp 0 [] = .ub := rfl

end Blitzdg.Blitz
