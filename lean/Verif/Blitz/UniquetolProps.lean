import Verif.Blitz.UniqueProps
import Mathlib.Algebra.Order.Field.Basic
import Mathlib.Tactic.Positivity

/-! Property C14 (`uniquetol`). -/

namespace Blitzdg.Blitz

open Blitzdg.Sparse (DMat)

variable {α : Type}

/-- Assign number `nu` to all indices in `l`. -/
def assignAll (sc l : List Nat) (nu : Nat) : List Nat := l.foldl (fun s x => s.set x nu) sc

@[simp] theorem assignAll_length (l : List Nat) (nu : Nat) : ∀ sc : List Nat, (assignAll sc l nu).length = sc.length := by
  induction l with
  | nil => intro sc; rfl
  | cons x l ih => intro sc; simpa [assignAll] using ih (sc.set x nu)

theorem assignAll_get (l : List Nat) (nu y : Nat) : ∀ sc : List Nat, y < sc.length →
    (assignAll sc l nu)[y]? = if y ∈ l then some nu else sc[y]? := by
  induction l with
  | nil => intro sc _; simp [assignAll]
  | cons x l ih =>
    intro sc hy
    have := ih (sc.set x nu) (by simpa using hy)
    simp only [assignAll, List.foldl_cons] at this ⊢
    rw [this]
    by_cases h : y ∈ l
    · simp [h]
    · by_cases hx : y = x
      · subst hx; simp [hy]
      · simp [h, hx, List.getElem?_set_ne (Ne.symm hx)]

theorem set_shape' {β : Type} (A B : List β) (x : β) (R : List β) :
    ∃ B', (A ++ (B ++ x :: R)).set A.length x = (A ++ [x]) ++ (B' ++ R) ∧ B'.length = B.length := set_shape A B x R

/-- What the inner loop of `uniquetol` does. -/
theorem tolInner_spec (comp cbd : Nat → Nat → Bool) (seed nu : Nat) (R : List Nat) :
    ∀ (fuel : Nat) (A B sc : List Nat), R.length < fuel → (∀ x ∈ R, x < sc.length) →
      ∃ g' first' last', tolInner comp cbd seed nu fuel (A ++ (B ++ R)) sc A.length (A.length + B.length) =
          .ok (g', assignAll sc ((R.takeWhile (cbd seed)).filter (comp seed)) nu, first', last') ∧
        g'.take first' ++ g'.drop last' =
          A ++ ((R.takeWhile (cbd seed)).filter (fun x => !comp seed x) ++ R.dropWhile (cbd seed)) := by
  induction R with
  | nil =>
    intro fuel A B sc hf _
    cases fuel with
    | zero => simp at hf
    | succ fuel =>
      refine ⟨A ++ B, A.length, A.length + B.length, ?_, ?_⟩
      · simp [tolInner, assignAll]
      · rw [List.take_left, List.drop_eq_nil_of_le (by simp)]; simp
  | cons x R ih =>
    intro fuel A B sc hf hlt
    cases fuel with
    | zero => simp at hf
    | succ fuel =>
      have hrd : rd (A ++ (B ++ x :: R)) (A.length + B.length) = .ok x := by
        rw [rd_eq_ok, List.getElem?_append_right (by omega), Nat.add_sub_cancel_left, List.getElem?_append_right (by omega)]
        simp
      have hne : A.length + B.length ≠ (A ++ (B ++ x :: R)).length := by simp
      unfold tolInner
      rw [if_neg hne, hrd, Out.bind_ok]
      have hx := hlt x List.mem_cons_self
      by_cases hd : cbd seed x = true
      · rw [if_pos hd]
        by_cases hc : comp seed x = true
        · rw [if_pos hc, wr_of_lt hx, Out.bind_ok]
          obtain ⟨g', f', l', h1, h2⟩ := ih fuel A (B ++ [x]) (sc.set x nu) (by simpa using hf)
            (fun y hy => by simpa using hlt y (List.mem_cons_of_mem _ hy))
          refine ⟨g', f', l', ?_, ?_⟩
          · simp only [List.takeWhile_cons, hd, if_true, List.filter_cons, hc]
            simpa [assignAll, Nat.add_assoc] using h1
          · simp only [List.takeWhile_cons, List.dropWhile_cons, hd, if_true, List.filter_cons, hc]
            simpa using h2
        · rw [if_neg hc, wr_of_lt (by simp), Out.bind_ok]
          obtain ⟨B', hB, hBl⟩ := set_shape' A B x R
          rw [hB]
          obtain ⟨g', f', l', h1, h2⟩ := ih fuel (A ++ [x]) B' sc (by simpa using hf)
            (fun y hy => hlt y (List.mem_cons_of_mem _ hy))
          refine ⟨g', f', l', ?_, ?_⟩
          · simp only [List.takeWhile_cons, hd, if_true, List.filter_cons, hc]
            rw [show A.length + B.length + 1 = (A ++ [x]).length + B'.length by simp; omega,
              show A.length + 1 = (A ++ [x]).length by simp]
            exact h1
          · simp only [List.takeWhile_cons, List.dropWhile_cons, hd, if_true, List.filter_cons, hc]
            simpa using h2
      · rw [if_neg hd]
        refine ⟨A ++ (B ++ x :: R), A.length, A.length + B.length, ?_, ?_⟩
        · simp only [List.takeWhile_cons, hd]; rfl
        · simp only [List.takeWhile_cons, List.dropWhile_cons, hd]
          rw [List.take_left, ← List.append_assoc, List.drop_left' (by simp)]
          simp

structure TInv (comp : Nat → Nat → Bool) (n : Nat) (sorted reps todo sc : List Nat) : Prop where
  nodup : (reps ++ todo).Nodup
  lt : ∀ x ∈ reps ++ todo, x < n
  sub : todo.Sublist sorted
  keep : (reps ++ todo).Sublist sorted
  sclen : sc.length = n
  cover : ∀ x, x < n → x ∈ todo ∨ ∃ t, ∃ h : t < reps.length, sc[x]? = some t ∧ (reps[t] = x ∨ comp reps[t] x = true)
  self : ∀ t (h : t < reps.length), sc[reps[t]]? = some t
  far : reps.Pairwise (fun r s => comp r s = false)
  far' : ∀ r ∈ reps, ∀ y ∈ todo, comp r y = false

theorem tinv_step (comp cbd : Nat → Nat → Bool) (le : Nat → Nat → Prop) (hcc : ∀ a b, comp a b = true → cbd a b = true)
    (hmono : ∀ a b c, le a b → le b c → cbd a c = true → cbd a b = true)
    (n : Nat) (sorted : List Nat) (hs : sorted.Pairwise le) (reps : List Nat) (seed : Nat) (R sc : List Nat)
    (h : TInv comp n sorted reps (seed :: R) sc) :
    TInv comp n sorted (reps ++ [seed]) ((R.takeWhile (cbd seed)).filter (fun x => !comp seed x) ++ R.dropWhile (cbd seed))
      ((assignAll sc ((R.takeWhile (cbd seed)).filter (comp seed)) reps.length).set seed reps.length) := by
  have hsubR : ((R.takeWhile (cbd seed)).filter (fun x => !comp seed x) ++ R.dropWhile (cbd seed)).Sublist R := by
    conv => rhs; rw [← List.takeWhile_append_dropWhile (p := cbd seed) (l := R)]
    exact List.Sublist.append List.filter_sublist (List.Sublist.refl _)
  have hnd := h.nodup
  have hseed : seed < n := h.lt seed (by simp)
  have hseedR : seed ∉ R := by
    rw [List.nodup_append] at hnd
    exact (List.nodup_cons.1 hnd.2.1).1
  have hseedreps : seed ∉ reps := by
    rw [List.nodup_append] at hnd
    intro hm; exact hnd.2.2 seed hm seed (by simp) rfl
  have hrepsR : ∀ r ∈ reps, r ∉ R := by
    rw [List.nodup_append] at hnd
    intro r hr hR
    exact hnd.2.2 r hr r (List.mem_cons_of_mem _ hR) rfl
  have hblk : ∀ x, x ∈ (R.takeWhile (cbd seed)).filter (comp seed) → x ∈ R := fun x hx =>
    (List.takeWhile_sublist _).subset (List.mem_filter.1 hx).1
  have hget : ∀ y, y < n → y ≠ seed →
      ((assignAll sc ((R.takeWhile (cbd seed)).filter (comp seed)) reps.length).set seed reps.length)[y]? =
        if y ∈ (R.takeWhile (cbd seed)).filter (comp seed) then some reps.length else sc[y]? := by
    intro y hy hne
    rw [List.getElem?_set_ne (Ne.symm hne), assignAll_get _ _ _ _ (by rw [h.sclen]; exact hy)]
  have hgetseed : ((assignAll sc ((R.takeWhile (cbd seed)).filter (comp seed)) reps.length).set seed reps.length)[seed]? =
      some reps.length := by
    rw [List.getElem?_set_self (by rw [assignAll_length, h.sclen]; exact hseed)]
  constructor
  · rw [List.append_assoc]
    exact hnd.sublist (List.Sublist.append (List.Sublist.refl _) (by simpa using hsubR))
  · intro x hx
    rw [List.append_assoc] at hx
    exact h.lt x ((List.Sublist.append (List.Sublist.refl reps)
      (show ([seed] ++ _).Sublist (seed :: R) by simpa using hsubR)).subset hx)
  · exact hsubR.trans ((List.sublist_cons_self seed R).trans h.sub)
  · rw [List.append_assoc]
    exact (List.Sublist.append (List.Sublist.refl reps) (by simpa using hsubR)).trans h.keep
  · simp [h.sclen]
  · intro x hx
    by_cases hxs : x = seed
    · subst hxs
      exact Or.inr ⟨reps.length, by simp, hgetseed, Or.inl (by simp)⟩
    · rcases h.cover x hx with hm | ⟨t, ht, h1, h2⟩
      · have hm' : x ∈ R := by
          rcases List.mem_cons.1 hm with h | h
          · exact absurd h hxs
          · exact h
        rw [← List.takeWhile_append_dropWhile (p := cbd seed) (l := R)] at hm'
        rcases List.mem_append.1 hm' with hb | hb
        · by_cases hc : comp seed x = true
          · refine Or.inr ⟨reps.length, by simp, ?_, Or.inr (by simpa using hc)⟩
            rw [hget x hx hxs, if_pos (List.mem_filter.2 ⟨hb, hc⟩)]
          · exact Or.inl (List.mem_append.2 (Or.inl (List.mem_filter.2 ⟨hb, by simpa using hc⟩)))
        · exact Or.inl (List.mem_append.2 (Or.inr hb))
      · by_cases hb : x ∈ (R.takeWhile (cbd seed)).filter (comp seed)
        · refine Or.inr ⟨reps.length, by simp, ?_, Or.inr (by simpa using (List.mem_filter.1 hb).2)⟩
          rw [hget x hx hxs, if_pos hb]
        · refine Or.inr ⟨t, by simp; omega, ?_, ?_⟩
          · rw [hget x hx hxs, if_neg hb]; exact h1
          · rw [List.getElem_append_left ht]; exact h2
  · intro t ht
    by_cases htl : t < reps.length
    · rw [List.getElem_append_left htl]
      have hm : reps[t] ∈ reps := List.getElem_mem htl
      rw [hget _ (h.lt _ (List.mem_append.2 (Or.inl hm))) (fun e => hseedreps (e ▸ hm)),
        if_neg (fun hb => hrepsR _ hm (hblk _ hb))]
      exact h.self t htl
    · have : t = reps.length := by simp at ht; omega
      subst this
      simpa using hgetseed
  · rw [List.pairwise_append]
    refine ⟨h.far, by simp, ?_⟩
    intro r hr s hs
    simp only [List.mem_singleton] at hs
    subst hs
    exact h.far' r hr _ (by simp)
  · intro r hr y hy
    rcases List.mem_append.1 hr with hr | hr
    · exact h.far' r hr y (List.mem_cons_of_mem _ (hsubR.subset hy))
    · simp only [List.mem_singleton] at hr
      subst hr
      rcases List.mem_append.1 hy with hy | hy
      · simpa using (List.mem_filter.1 hy).2
      · -- `y` lies behind the first element that differs in the sorting column
        by_contra hc
        have hcy := hcc r y (by simpa using hc)
        have hpw : (r :: R).Pairwise le := hs.sublist h.sub
        rw [List.pairwise_cons] at hpw
        cases hd : R.dropWhile (cbd r) with
        | nil => rw [hd] at hy; simp at hy
        | cons z Z =>
          have hz : cbd r z = false := by
            have := List.head?_dropWhile_not (cbd r) R
            rw [hd] at this; simpa using this
          have hzR : z ∈ R := (List.dropWhile_sublist (cbd r)).subset (by rw [hd]; simp)
          rw [hd] at hy
          rcases List.mem_cons.1 hy with rfl | hy
          · rw [hz] at hcy; simp at hcy
          · have hpz : (z :: Z).Pairwise le := hd ▸ hpw.2.sublist (List.dropWhile_sublist (cbd r))
            have := hmono r z y (hpw.1 z hzR) ((List.pairwise_cons.1 hpz).1 y hy) hcy
            rw [hz] at this; simp at this

theorem tolOuter_spec (comp cbd : Nat → Nat → Bool) (le : Nat → Nat → Prop) (hcc : ∀ a b, comp a b = true → cbd a b = true)
    (hmono : ∀ a b c, le a b → le b c → cbd a c = true → cbd a b = true)
    (n : Nat) (sorted : List Nat) (hs : sorted.Pairwise le) :
    ∀ (fuel : Nat) (reps todo sc : List Nat), todo.length ≤ fuel → TInv comp n sorted reps todo sc →
      ∃ reps' sc', tolOuter comp cbd fuel (reps ++ todo) sc reps.length reps.length =
          .ok (reps', sc', reps'.length, reps'.length) ∧ TInv comp n sorted reps' [] sc' := by
  intro fuel
  induction fuel with
  | zero =>
    intro reps todo sc hf h
    have : todo = [] := by simpa using hf
    subst this
    exact ⟨reps, sc, by simp [tolOuter], h⟩
  | succ fuel ih =>
    intro reps todo sc hf h
    cases todo with
    | nil => exact ⟨reps, sc, by simp [tolOuter], h⟩
    | cons seed R =>
      have hrd : rd (reps ++ seed :: R) reps.length = .ok seed := by
        rw [rd_eq_ok, List.getElem?_append_right (by omega)]; simp
      have hne : reps.length ≠ (reps ++ seed :: R).length := by simp
      obtain ⟨g', f', l', e1, e2⟩ := tolInner_spec comp cbd seed reps.length R (reps ++ seed :: R).length
        (reps ++ [seed]) [] sc (by simp; omega) (fun x hx => by
          rw [h.sclen]; exact h.lt x (List.mem_append.2 (Or.inr (List.mem_cons_of_mem _ hx))))
      simp only [List.nil_append, List.append_assoc, List.singleton_append, List.length_append, List.length_cons,
        List.length_nil, Nat.zero_add, Nat.add_zero] at e1 e2
      have hstep := tinv_step comp cbd le hcc hmono n sorted hs reps seed R sc h
      obtain ⟨reps', sc', e3, e4⟩ := ih (reps ++ [seed]) _ _ (by
        have h1 : ((R.takeWhile (cbd seed)).filter (fun x => !comp seed x) ++ R.dropWhile (cbd seed)).length ≤ R.length := by
          have hl := congrArg List.length (List.takeWhile_append_dropWhile (p := cbd seed) (l := R))
          have := List.length_filter_le (fun x => !comp seed x) (R.takeWhile (cbd seed))
          simp only [List.length_append] at hl ⊢
          omega
        have h2 : R.length + 1 ≤ fuel + 1 := hf
        omega) hstep
      refine ⟨reps', sc', ?_, e4⟩
      unfold tolOuter
      rw [if_neg hne, hrd, Out.bind_ok]
      simp only [List.length_append, List.length_cons]
      rw [e1, Out.bind_ok]
      simp only
      rw [wr_of_lt (by rw [assignAll_length, h.sclen]; exact h.lt seed (by simp)), Out.bind_ok, e2]
      simpa using e3

section field
variable [Field α] [LinearOrder α] [IsStrictOrderedRing α]

theorem foldl_max_le (f : Nat → α) (l : List Nat) : ∀ (t M : α), t ≤ M → (∀ i ∈ l, f i ≤ M) →
    l.foldl (fun t i => max t (f i)) t ≤ M := by
  induction l with
  | nil => intro t M h _; exact h
  | cons x l ih =>
    intro t M h1 h2
    exact ih _ _ (max_le h1 (h2 x List.mem_cons_self)) (fun i hi => h2 i (List.mem_cons_of_mem _ hi))

theorem le_foldl_max (f : Nat → α) (l : List Nat) : ∀ t : α, t ≤ l.foldl (fun t i => max t (f i)) t ∧
    ∀ i ∈ l, f i ≤ l.foldl (fun t i => max t (f i)) t := by
  induction l with
  | nil => intro t; exact ⟨le_refl _, by simp⟩
  | cons x l ih =>
    intro t
    obtain ⟨h1, h2⟩ := ih (max t (f x))
    refine ⟨le_trans (le_max_left _ _) h1, ?_⟩
    intro i hi
    rcases List.mem_cons.1 hi with rfl | hi
    · exact le_trans (le_max_right _ _) h1
    · exact h2 i hi

theorem compareEQ_iff (a : DMat α) (tol : α) (ht : 0 ≤ tol) (l r : Nat) : compareEQ a tol l r = true ↔ Close a tol l r := by
  unfold compareEQ Close
  simp only [List.all_eq_true, List.mem_range, Bool.not_eq_true', decide_eq_false_iff_not, not_lt]
  constructor
  · intro h j hj M hM h0
    refine le_trans (h j hj) (mul_le_mul_of_nonneg_right ?_ ht)
    exact foldl_max_le (fun i => |a.at' i j|) _ _ _ h0 (fun i hi => hM i (List.mem_range.1 hi))
  · intro h j hj
    have := le_foldl_max (fun i => |a.at' i j|) (List.range a.rows) 0
    exact h j hj _ (fun i hi => this.2 i (List.mem_range.2 hi)) this.1

/-- Everything C14 and C129 say about `uniquetol`. -/
theorem uniquetol_full (sort : (Nat → Nat → Bool) → List Nat → List Nat) (hsort : IsSort sort) (a : DMat α) (hcols : 0 < a.cols)
    (tol : α) (ht : 0 < tol) :
    ∃ g sc, uniquetol sort a tol = .ok (g, sc) ∧ g.Nodup ∧ (∀ r ∈ g, r < a.rows) ∧ sc.length = a.rows ∧
      (∀ i, i < a.rows → ∃ t, ∃ h : t < g.length, sc[i]? = some t ∧ Close a tol g[t] i) ∧
      (∀ t (h : t < g.length), sc[g[t]]? = some t) ∧
      g.Pairwise (fun r s => ¬ Close a tol r s) ∧
      g.Sublist (sort (compareExact a (getOrdering sort a)) (List.range a.rows)) := by
  -- the sorting column
  obtain ⟨dim, ords, hord, hdim⟩ : ∃ dim ords, getOrdering sort a = dim :: ords ∧ dim < a.cols := by
    unfold getOrdering
    by_cases h2 : a.cols < 2
    · exact ⟨0, [], by rw [if_pos h2], hcols⟩
    · rw [if_neg h2]
      have hp := (hsort (fun i j => decide ((variance a j).2 < (variance a i).2)) (List.range a.cols)).1
      cases hl : sort (fun i j => decide ((variance a j).2 < (variance a i).2)) (List.range a.cols) with
      | nil => rw [hl] at hp; have := hp.length_eq; simp at this; omega
      | cons d ds =>
        refine ⟨d, ds, rfl, ?_⟩
        rw [hl] at hp
        simpa using hp.mem_iff.1 List.mem_cons_self
  set sorted := sort (compareExact a (dim :: ords)) (List.range a.rows) with hsd
  obtain ⟨hperm, hso⟩ := hsort (compareExact a (dim :: ords)) (List.range a.rows)
  rw [← hsd] at hperm hso
  have hpw : sorted.Pairwise (fun l r => a.at' l dim ≤ a.at' r dim) := by
    have := hso (List α) inferInstance (fun r => (dim :: ords).map (a.at' r)) (by
      intro l r; rw [compareExact_key]; congr)
    refine this.imp ?_
    intro l r h
    by_contra hc
    rw [not_le] at hc
    have : (dim :: ords).map (a.at' r) < (dim :: ords).map (a.at' l) := by
      rw [List.map_cons, List.map_cons, List.cons_lt_cons_iff]; exact Or.inl hc
    exact absurd h (not_le.2 this)
  have hcc : ∀ l r, compareEQ a tol l r = true → compareEQByDim a dim tol l r = true := by
    intro l r h
    unfold compareEQ at h
    simp only [List.all_eq_true, List.mem_range, Bool.not_eq_true', decide_eq_false_iff_not, not_lt] at h
    unfold compareEQByDim
    simpa using h dim hdim
  have hmono : ∀ l m r, a.at' l dim ≤ a.at' m dim → a.at' m dim ≤ a.at' r dim →
      compareEQByDim a dim tol l r = true → compareEQByDim a dim tol l m = true := by
    intro l m r h1 h2 h3
    unfold compareEQByDim at h3 ⊢
    simp only [decide_eq_true_eq] at h3 ⊢
    refine le_trans ?_ h3
    rw [abs_sub_comm, abs_sub_comm (a.at' l dim), abs_of_nonneg (sub_nonneg.2 h1), abs_of_nonneg (sub_nonneg.2 (le_trans h1 h2))]
    linarith
  have hlen : sorted.length = a.rows := by rw [hperm.length_eq, List.length_range]
  have hmem : ∀ x, x ∈ sorted ↔ x < a.rows := fun x => by rw [hperm.mem_iff, List.mem_range]
  have hinit : TInv (compareEQ a tol) a.rows sorted [] sorted (List.replicate a.rows 0) := by
    refine ⟨by simpa using hperm.nodup_iff.2 List.nodup_range, fun x hx => (hmem x).1 (by simpa using hx), List.Sublist.refl _,
      List.Sublist.refl _, by simp, fun x hx => Or.inl ((hmem x).2 hx), by simp, by simp, by simp⟩
  obtain ⟨reps, sc, e, hI⟩ := tolOuter_spec (compareEQ a tol) (compareEQByDim a dim tol) _ hcc hmono a.rows sorted hpw a.rows
    [] sorted _ (by omega) hinit
  refine ⟨reps, sc, ?_, by simpa using hI.nodup, fun r hr => hI.lt r (by simpa using hr), hI.sclen, ?_, hI.self, ?_, ?_⟩
  · unfold uniquetol
    rw [if_neg (not_le.2 ht)]
    simp only [hord]
    have h0 : rd (dim :: ords) 0 = .ok dim := rfl
    rw [h0, Out.bind_ok, ← hsd]
    unfold uniquetolFrom
    simp only [List.nil_append, List.length_nil] at e
    rw [e]; rfl
  · intro i hi
    rcases hI.cover i hi with h | ⟨t, h, h1, h2⟩
    · simp at h
    · refine ⟨t, h, h1, ?_⟩
      rcases h2 with h2 | h2
      · rw [h2]
        intro j hj M hM h0
        simpa using mul_nonneg h0 (le_of_lt ht)
      · exact (compareEQ_iff a tol (le_of_lt ht) _ _).1 h2
  · refine hI.far.imp ?_
    intro r s h hc
    rw [(compareEQ_iff a tol (le_of_lt ht) r s).2 hc] at h
    simp at h
  · rw [hord, ← hsd]
    simpa using hI.keep

/-- **C14.** For every matrix with at least one column, every `tol > 0` and every sorting algorithm, `uniquetol` returns without
out-of-range access; `gather` lists distinct row numbers; `scatter` has an entry for every row; row `i` is within the
column-scaled tolerance of row `gather[scatter[i]]`; each representative is assigned to itself; and no two
representatives are within tolerance of each other. -/
theorem C14_uniquetol (sort : (Nat → Nat → Bool) → List Nat → List Nat) (hsort : IsSort sort) (a : DMat α) (hcols : 0 < a.cols)
    (tol : α) (ht : 0 < tol) :
    ∃ g sc, uniquetol sort a tol = .ok (g, sc) ∧ g.Nodup ∧ (∀ r ∈ g, r < a.rows) ∧ sc.length = a.rows ∧
      (∀ i, i < a.rows → ∃ t, ∃ h : t < g.length, sc[i]? = some t ∧ Close a tol g[t] i) ∧
      (∀ t (h : t < g.length), sc[g[t]]? = some t) ∧
      g.Pairwise (fun r s => ¬ Close a tol r s) := by
  obtain ⟨g, sc, h1, h2, h3, h4, h5, h6, h7, -⟩ := uniquetol_full sort hsort a hcols tol ht
  exact ⟨g, sc, h1, h2, h3, h4, h5, h6, h7⟩

end field

/-- Rows 8, 9, 10, 20 with tolerance 1/10: 9 and 10 are within 2 of 8. -/
example : uniquetol insSort { rows := 4, cols := 1, at' := fun i _ => ([9, 20, 8, 10] : List ℚ)[i]! } (1 / 10)
    = .ok ([2, 1], [0, 1, 0, 0]) := by decide +kernel

end Blitzdg.Blitz
