import Verif.Ins2D.Namelist
import Verif.Csv.Lemmas
import Mathlib.Data.List.Count

/-! C107: the parameter file of ins2d. -/

namespace Blitzdg.Ins2D

open Blitzdg.Csv (Str getline Lines)

/-! ### Specification -/

/-- Blanks only. -/
def Pad (s : Str) : Prop := ∀ c ∈ s, c = ' '

/-- A word that can be a key or a value: no equal sign, no null character, no blank at either end (it may be empty). -/
structure Word (s : Str) : Prop where
  noEq : '=' ∉ s
  noNul : Char.ofNat 0 ∉ s
  first : s.head? ≠ some ' '
  last : s.getLast? ≠ some ' '

/-- A line is ignored: empty, or begins with `#`. -/
def Ignored (line : Str) : Prop := line = [] ∨ line.head? = some '#'

/-- A line assigns `v` to `k`: `k = v`, with blanks around both words, and something behind the equal sign. -/
def Assigns (line k v : Str) : Prop :=
  Word k ∧ Word v ∧ line.head? ≠ some '#' ∧ ∃ p q r t, Pad p ∧ Pad q ∧ Pad r ∧ Pad t ∧ line = p ++ k ++ q ++ '=' :: (r ++ v ++ t) ∧ r ++ v ++ t ≠ []

/-- What a line says. -/
def Means (line : Str) : Option (Str × Str) → Prop
  | none => Ignored line
  | some (k, v) => Assigns line k v

/-! ### Words and segments -/

theorem trim_pad (p w t : Str) (hp : Pad p) (hw : w.head? ≠ some ' ') (hl : w.getLast? ≠ some ' ') (ht : Pad t) : trimBlanks (p ++ w ++ t) = w := by
  unfold trimBlanks
  have pb : ∀ {s : Str}, Pad s → ∀ c ∈ s, (c == ' ') = true := fun h c hc => by simp [h c hc]
  have pr : ∀ {s : Str}, Pad s → Pad s.reverse := fun h c hc => h c (List.mem_reverse.1 hc)
  rw [List.append_assoc, Csv.dropWhile_append_all p _ (pb hp)]
  by_cases h0 : w = []
  · subst h0
    rw [List.nil_append, (Csv.dropWhile_eq_nil t).2 (pb ht)]
    rfl
  · obtain ⟨a, l, rfl⟩ := List.exists_cons_of_ne_nil h0
    rw [Csv.dropWhile_id (a :: l ++ t) (by intro c hc; simp at hc hw; subst hc; simp [hw])]
    rw [List.reverse_append, Csv.dropWhile_append_all _ _ (pb (pr ht)), Csv.dropWhile_id, List.reverse_reverse]
    intro c hc
    rw [List.head?_reverse] at hc
    rw [hc] at hl
    simpa using hl

theorem cStr_id (w : Str) (h : Char.ofNat 0 ∉ w) : cStr w = w :=
  (Csv.takeWhile_all w fun c hc => by simp; rintro rfl; exact h hc).1

theorem seg_word (p w t : Str) (hp : Pad p) (hw : Word w) (ht : Pad t) : cStr (trimBlanks (p ++ w ++ t)) = w := by
  rw [trim_pad p w t hp hw.first hw.last ht, cStr_id w hw.noNul]

theorem pad_noEq {p : Str} (hp : Pad p) : '=' ∉ p := fun h => by simpa using hp _ h

theorem segmentsLoop_eq (s s' : Str) (fuel : Nat) (h : '=' ∉ s) : segmentsLoop (fuel + 1) (s ++ '=' :: s') = cStr (trimBlanks s) :: segmentsLoop fuel s' := by
  have hs : ∀ c ∈ s, (c != '=') = true := fun c hc => by simp; rintro rfl; exact h hc
  have := Csv.takeWhile_append_stop (p := fun c => c != '=') s '=' s' hs (by simp)
  rw [segmentsLoop, if_neg (by simp), this.1, this.2, List.drop_succ_cons, List.drop_zero]

theorem segmentsLoop_last (s : Str) (fuel : Nat) (hne : s ≠ []) (h : '=' ∉ s) : segmentsLoop (fuel + 1) s = [cStr (trimBlanks s)] := by
  have hs : ∀ c ∈ s, (c != '=') = true := fun c hc => by simp; rintro rfl; exact h hc
  have := Csv.takeWhile_all (p := fun c => c != '=') s hs
  rw [segmentsLoop, if_neg hne, this.1, this.2]
  cases fuel <;> simp [segmentsLoop]

theorem segmentsLoop_nil (fuel : Nat) : segmentsLoop fuel [] = [] := by cases fuel <;> simp [segmentsLoop]

/-- Cutting a text at its first equal sign. -/
theorem cut (s : Str) (h : '=' ∈ s) : ∃ a b, s = a ++ '=' :: b ∧ '=' ∉ a := by
  obtain ⟨a, b, h1, h2⟩ := List.append_of_mem h |>.elim fun a ha => ha.elim fun b hb => (⟨a, b, hb, trivial⟩ : ∃ a b, s = a ++ '=' :: b ∧ True)
  clear h2
  induction s generalizing a with
  | nil => simp at h
  | cons c s ih =>
    by_cases hc : c = '='
    · exact ⟨[], s, by simp [hc], by simp⟩
    · have hs : '=' ∈ s := by
        rcases List.mem_cons.1 h with h | h
        · exact absurd h.symm hc
        · exact h
      cases a with
      | nil => simp at h1; exact absurd h1.1 hc
      | cons d a =>
        simp only [List.cons_append, List.cons.injEq] at h1
        obtain ⟨a', b', e, hn⟩ := ih hs a h1.2
        exact ⟨c :: a', b', by rw [e]; rfl, by simp [hn]; exact fun h => hc h.symm⟩

/-- The number of pieces: one more than the number of equal signs, unless the last character is one. -/
theorem segmentsLoop_length (fuel : Nat) : ∀ s : Str, s.length ≤ fuel → s ≠ [] → (segmentsLoop fuel s).length = s.count '=' + if s.getLast? = some '=' then 0 else 1 := by
  induction fuel with
  | zero => intro s h hne; exact absurd (List.length_eq_zero_iff.1 (by omega)) hne
  | succ fuel ih =>
    intro s h hne
    by_cases he : '=' ∈ s
    · obtain ⟨a, b, rfl, ha⟩ := cut s he
      rw [segmentsLoop_eq a b fuel ha, List.length_cons, List.count_append, List.count_cons, List.count_eq_zero.2 ha]
      by_cases hb : b = []
      · subst hb
        simp [segmentsLoop_nil]
      · rw [ih b (by simp at h; omega) hb]
        have hl : (a ++ '=' :: b).getLast? = b.getLast? := by
          obtain ⟨x, l, rfl⟩ := List.exists_cons_of_ne_nil hb
          rw [List.getLast?_append, List.getLast?_cons_cons]
          cases hx : (x :: l).getLast? with
          | none => simp at hx
          | some y => rfl
        rw [hl]
        simp
        omega
    · rw [segmentsLoop_last s fuel hne he, List.count_eq_zero.2 he]
      rw [if_neg]
      · rfl
      · intro hl
        exact he (List.mem_of_getLast? hl)

/-! ### Lines -/

theorem parseLine_ignored (c : Config) (line : Str) (h : Ignored line) : parseLine c line = .ok c := by
  unfold parseLine
  rcases h with h | h
  · rw [if_pos h]
  · by_cases h0 : line = []
    · rw [if_pos h0]
    · rw [if_neg h0, if_pos h]

theorem parseLine_assigns (c : Config) (line k v : Str) (h : Assigns line k v) : parseLine c line = .ok (c.insert (upper k) v) := by
  obtain ⟨hk, hv, hh, p, q, r, t, hp, hq, hr, ht, rfl, hne⟩ := h
  have n1 : '=' ∉ p ++ k ++ q := by simp [pad_noEq hp, hk.noEq, pad_noEq hq]
  have n2 : '=' ∉ r ++ v ++ t := by simp [pad_noEq hr, hv.noEq, pad_noEq ht]
  have hs : segments (p ++ k ++ q ++ '=' :: (r ++ v ++ t)) = [k, v] := by
    unfold segments
    obtain ⟨n, hn⟩ : ∃ n, (p ++ k ++ q ++ '=' :: (r ++ v ++ t)).length = n + 1 + 1 := by
      have : 0 < (r ++ v ++ t).length := List.length_pos_iff.2 hne
      refine ⟨(p ++ k ++ q).length + (r ++ v ++ t).length - 1, ?_⟩
      rw [List.length_append, List.length_cons]
      omega
    rw [hn, segmentsLoop_eq _ _ _ n1, segmentsLoop_last _ _ hne n2, seg_word p k q hp hk hq, seg_word r v t hr hv ht]
  unfold parseLine
  rw [if_neg (by simp), if_neg hh, hs]
  simp [rd]

theorem parseLoop_lines (ls : List Str) : ∀ (fuel : Nat) (c : Config) (s : Str), ls.length < fuel → Lines s ls → parseLoop fuel c s = loopM parseLine c ls := by
  induction ls with
  | nil =>
    intro fuel c s hf h
    obtain ⟨fuel, rfl⟩ : ∃ f, fuel = f + 1 := ⟨fuel - 1, by simp at hf; omega⟩
    have : getline s = none := by rw [h.getline_nil]; rfl
    simp only [parseLoop, this]
    rfl
  | cons l ls ih =>
    intro fuel c s hf h
    obtain ⟨fuel, rfl⟩ : ∃ f, fuel = f + 1 := ⟨fuel - 1, by simp at hf; omega⟩
    obtain ⟨t, h1, h2⟩ := h.getline_cons'
    simp only [parseLoop, h1, loopM_cons]
    cases parseLine c l with
    | ok c' => simp only [Out.bind_ok]; exact ih fuel c' t (by simp at hf; omega) h2
    | throws => rfl
    | ub => rfl

theorem parseFile_lines (text : Str) (ls : List Str) (h : Lines text ls) : parseFile (some text) = loopM parseLine [] ls :=
  parseLoop_lines ls _ _ _ (by have := h.length_le; omega) h

/-! ### The map -/

theorem get_insert (c : Config) (k v k' : Str) : (c.insert k v).get k' = (c.get k').or (if k = k' then some v else none) := by
  unfold Config.insert
  by_cases h : (c.get k).isSome
  · rw [if_pos h]
    by_cases hk : k = k'
    · subst hk
      obtain ⟨x, hx⟩ := Option.isSome_iff_exists.1 h
      rw [hx]; rfl
    · rw [if_neg hk, Option.or_none]
  · rw [if_neg h]
    have hn : c.get k = none := by simpa using h
    unfold Config.get at hn ⊢
    rw [List.find?_cons]
    by_cases hk : k = k'
    · subst hk
      rw [hn]
      simp
    · have : ((k, v).1 == k') = false := by simp [hk]
      rw [this, if_neg hk, Option.or_none]

/-- The value of `key` according to a list of assignments: the first one whose key agrees up to case. -/
def firstValue (as : List (Str × Str)) (key : Str) : Option Str := (as.find? fun a => decide (upper a.1 = key)).map Prod.snd

theorem loop_means (ls : List Str) : ∀ (items : List (Option (Str × Str))), List.Forall₂ Means ls items → ∀ c : Config,
    ∃ c', loopM parseLine c ls = .ok c' ∧ ∀ key, c'.get key = (c.get key).or (firstValue (items.filterMap id) key) := by
  induction ls with
  | nil =>
    intro items h c
    cases h
    exact ⟨c, rfl, fun key => by simp [firstValue]⟩
  | cons l ls ih =>
    intro items h c
    cases h with
    | @cons _ a _ items h1 h2 =>
    cases a with
    | none =>
      obtain ⟨c', e, hc⟩ := ih items h2 c
      exact ⟨c', by rw [loopM_cons, parseLine_ignored c l h1, Out.bind_ok, e], hc⟩
    | some kv =>
      obtain ⟨k, v⟩ := kv
      obtain ⟨c', e, hc⟩ := ih items h2 (c.insert (upper k) v)
      refine ⟨c', by rw [loopM_cons, parseLine_assigns c l k v h1, Out.bind_ok, e], fun key => ?_⟩
      rw [hc, get_insert, Option.or_assoc]
      congr 1
      unfold firstValue
      simp only [List.filterMap_cons, id, List.find?_cons]
      by_cases hk : upper k = key
      · simp [hk]
      · simp [hk]

/-- **C107, reading.** A file whose lines are empty, comments, or assignments `key = value` with any number of blanks is accepted, and every key has the value of the first line assigning to it,
compared without regard to case; keys not mentioned have none. -/
theorem C107_reads (text : Str) (ls : List Str) (h : Lines text ls) (items : List (Option (Str × Str))) (hi : List.Forall₂ Means ls items) :
    ∃ c, parseFile (some text) = .ok c ∧ ∀ key, c.get key = firstValue (items.filterMap id) key := by
  obtain ⟨c, e, hc⟩ := loop_means ls items hi []
  exact ⟨c, by rw [parseFile_lines text ls h, e], fun key => by rw [hc]; rfl⟩

/-- A line the program refuses: neither empty nor a comment, with an even number of equal signs, or an odd number the last of which ends the line. -/
def Refused (line : Str) : Prop := ¬ Ignored line ∧ (if line.getLast? = some '=' then line.count '=' % 2 = 1 else line.count '=' % 2 = 0)

theorem parseLine_total (c : Config) (line : Str) : (Refused line → parseLine c line = .throws) ∧ (¬ Refused line → ∃ c', parseLine c line = .ok c') := by
  by_cases hi : Ignored line
  · exact ⟨fun h => absurd hi h.1, fun _ => ⟨c, parseLine_ignored c line hi⟩⟩
  · have h0 : line ≠ [] := fun h => hi (Or.inl h)
    have h1 : ¬ line.head? = some '#' := fun h => hi (Or.inr h)
    have hl := segmentsLoop_length line.length line (le_refl _) h0
    have hpos : 0 < (segments line).length := by
      unfold segments
      obtain ⟨n, hn⟩ : ∃ n, line.length = n + 1 := ⟨line.length - 1, by have := List.length_pos_iff.2 h0; omega⟩
      rw [hn, segmentsLoop, if_neg h0]
      simp
    have hr : Refused line ↔ (segments line).length % 2 = 1 := by
      unfold Refused segments
      rw [hl]
      split_ifs with hlast
      · simp [hi]
      · simp only [hi, not_false_eq_true, true_and]
        omega
    constructor
    · intro h
      unfold parseLine
      rw [if_neg h0, if_neg h1]
      exact if_pos (hr.1 h)
    · intro h
      have h2 : ¬ (segments line).length % 2 = 1 := fun h' => h (hr.2 h')
      refine ⟨c.insert (upper (segments line)[0]) ((segments line)[1]'(by omega)), ?_⟩
      unfold parseLine
      rw [if_neg h0, if_neg h1]
      simp only [if_neg h2, rd, List.getElem?_eq_getElem hpos, List.getElem?_eq_getElem (show 1 < (segments line).length by omega)]
      rfl

/-- **C107, no undefined behaviour.** Whatever the file contains, reading it either succeeds or throws, and it throws exactly if some line is refused. -/
theorem C107_total (text : Str) (ls : List Str) (h : Lines text ls) :
    ((∃ l ∈ ls, Refused l) → parseFile (some text) = .throws) ∧ ((∀ l ∈ ls, ¬ Refused l) → ∃ c, parseFile (some text) = .ok c) := by
  rw [parseFile_lines text ls h]
  generalize ([] : Config) = c
  clear h
  induction ls generalizing c with
  | nil => exact ⟨fun ⟨l, hl, _⟩ => absurd hl (by simp), fun _ => ⟨c, rfl⟩⟩
  | cons l ls ih =>
    obtain ⟨t1, t2⟩ := parseLine_total c l
    rw [loopM_cons]
    by_cases hl : Refused l
    · rw [t1 hl]
      exact ⟨fun _ => rfl, fun h' => absurd hl (h' l List.mem_cons_self)⟩
    · obtain ⟨c', hc⟩ := t2 hl
      rw [hc, Out.bind_ok]
      refine ⟨fun ⟨x, hx, hr⟩ => (ih c').1 ?_, fun h' => (ih c').2 fun x hx => h' x (List.mem_cons_of_mem _ hx)⟩
      rcases List.mem_cons.1 hx with rfl | hx
      · exact absurd hr hl
      · exact ⟨x, hx, hr⟩

/-! ### Start -/

theorem numbers_throw {β : Type} (num : Str → Str → Option β) (c : Config) (keys : List Str) (k : Str) (hk : k ∈ keys) (h : num k (c.at k) = none) (acc : List β) :
    loopM (readNumber num c) acc keys = .throws := by
  induction keys generalizing acc with
  | nil => simp at hk
  | cons a keys ih =>
    rw [loopM_cons]
    by_cases ha : a = k
    · subst ha; rw [readNumber, h]; rfl
    · have hk' : k ∈ keys := by
        rcases List.mem_cons.1 hk with h | h
        · exact absurd h.symm ha
        · exact h
      unfold readNumber
      cases hn : num a (c.at a) with
      | none => rfl
      | some x => simp only [Out.bind_ok]; exact ih hk' _

theorem numbers_ok {β : Type} (num : Str → Str → Option β) (c : Config) (keys : List Str) (f : Str → β) (h : ∀ k ∈ keys, num k (c.at k) = some (f k)) (acc : List β) :
    loopM (readNumber num c) acc keys = .ok (acc ++ keys.map f) := by
  induction keys generalizing acc with
  | nil => simp [loopM]
  | cons a keys ih =>
    rw [loopM_cons, readNumber, h a List.mem_cons_self]
    simp only [Out.bind_ok]
    rw [ih (fun k hk => h k (List.mem_cons_of_mem _ hk))]
    simp

/-- The numbers a parameter file has to assign. -/
def parameters : List Str :=
  ["GRAVITATIONALACCELERATION".toList, "FINALTIME".toList, "INITIALTIME".toList, "POLYNOMIALORDER".toList, "CFL".toList, "FILTERCUTOFF".toList, "FILTERORDER".toList]

theorem parameters_eq : parameters = numberKeys := rfl

/-- **C107, missing parameters.** If the file cannot be opened, or one of the seven numbers is not assigned in it, the program throws before the mesh is read. -/
theorem C107_missing {β : Type} (num : Str → Str → Option β) (hnum : ∀ k, num k [] = none) :
    start num none = .throws ∧
    ∀ (text : Str) (ls : List Str) (items : List (Option (Str × Str))), Lines text ls → List.Forall₂ Means ls items →
      ∀ key ∈ parameters, (∀ kv ∈ items.filterMap id, upper kv.1 ≠ key) → start num (some text) = .throws := by
  constructor
  · unfold start parseFile
    simp only [Out.bind_ok, readNumbers]
    rw [numbers_throw num [] numberKeys _ (List.mem_cons_self ..) (hnum _)]
    rfl
  · intro text ls items h hi key hk hno
    obtain ⟨c, e, hc⟩ := C107_reads text ls h items hi
    unfold start
    rw [e]
    simp only [Out.bind_ok, readNumbers]
    have : c.at key = [] := by
      unfold Config.at
      rw [hc]
      unfold firstValue
      rw [List.find?_eq_none.2 fun kv hkv => by simpa using hno kv hkv]
      rfl
    rw [numbers_throw num c numberKeys key (parameters_eq ▸ hk) (by rw [this]; exact hnum _)]
    rfl

/-- **C107, start.** If every one of the seven keys is assigned a number, the program reads these numbers, and the mesh file named by the file. -/
theorem C107_start {β : Type} (num : Str → Str → Option β) (f : Str → β) (text : Str) (ls : List Str) (items : List (Option (Str × Str))) (h : Lines text ls)
    (hi : List.Forall₂ Means ls items) (hf : ∀ key ∈ parameters, ∃ v, firstValue (items.filterMap id) key = some v ∧ num key v = some (f key)) :
    start num (some text) = .ok (parameters.map f, (firstValue (items.filterMap id) "MESHFILE".toList).getD []) := by
  obtain ⟨c, e, hc⟩ := C107_reads text ls h items hi
  unfold start
  rw [e]
  simp only [Out.bind_ok, readNumbers]
  rw [numbers_ok num c numberKeys f (fun k hk => ?_) []]
  · simp only [Out.bind_ok, Out.pure_eq, List.nil_append, Config.at, hc, parameters_eq]
  · obtain ⟨v, h1, h2⟩ := hf k (parameters_eq ▸ hk)
    unfold Config.at
    rw [hc, h1]
    exact h2

/-! ### Where the file is misread -/

/-- **C107, refuted for lines of blanks.** A line consisting of blanks is not ignored: the whole file is refused. -/
theorem C107_blank_line (n : ℕ) (before after : List Str) (text : Str) (h : Lines text (before ++ List.replicate (n + 1) ' ' :: after)) : parseFile (some text) = .throws := by
  refine (C107_total text _ h).1 ⟨List.replicate (n + 1) ' ', by simp, ?_, ?_⟩
  · rintro (h | h)
    · simp at h
    · simp [List.replicate_succ] at h
  · have hc : (List.replicate (n + 1) ' ').count '=' = 0 := List.count_eq_zero.2 fun h => by simpa using List.eq_of_mem_replicate h
    rw [hc]
    split_ifs with hl
    · have := List.eq_of_mem_replicate (List.mem_of_getLast? hl)
      exact absurd this (by decide)
    · rfl

/-- **C107, refuted for values with equal signs.** A value containing one equal sign makes the file unreadable; one containing two of them is silently cut short. -/
theorem C107_equal_signs (k a b d : Str) (hk : Word k) (ha : Word a) (hb : Word b) (hd : Word d) (hb0 : b ≠ []) (hd0 : d ≠ []) (hk0 : k.head? ≠ some '#')
    (hn : '\n' ∉ k ++ a ++ b ++ d) :
    parseFile (some (k ++ '=' :: (a ++ '=' :: b))) = .throws ∧
    ∃ c, parseFile (some (k ++ '=' :: (a ++ '=' :: (b ++ '=' :: d)))) = .ok c ∧ c.get (upper k) = some a := by
  simp only [List.mem_append, not_or] at hn
  have hh : ∀ s, (k ++ '=' :: s).head? ≠ some '#' := fun s => by
    cases k with
    | nil => simp
    | cons x k => simpa using hk0
  have w : ∀ {s}, Word s → cStr (trimBlanks s) = s := fun {s} h => by
    have := seg_word [] s [] (fun _ h => absurd h (by simp)) h (fun _ h => absurd h (by simp))
    simpa using this
  constructor
  · refine (C107_total _ _ (Lines.last _ (by simp) (by simp [hn]))).1 ⟨_, List.mem_singleton.2 rfl, ?_, ?_⟩
    · rintro (h | h)
      · simp at h
      · exact hh _ h
    · have hl : ¬ (k ++ '=' :: (a ++ '=' :: b)).getLast? = some '=' := by
        obtain ⟨x, l, rfl⟩ := List.exists_cons_of_ne_nil hb0
        intro h
        have h2 : (k ++ '=' :: (a ++ '=' :: x :: l)).getLast? = (x :: l).getLast? := by
          rw [show k ++ '=' :: (a ++ '=' :: x :: l) = (k ++ '=' :: (a ++ ['='])) ++ (x :: l) by simp, List.getLast?_append]
          cases hx : (x :: l).getLast? with
          | none => simp at hx
          | some y => rfl
        rw [h2] at h
        exact hb.noEq (List.mem_of_getLast? h)
      rw [if_neg hl]
      simp [List.count_append, List.count_eq_zero.2 hk.noEq, List.count_eq_zero.2 ha.noEq, List.count_eq_zero.2 hb.noEq]
  · refine ⟨[(upper k, a)], ?_, by simp [Config.get]⟩
    rw [parseFile_lines _ _ (Lines.last _ (by simp) (by simp [hn])), loopM_cons]
    have hs : segments (k ++ '=' :: (a ++ '=' :: (b ++ '=' :: d))) = [k, a, b, d] := by
      unfold segments
      obtain ⟨n, hn⟩ : ∃ n, (k ++ '=' :: (a ++ '=' :: (b ++ '=' :: d))).length = n + 1 + 1 + 1 + 1 := by
        have : 0 < d.length := List.length_pos_iff.2 hd0
        refine ⟨k.length + a.length + b.length + d.length - 1, ?_⟩
        simp only [List.length_append, List.length_cons]
        omega
      rw [hn, segmentsLoop_eq _ _ _ hk.noEq, segmentsLoop_eq _ _ _ ha.noEq, segmentsLoop_eq _ _ _ hb.noEq, segmentsLoop_last _ _ hd0 hd.noEq, w hk, w ha, w hb, w hd]
    have : parseLine [] (k ++ '=' :: (a ++ '=' :: (b ++ '=' :: d))) = .ok [(upper k, a)] := by
      unfold parseLine
      rw [if_neg (by simp), if_neg (hh _), hs]
      simp [rd, Config.insert, Config.get]
    rw [this]
    rfl

/-! ### Examples -/

/-- `"# c"`, an empty line, and two assignments to one key, with blanks and different case. -/
example : ∃ c, parseFile (some "# c\n\n cfl = 0.5 \nCFL=2".toList) = .ok c ∧ c.get "CFL".toList = some "0.5".toList ∧ c.get "FINALTIME".toList = none := by
  have w : ∀ s : Str, ('=' ∉ s ∧ Char.ofNat 0 ∉ s ∧ s.head? ≠ some ' ' ∧ s.getLast? ≠ some ' ') → Word s := fun s h => ⟨h.1, h.2.1, h.2.2.1, h.2.2.2⟩
  obtain ⟨c, h1, h2⟩ := C107_reads "# c\n\n cfl = 0.5 \nCFL=2".toList ["# c".toList, [], " cfl = 0.5 ".toList, "CFL=2".toList]
    (Lines.cons "# c".toList (by decide) (Lines.cons [] (by decide) (Lines.cons " cfl = 0.5 ".toList (by decide) (Lines.last "CFL=2".toList (by decide) (by decide)))))
    [none, none, some ("cfl".toList, "0.5".toList), some ("CFL".toList, "2".toList)]
    (.cons (Or.inr rfl) (.cons (Or.inl rfl) (.cons
      ⟨w _ (by decide), w _ (by decide), by decide, [' '], [' '], [' '], [' '], by simp [Pad], by simp [Pad], by simp [Pad], by simp [Pad], by decide, by decide⟩ (.cons
      ⟨w _ (by decide), w _ (by decide), by decide, [], [], [], [], by simp [Pad], by simp [Pad], by simp [Pad], by simp [Pad], by decide, by decide⟩ .nil))))
  exact ⟨c, h1, by rw [h2]; decide, by rw [h2]; decide⟩

/-- The hypotheses of `C107_equal_signs`: `MESHFILE=a=b` and `MESHFILE=a=b=c`. -/
example : parseFile (some "MESHFILE=a=b".toList) = .throws ∧ ∃ c, parseFile (some "MESHFILE=a=b=c".toList) = .ok c ∧ c.get "MESHFILE".toList = some "a".toList := by
  have w : ∀ s : Str, ('=' ∉ s ∧ Char.ofNat 0 ∉ s ∧ s.head? ≠ some ' ' ∧ s.getLast? ≠ some ' ') → Word s := fun s h => ⟨h.1, h.2.1, h.2.2.1, h.2.2.2⟩
  exact C107_equal_signs "MESHFILE".toList ['a'] ['b'] ['c'] (w _ (by decide)) (w _ (by decide)) (w _ (by decide)) (w _ (by decide)) (by decide) (by decide) (by decide) (by decide)

end Blitzdg.Ins2D
