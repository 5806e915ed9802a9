import Verif.Csv.Model
import Mathlib.Data.List.Induction
import Mathlib.Tactic.Linarith
import Mathlib.Tactic.Ring

/-! Specification of text files as lists of lines, and lemmas relating the reader model to it. -/

namespace Blitzdg.Csv

/-! ### Specification -/

/-- `Lines s ls`: the text `s` consists of the physical lines `ls`; every line is terminated by a newline, except that a nonempty
last line may lack it. -/
inductive Lines : Str → List Str → Prop
  | nil : Lines [] []
  | last (l : Str) : l ≠ [] → '\n' ∉ l → Lines l [l]
  | cons (l : Str) {s : Str} {ls : List Str} : '\n' ∉ l → Lines s ls → Lines (l ++ '\n' :: s) (l :: ls)

/-- A line of white space only. -/
def Blank (l : Str) : Prop := ∀ c ∈ l, isSpace c = true

/-- `IsSplit d s toks`: `toks` are the fields of `s` separated by nonempty runs of delimiters.  Fields contain no delimiter, and
only the first and the last field may be empty (`first` is false behind a separator). -/
inductive IsSplit (d : Char → Bool) : Bool → Str → List Str → Prop
  | one (first : Bool) (t : Str) : (∀ c ∈ t, d c = false) → IsSplit d first t [t]
  | cons (first : Bool) (t sep : Str) {s : Str} {ts : List Str} : (∀ c ∈ t, d c = false) → (first = false → t ≠ []) →
      sep ≠ [] → (∀ c ∈ sep, d c = true) → IsSplit d false s ts → IsSplit d first (t ++ sep ++ s) (t :: ts)

/-! ### Lines -/

theorem takeWhile_append_stop {p : Char → Bool} (l : Str) (c : Char) (s : Str) (h1 : ∀ x ∈ l, p x = true) (h2 : p c = false) :
    (l ++ c :: s).takeWhile p = l ∧ (l ++ c :: s).dropWhile p = c :: s := by
  induction l with
  | nil => simp [h2]
  | cons x l ih =>
    have := ih (fun y hy => h1 y (List.mem_cons_of_mem _ hy))
    simp [h1 x List.mem_cons_self, this.1, this.2]

theorem takeWhile_all {p : Char → Bool} (l : Str) (h1 : ∀ x ∈ l, p x = true) : l.takeWhile p = l ∧ l.dropWhile p = [] := by
  induction l with
  | nil => simp
  | cons x l ih =>
    have := ih (fun y hy => h1 y (List.mem_cons_of_mem _ hy))
    simp [h1 x List.mem_cons_self, this.1, this.2]

theorem getline_cons (l s : Str) (h : '\n' ∉ l) : getline (l ++ '\n' :: s) = some (l, s) := by
  have h1 : ∀ x ∈ l, (fun c => c != '\n') x = true := by
    intro x hx
    have : x ≠ '\n' := fun e => h (e ▸ hx)
    simpa using this
  have := takeWhile_append_stop (p := fun c => c != '\n') l '\n' s h1 (by simp)
  cases l with
  | nil => simp [getline]
  | cons x l =>
    simp only [List.cons_append] at this ⊢
    simp only [getline]
    rw [this.1, this.2]; rfl

theorem getline_last (l : Str) (hne : l ≠ []) (h : '\n' ∉ l) : getline l = some (l, []) := by
  have h1 : ∀ x ∈ l, (fun c => c != '\n') x = true := by
    intro x hx
    have : x ≠ '\n' := fun e => h (e ▸ hx)
    simpa using this
  have := takeWhile_all (p := fun c => c != '\n') l h1
  cases l with
  | nil => simp at hne
  | cons x l => simp only [getline]; rw [this.1, this.2]; rfl

theorem Lines.getline_nil {s : Str} (h : Lines s []) : s = [] := by cases h; rfl

theorem Lines.getline_cons' {s l : Str} {ls : List Str} (h : Lines s (l :: ls)) : ∃ t, getline s = some (l, t) ∧ Lines t ls := by
  cases h with
  | last _ hne hn => exact ⟨[], getline_last _ hne hn, .nil⟩
  | cons _ hn h => exact ⟨_, getline_cons _ _ hn, h⟩

theorem Lines.length_le {s : Str} {ls : List Str} (h : Lines s ls) : ls.length ≤ s.length := by
  induction h with
  | nil => simp
  | last l hne _ => exact List.length_pos_iff.2 hne
  | cons l _ _ ih => simp; omega

/-- Every text is a list of lines. -/
theorem lines_total (s : Str) : ∃ ls, Lines s ls := by
  induction h : s.length using Nat.strong_induction_on generalizing s with
  | _ n ih =>
    by_cases hn : '\n' ∈ s
    · obtain ⟨l, t, rfl, hl⟩ := (show ∃ l t, s = l ++ '\n' :: t ∧ '\n' ∉ l from by
          have : ∀ s : Str, '\n' ∈ s → ∃ l t, s = l ++ '\n' :: t ∧ '\n' ∉ l := by
            intro s
            induction s with
            | nil => intro h; simp at h
            | cons c s ih =>
              intro h
              by_cases hc : c = '\n'
              · exact ⟨[], s, by simp [hc], by simp⟩
              · have : '\n' ∈ s := by
                  rcases List.mem_cons.1 h with e | e
                  · exact absurd e.symm hc
                  · exact e
                obtain ⟨l, t, e, hl⟩ := ih this
                exact ⟨c :: l, t, by simp [e], by simp [hl, Ne.symm hc]⟩
          exact this s hn)
      obtain ⟨ls, hls⟩ := ih t.length (by rw [← h]; simp; omega) t rfl
      exact ⟨l :: ls, .cons l hl hls⟩
    · by_cases he : s = []
      · exact ⟨[], he ▸ .nil⟩
      · exact ⟨[s], .last s he hn⟩

/-- A text has only one decomposition into lines. -/
theorem Lines.unique {s : Str} {ls ls' : List Str} (h : Lines s ls) (h' : Lines s ls') : ls = ls' := by
  induction ls generalizing s ls' with
  | nil =>
    have := h.getline_nil
    subst this
    cases ls' with
    | nil => rfl
    | cons l t => obtain ⟨_, e, _⟩ := h'.getline_cons'; simp [getline] at e
  | cons l ls ih =>
    obtain ⟨t, e, ht⟩ := h.getline_cons'
    cases ls' with
    | nil => have := h'.getline_nil; subst this; simp [getline] at e
    | cons l' ls' =>
      obtain ⟨t', e', ht'⟩ := h'.getline_cons'
      rw [e] at e'
      simp only [Option.some.injEq, Prod.mk.injEq] at e'
      obtain ⟨rfl, rfl⟩ := e'
      rw [ih ht ht']

/-! ### Trimming -/

theorem dropWhile_eq_nil {p : Char → Bool} (s : Str) : s.dropWhile p = [] ↔ ∀ c ∈ s, p c = true := by
  induction s with
  | nil => simp
  | cons x s ih =>
    by_cases h : p x = true
    · simp [h, ih]
    · simp [h]

theorem mem_takeWhile {p : Char → Bool} {s : Str} {c : Char} (h : c ∈ s.takeWhile p) : p c = true := by
  induction s with
  | nil => simp at h
  | cons x s ih =>
    by_cases hx : p x = true
    · simp only [List.takeWhile_cons, hx, if_true, List.mem_cons] at h
      rcases h with rfl | h
      · exact hx
      · exact ih h
    · simp [hx] at h

theorem trim_nil_iff (l : Str) : trim l = [] ↔ Blank l := by
  unfold trim Blank
  rw [List.reverse_eq_nil_iff, dropWhile_eq_nil]
  constructor
  · intro h
    by_contra hc
    rw [← dropWhile_eq_nil (p := isSpace)] at hc
    cases hd : l.dropWhile isSpace with
    | nil => exact hc hd
    | cons c t =>
      have h1 := List.head?_dropWhile_not isSpace l
      rw [hd] at h1 h
      simp only [List.head?_cons] at h1
      have := h c (by simp)
      simp [this] at h1
  · intro h c hc
    rw [(dropWhile_eq_nil l).2 h] at hc
    simp at hc

theorem dropWhile_append_all {p : Char → Bool} (a b : Str) (h : ∀ c ∈ a, p c = true) : (a ++ b).dropWhile p = b.dropWhile p := by
  induction a with
  | nil => rfl
  | cons x a ih => simp [h x List.mem_cons_self, ih (fun y hy => h y (List.mem_cons_of_mem _ hy))]

theorem dropWhile_id {p : Char → Bool} (s : Str) (h : ∀ c, s.head? = some c → p c = false) : s.dropWhile p = s := by
  cases s with
  | nil => rfl
  | cons x s => simp [h x rfl]

theorem trim_core (lead core trail : Str) (h1 : Blank lead) (h2 : Blank trail) (hne : core ≠ [])
    (hh : ∀ c, core.head? = some c → isSpace c = false) (hl : ∀ c, core.getLast? = some c → isSpace c = false) :
    trim (lead ++ core ++ trail) = core := by
  unfold trim
  rw [List.append_assoc, dropWhile_append_all lead _ h1, dropWhile_id (core ++ trail)]
  · rw [List.reverse_append, dropWhile_append_all, dropWhile_id core.reverse, List.reverse_reverse]
    · intro c hc; exact hl c (by simpa using hc)
    · intro c hc; exact h2 c (by simpa using hc)
  · intro c hc
    cases core with
    | nil => simp at hne
    | cons x core => exact hh c (by simpa using hc)

/-! ### Splitting -/

theorem splitLoop_isSplit (d : Char → Bool) : ∀ (fuel : Nat) (s : Str) (first : Bool), s.length ≤ fuel →
    (first = false → ∀ c, s.head? = some c → d c = false) → IsSplit d first s (splitLoop d fuel s) := by
  intro fuel
  induction fuel with
  | zero =>
    intro s first h _
    have : s = [] := by simpa using h
    subst this
    exact .one _ _ (by simp)
  | succ fuel ih =>
    intro s first h hf
    unfold splitLoop
    simp only
    have htok : ∀ c ∈ s.takeWhile (fun c => !d c), d c = false := by
      intro c hc
      have := mem_takeWhile hc
      simpa using this
    have happ := List.takeWhile_append_dropWhile (p := fun c => !d c) (l := s)
    cases hr : s.dropWhile (fun c => !d c) with
    | nil =>
      rw [hr, List.append_nil] at happ
      simp only [List.isEmpty_nil, if_true]
      rw [happ] at htok ⊢
      exact .one _ _ htok
    | cons x rest =>
      have hx : d x = true := by
        have := List.head?_dropWhile_not (fun c => !d c) s
        rw [hr] at this
        simpa using this
      simp only [List.isEmpty_cons, Bool.false_eq_true, if_false]
      have hsplit : s = s.takeWhile (fun c => !d c) ++ (x :: rest).takeWhile d ++ (x :: rest).dropWhile d := by
        rw [List.append_assoc, List.takeWhile_append_dropWhile, ← hr, happ]
      have hlen : ((x :: rest).dropWhile d).length ≤ fuel := by
        have h1 : ((x :: rest).dropWhile d).length ≤ rest.length := by
          simp only [List.dropWhile_cons, hx, if_true]
          exact (List.dropWhile_sublist d).length_le
        have h2 : (s.dropWhile (fun c => !d c)).length ≤ s.length := (List.dropWhile_sublist _).length_le
        rw [hr] at h2
        simp at h2
        omega
      have hrec := ih ((x :: rest).dropWhile d) false hlen (by
        intro _ c hc
        have := List.head?_dropWhile_not d (x :: rest)
        rw [hc] at this
        simpa using this)
      have := IsSplit.cons (d := d) first (s.takeWhile (fun c => !d c)) ((x :: rest).takeWhile d) htok (by
          intro hff
          have := hf hff
          cases s with
          | nil => simp at hr
          | cons y s => simp [this y rfl]) (by simp [hx]) (by
          intro c hc; exact mem_takeWhile hc) hrec
      rw [← hsplit] at this
      exact this

theorem IsSplit.length_le {d : Char → Bool} {first : Bool} {s : Str} {ts : List Str} (h : IsSplit d first s ts) :
    ts.length ≤ s.length + 1 := by
  induction h with
  | one => simp
  | cons _ t sep _ _ hsep _ _ ih =>
    have := List.length_pos_iff.2 hsep
    simp; omega

theorem isSplit_head {d : Char → Bool} {s : Str} {ts : List Str} (h : IsSplit d false s ts) :
    ∀ c, s.head? = some c → d c = false := by
  intro c hc
  cases h with
  | one _ _ ht => cases s with
    | nil => simp at hc
    | cons x s => simp at hc; subst hc; exact ht x (by simp)
  | cons _ t sep ht hf hs hsd _ =>
    have := hf rfl
    cases t with
    | nil => simp at this
    | cons x t => simp at hc; subst hc; exact ht x (by simp)

/-- The splitting of a text is unique, so `tokenizeLine` computes the one described by `IsSplit`. -/
theorem splitLoop_eq (d : Char → Bool) {first : Bool} {s : Str} {ts : List Str} (h : IsSplit d first s ts) :
    ∀ fuel, s.length ≤ fuel → splitLoop d fuel s = ts := by
  induction h with
  | one first t ht =>
    intro fuel _
    cases fuel with
    | zero => rfl
    | succ fuel =>
      have := takeWhile_all (p := fun c => !d c) t (by intro x hx; simp [ht x hx])
      unfold splitLoop
      simp [this.1, this.2]
  | @cons first t sep s ts ht hf hne hsep hs ih =>
    intro fuel hfl
    cases sep with
    | nil => simp at hne
    | cons x sep =>
      cases fuel with
      | zero => simp at hfl
      | succ fuel =>
        have hx : d x = true := hsep x (by simp)
        have := takeWhile_append_stop (p := fun c => !d c) t x (sep ++ s) (by intro y hy; simp [ht y hy]) (by simp [hx])
        unfold splitLoop
        simp only [List.append_assoc, List.cons_append, this.1, this.2, List.isEmpty_cons, Bool.false_eq_true, if_false]
        congr 1
        have h2 : (x :: (sep ++ s)).dropWhile d = s := by
          rw [← List.cons_append, dropWhile_append_all _ _ hsep, dropWhile_id]
          exact isSplit_head hs
        rw [h2]
        apply ih
        simp at hfl
        omega

theorem tokenizeLine_isSplit (delims line : Str) : IsSplit (fun c => delims.contains c) true line (tokenizeLine delims line) :=
  splitLoop_isSplit _ _ _ _ (Nat.le_refl _) (by simp)

theorem tokenizeLine_eq {delims line : Str} {ts : List Str} (h : IsSplit (fun c => delims.contains c) true line ts) :
    tokenizeLine delims line = ts := splitLoop_eq _ h _ (Nat.le_refl _)

/-! ### Reader state -/

/-- `done` lines have been read, `rem` are left. -/
structure Rel (done rem : List Str) (r : Reader) : Prop where
  content : Lines r.content (done ++ rem)
  rest : Lines r.rest rem
  lineno : r.lineno = done.length
  failed : r.failed = true → rem = []

structure Same (r r' : Reader) : Prop where
  content : r'.content = r.content
  nskip : r'.nskip = r.nskip
  ncols : r'.ncols = r.ncols
  delims : r'.delims = r.delims

theorem Same.refl (r : Reader) : Same r r := ⟨rfl, rfl, rfl, rfl⟩
theorem Same.trans {a b c : Reader} (h : Same a b) (h' : Same b c) : Same a c :=
  ⟨h'.content.trans h.content, h'.nskip.trans h.nskip, h'.ncols.trans h.ncols, h'.delims.trans h.delims⟩

theorem readLine_cons {done : List Str} {l : Str} {rem : List Str} {r : Reader} (h : Rel done (l :: rem) r) :
    ∃ r', readLine r = (some l, r') ∧ Rel (done ++ [l]) rem r' ∧ Same r r' ∧ r'.failed = false := by
  have hnf : r.failed = false := by
    cases hf : r.failed with
    | false => rfl
    | true => exact absurd (h.failed hf) (by simp)
  obtain ⟨t, e, ht⟩ := h.rest.getline_cons'
  refine ⟨{ r with rest := t, lineno := r.lineno + 1 }, ?_, ⟨?_, ht, ?_, ?_⟩, ⟨rfl, rfl, rfl, rfl⟩, hnf⟩
  · simp [readLine, hnf, e]
  · simpa using h.content
  · simp [h.lineno]
  · intro hf; rw [hnf] at hf; simp at hf

theorem readLine_nil {done : List Str} {r : Reader} (h : Rel done [] r) :
    ∃ r', readLine r = (none, r') ∧ Rel done [] r' ∧ Same r r' ∧ r'.failed = true := by
  have hr := h.rest.getline_nil
  cases hf : r.failed with
  | true => exact ⟨r, by simp [readLine, hf], h, Same.refl r, hf⟩
  | false =>
    refine ⟨{ r with failed := true }, by simp [readLine, hf, hr, getline], ⟨h.content, h.rest, h.lineno, by simp⟩, ⟨rfl, rfl, rfl, rfl⟩, rfl⟩

/-- Trimmed nonblank lines. -/
def nb (ls : List Str) : List Str := (ls.map trim).filter fun l => !l.isEmpty

theorem nb_blank (l : Str) (ls : List Str) (h : trim l = []) : nb (l :: ls) = nb ls := by simp [nb, h]
theorem nb_cons (l : Str) (ls : List Str) (h : trim l ≠ []) : nb (l :: ls) = trim l :: nb ls := by
  simp [nb, h]

theorem nonemptyLoop_spec (rem : List Str) : ∀ (fuel : Nat) (done : List Str) (r : Reader), rem.length < fuel → Rel done rem r →
    (nb rem = [] ∧ ∃ r', nonemptyLoop fuel r = (none, r') ∧ Rel (done ++ rem) [] r' ∧ Same r r' ∧ r'.failed = true) ∨
    (∃ bl l rem', rem = bl ++ l :: rem' ∧ nb bl = [] ∧ trim l ≠ [] ∧ ∃ r', nonemptyLoop fuel r = (some (trim l), r') ∧
      Rel (done ++ (bl ++ [l])) rem' r' ∧ Same r r' ∧ r'.failed = false) := by
  induction rem with
  | nil =>
    intro fuel done r hf h
    cases fuel with
    | zero => simp at hf
    | succ fuel =>
      obtain ⟨r', e, h', hs, hfl⟩ := readLine_nil h
      exact Or.inl ⟨rfl, r', by simp [nonemptyLoop, e], by simpa using h', hs, hfl⟩
  | cons l rem ih =>
    intro fuel done r hf h
    cases fuel with
    | zero => simp at hf
    | succ fuel =>
      obtain ⟨r', e, h', hs, hfl⟩ := readLine_cons h
      by_cases hb : trim l = []
      · rcases ih fuel (done ++ [l]) r' (by simpa using hf) h' with ⟨h1, r2, h2, h3, h4, h5⟩ | ⟨bl, l2, rem', h1, h2, h3, r2, h4, h5, h6, h7⟩
        · refine Or.inl ⟨by rw [nb_blank l _ hb, h1], r2, ?_, by simpa using h3, hs.trans h4, h5⟩
          simp [nonemptyLoop, e, hb, h2]
        · refine Or.inr ⟨l :: bl, l2, rem', by simp [h1], by rw [nb_blank l _ hb, h2], h3, r2, ?_, by simpa using h5, hs.trans h6, h7⟩
          simp [nonemptyLoop, e, hb, h4]
      · refine Or.inr ⟨[], l, rem, rfl, rfl, hb, r', ?_, by simpa using h', hs, hfl⟩
        have : (trim l).isEmpty = false := by simpa using hb
        simp [nonemptyLoop, e, this]

theorem getNonemptyLine_spec {done rem : List Str} {r : Reader} (h : Rel done rem r) :
    (nb rem = [] ∧ ∃ r', getNonemptyLine r = (none, r') ∧ Rel (done ++ rem) [] r' ∧ Same r r' ∧ r'.failed = true) ∨
    (∃ bl l rem', rem = bl ++ l :: rem' ∧ nb bl = [] ∧ trim l ≠ [] ∧ ∃ r', getNonemptyLine r = (some (trim l), r') ∧
      Rel (done ++ (bl ++ [l])) rem' r' ∧ Same r r' ∧ r'.failed = false) :=
  nonemptyLoop_spec rem _ done r (by have := h.rest.length_le; omega) h

theorem nb_append (a b : List Str) : nb (a ++ b) = nb a ++ nb b := by simp [nb]

theorem nb_split (bl : List Str) (l : Str) (rem' : List Str) (h1 : nb bl = []) (h2 : trim l ≠ []) :
    nb (bl ++ l :: rem') = trim l :: nb rem' := by
  rw [nb_append, h1, List.nil_append, nb_cons _ _ h2]

theorem numRowsLoop_spec : ∀ (fuel : Nat) (n : Nat) (done rem : List Str) (r : Reader), rem.length < fuel → Rel done rem r →
    ∃ r', numRowsLoop fuel n r = (n + (nb rem).length, r') ∧ Rel (done ++ rem) [] r' ∧ Same r r' ∧ r'.failed = true := by
  intro fuel
  induction fuel with
  | zero => intro n done rem r h; simp at h
  | succ fuel ih =>
    intro n done rem r hf h
    rcases getNonemptyLine_spec h with ⟨h1, r', e, h2, h3, h4⟩ | ⟨bl, l, rem', h1, h2, h3, r', e, h5, h6, _⟩
    · exact ⟨r', by simp [numRowsLoop, e, h1], h2, h3, h4⟩
    · subst h1
      obtain ⟨r2, e2, h7, h8, h9⟩ := ih (n + 1) _ rem' r' (by simp at hf; omega) h5
      refine ⟨r2, ?_, by simpa using h7, h6.trans h8, h9⟩
      simp only [numRowsLoop, e, e2, nb_split bl l rem' h2 h3, List.length_cons]
      congr 1; omega

theorem getNumRows_spec {done rem : List Str} {r : Reader} (h : Rel done rem r) :
    ∃ r', getNumRows r = ((nb rem).length, r') ∧ Rel (done ++ rem) [] r' ∧ Same r r' ∧ r'.failed = true := by
  obtain ⟨r', e, h1⟩ := numRowsLoop_spec (r.rest.length + 1) 0 done rem r (by have := h.rest.length_le; omega) h
  exact ⟨r', by simpa [getNumRows] using e, h1⟩

theorem skipLoop_spec (n : Nat) : ∀ (done rem : List Str) (r : Reader), Rel done rem r → r.failed = false →
    Rel (done ++ rem.take n) (rem.drop n) (skipLoop n r) ∧ Same r (skipLoop n r) ∧
      ((skipLoop n r).failed = true ↔ rem.length < n) := by
  induction n with
  | zero => intro done rem r h hf; simp [skipLoop, h, Same.refl, hf]
  | succ n ih =>
    intro done rem r h hf
    cases rem with
    | nil =>
      obtain ⟨r', e, h', hs, hfl⟩ := readLine_nil h
      simp [skipLoop, e, h', hs, hfl]
    | cons l rem =>
      obtain ⟨r', e, h', hs, hfl⟩ := readLine_cons h
      obtain ⟨h1, h2, h3⟩ := ih _ _ _ h' hfl
      simp only [skipLoop, e]
      exact ⟨by simpa using h1, hs.trans h2, by rw [h3]; simp⟩

theorem skipLoop_failed (n : Nat) (done : List Str) (r : Reader) (h : Rel done [] r) :
    Rel done [] (skipLoop n r) ∧ Same r (skipLoop n r) := by
  cases n with
  | zero => exact ⟨h, Same.refl r⟩
  | succ n =>
    obtain ⟨r', e, h', hs, _⟩ := readLine_nil h
    simp only [skipLoop, e]
    exact ⟨h', hs⟩

theorem skipLines_spec {done rem : List Str} {r : Reader} (n : Int) (h : Rel done rem r) (hf : r.failed = false) :
    Rel (done ++ rem.take n.toNat) (rem.drop n.toNat) (skipLines n r) ∧ Same r (skipLines n r) ∧
      ((skipLines n r).failed = true ↔ (rem.length : Int) < n) := by
  unfold skipLines
  by_cases hn : n > 0
  · rw [if_pos hn]
    obtain ⟨h1, h2, h3⟩ := skipLoop_spec n.toNat done rem r h hf
    exact ⟨h1, h2, by rw [h3]; omega⟩
  · rw [if_neg hn]
    have : n.toNat = 0 := by omega
    simp [this, h, Same.refl, hf]
    omega

theorem setToStart_spec {r : Reader} {ls : List Str} (h : Lines r.content ls) :
    Rel (ls.take r.nskip.toNat) (ls.drop r.nskip.toNat) (setToStart r) ∧ Same r (setToStart r) ∧
      ((setToStart r).failed = true ↔ (ls.length : Int) < r.nskip) := by
  have h0 : Rel [] ls { r with rest := r.content, failed := false, lineno := 0 } :=
    ⟨by simpa using h, h, rfl, by simp⟩
  obtain ⟨h1, h2, h3⟩ := skipLines_spec r.nskip h0 rfl
  exact ⟨by rw [List.nil_append] at h1; exact h1, ⟨h2.content, h2.nskip, h2.ncols, h2.delims⟩, h3⟩

/-- Number of fields of the first nonblank line. -/
def firstCount (delims : Str) (body : List Str) : Nat :=
  match nb body with
  | [] => 0
  | l :: _ => (tokenizeLine delims l).length

theorem openReader_spec (text : Str) (ls : List Str) (hl : Lines text ls) (nskip : Int) (delims : Str)
    (hd : checkDelimiters delims = true) (hn : nskip ≤ ls.length) :
    ∃ r, openReader (some text) nskip delims = .ok r ∧ Rel (ls.take nskip.toNat) (ls.drop nskip.toNat) r ∧ r.failed = false ∧
      r.content = text ∧ r.nskip = nskip ∧ r.delims = delims ∧ r.ncols = firstCount delims (ls.drop nskip.toNat) := by
  have h0 : Rel [] ls ({ content := text, rest := text, failed := false, lineno := 0, nskip := nskip, ncols := -1, delims := delims } : Reader) :=
    ⟨by simpa using hl, hl, rfl, by simp⟩
  obtain ⟨h1, h2, h3⟩ := skipLines_spec nskip h0 rfl
  set r1 := skipLines nskip ({ content := text, rest := text, failed := false, lineno := 0, nskip := nskip, ncols := -1, delims := delims } : Reader) with hr1
  have hf1 : r1.failed = false := by
    cases hf : r1.failed with
    | false => rfl
    | true => have := h3.1 hf; omega
  have hopen : openReader (some text) nskip delims = .ok (countCols r1) := by
    simp [openReader, hd, ← hr1, hf1]
  have h1' : Rel (ls.take nskip.toNat) (ls.drop nskip.toNat) { r1 with ncols := 0 } :=
    ⟨by simpa using h1.content, h1.rest, by simpa using h1.lineno, h1.failed⟩
  have hc : r1.content = text := h2.content
  have hns : r1.nskip = nskip := h2.nskip
  have hdl : r1.delims = delims := h2.delims
  have key : ∀ r2 : Reader, r2.content = text → r2.nskip = nskip → r2.delims = delims →
      Rel (ls.take nskip.toNat) (ls.drop nskip.toNat) (setToStart r2) ∧ (setToStart r2).failed = false ∧
      (setToStart r2).content = text ∧ (setToStart r2).nskip = nskip ∧ (setToStart r2).delims = delims ∧
      (setToStart r2).ncols = r2.ncols := by
    intro r2 e1 e2 e3
    obtain ⟨k1, k2, k3⟩ := setToStart_spec (r := r2) (ls := ls) (by rw [e1]; exact hl)
    rw [e2] at k1 k3
    refine ⟨k1, ?_, k2.content.trans e1, k2.nskip.trans e2, k2.delims.trans e3, k2.ncols⟩
    cases hf : (setToStart r2).failed with
    | false => rfl
    | true => have := k3.1 hf; omega
  rcases getNonemptyLine_spec h1' with ⟨h4, r', e, _, hs, _⟩ | ⟨bl, l, rem', h4, h5, h6, r', e, _, hs, _⟩
  · obtain ⟨k1, k2, k3, k4, k5, k6⟩ := key r' (hs.content.trans hc) (hs.nskip.trans hns) (hs.delims.trans hdl)
    have hcc : countCols r1 = setToStart r' := by simp [countCols, e]
    refine ⟨_, hopen, ?_⟩
    rw [hcc]
    refine ⟨k1, k2, k3, k4, k5, ?_⟩
    rw [k6, hs.ncols]
    simp [firstCount, h4]
  · obtain ⟨k1, k2, k3, k4, k5, k6⟩ := key { r' with ncols := (tokenizeLine r1.delims (trim l)).length }
      (hs.content.trans hc) (hs.nskip.trans hns) (hs.delims.trans hdl)
    have hcc : countCols r1 = setToStart { r' with ncols := (tokenizeLine r1.delims (trim l)).length } := by simp [countCols, e]
    refine ⟨_, hopen, ?_⟩
    rw [hcc]
    refine ⟨k1, k2, k3, k4, k5, ?_⟩
    rw [k6, h4]
    simp [firstCount, nb_split bl l rem' h5 h6, hdl]

/-! ### Parsing -/

/-- Row `l` (trimmed) has `c` fields that all convert. -/
def rowOK {β : Type} (conv : Str → Option β) (delims : Str) (c : Int) (l : Str) : Bool :=
  decide (((tokenizeLine delims l).length : Int) = c) && (convAll conv (tokenizeLine delims l)).1

theorem parseRow_spec {β : Type} (conv : Str → Option β) {done rem : List Str} {r : Reader} (h : Rel done rem r) :
    (nb rem = [] ∧ ∃ r', parseRow conv r = (.eof, [], r') ∧ Rel (done ++ rem) [] r' ∧ Same r r') ∨
    (∃ bl l rem', rem = bl ++ l :: rem' ∧ nb bl = [] ∧ trim l ≠ [] ∧ ∃ r', Rel (done ++ (bl ++ [l])) rem' r' ∧ Same r r' ∧
      ((rowOK conv r.delims r.ncols (trim l) = true ∧
          parseRow conv r = (.row, (convAll conv (tokenizeLine r.delims (trim l))).2, r')) ∨
       (rowOK conv r.delims r.ncols (trim l) = false ∧ ∃ vs, parseRow conv r = (.threw, vs, r')))) := by
  rcases getNonemptyLine_spec h with ⟨h4, r', e, h5, hs, _⟩ | ⟨bl, l, rem', h4, h5, h6, r', e, h7, hs, _⟩
  · exact Or.inl ⟨h4, r', by simp [parseRow, e], h5, hs⟩
  · refine Or.inr ⟨bl, l, rem', h4, h5, h6, r', h7, hs, ?_⟩
    by_cases hlen : ((tokenizeLine r.delims (trim l)).length : Int) = r.ncols
    · cases hc : (convAll conv (tokenizeLine r.delims (trim l))).1 with
      | true => exact Or.inl ⟨by simp [rowOK, hlen, hc], by simp [parseRow, e, hlen, hc]⟩
      | false => exact Or.inr ⟨by simp [rowOK, hc], _, by simp [parseRow, e, hlen, hc]; rfl⟩
    · exact Or.inr ⟨by simp [rowOK, hlen], _, by simp [parseRow, e, hlen]; rfl⟩

theorem readLoop_spec {β : Type} (conv : Str → Option β) : ∀ (fuel : Nat) (n : Nat) (data : List β) (done rem : List Str) (r : Reader),
    rem.length < fuel → Rel done rem r →
    readLoop conv fuel n data r =
      if (nb rem).all (rowOK conv r.delims r.ncols) then
        .ok (n + (nb rem).length, data ++ (nb rem).flatMap fun l => (convAll conv (tokenizeLine r.delims l)).2)
      else .throws := by
  intro fuel
  induction fuel with
  | zero => intro n data done rem r h; simp at h
  | succ fuel ih =>
    intro n data done rem r hf h
    rcases parseRow_spec conv h with ⟨h1, r', e, _, _⟩ | ⟨bl, l, rem', h1, h2, h3, r', h4, hs, h5⟩
    · simp [readLoop, e, h1]
    · subst h1
      rw [nb_split bl l rem' h2 h3]
      rcases h5 with ⟨h5, e⟩ | ⟨h5, vs, e⟩
      · simp only [readLoop, e]
        rw [ih _ _ _ rem' r' (by simp at hf; omega) h4, hs.delims, hs.ncols]
        simp only [List.all_cons, h5, Bool.true_and, List.length_cons, List.flatMap_cons, List.append_assoc]
        split
        · congr 2; omega
        · rfl
      · simp [readLoop, e, h5]

theorem convAll_true {β : Type} (conv : Str → Option β) (ts : List Str) :
    (convAll conv ts).1 = true ↔ ∀ t ∈ ts, (conv t).isSome := by
  induction ts with
  | nil => simp [convAll]
  | cons t ts ih =>
    simp only [convAll]
    cases h : conv t <;> simp [h, ih]

theorem convAll_length {β : Type} (conv : Str → Option β) (ts : List Str) (h : (convAll conv ts).1 = true) :
    (convAll conv ts).2.map some = ts.map conv := by
  induction ts with
  | nil => simp [convAll]
  | cons t ts ih =>
    simp only [convAll] at h ⊢
    cases hc : conv t with
    | none => simp [hc] at h
    | some v =>
      rw [hc] at h
      simp only at h
      simp [hc, ih h]

/-- Complete description of `csvread`. -/
theorem csvread_spec {β : Type} (conv : Str → Option β) (text : Str) (ls : List Str) (hl : Lines text ls) (nskip : Int) (delims : Str)
    (hd : checkDelimiters delims = true) (hn : nskip ≤ ls.length) :
    csvread conv (some text) nskip delims =
      if (nb (ls.drop nskip.toNat)).all (rowOK conv delims (firstCount delims (ls.drop nskip.toNat))) then
        .ok ((nb (ls.drop nskip.toNat)).length, (firstCount delims (ls.drop nskip.toNat) : Int),
          (nb (ls.drop nskip.toNat)).flatMap fun l => (convAll conv (tokenizeLine delims l)).2)
      else .throws := by
  obtain ⟨r, e, h1, _, _, _, h5, h6⟩ := openReader_spec text ls hl nskip delims hd hn
  unfold csvread
  rw [e, Out.bind_ok, readLoop_spec conv _ 0 [] _ _ r (by have := h1.rest.length_le; omega) h1, h5, h6]
  set body := nb (ls.drop nskip.toNat) with hb
  set c := firstCount delims (ls.drop nskip.toNat) with hc
  by_cases hall : body.all (rowOK conv delims (c : Int)) = true
  · rw [if_pos hall, if_pos hall, Out.bind_ok]
    have hlen : ∀ b : List Str, b.all (rowOK conv delims (c : Int)) = true →
        ((b.flatMap fun l => (convAll conv (tokenizeLine delims l)).2).length) = b.length * c := by
      intro b
      induction b with
      | nil => simp
      | cons l b ih =>
        intro hb
        simp only [List.all_cons, Bool.and_eq_true] at hb
        simp only [List.flatMap_cons, List.length_append, ih hb.2, List.length_cons]
        have h1 := hb.1
        simp only [rowOK, Bool.and_eq_true, decide_eq_true_eq] at h1
        have h2 := congrArg List.length (convAll_length conv _ h1.2)
        simp only [List.length_map] at h2
        have h3 : (tokenizeLine delims l).length = c := by exact_mod_cast h1.1
        rw [h2, h3]; ring
    simp only [Nat.zero_add, List.nil_append]
    rw [if_pos]
    · rfl
    · rw [hlen body hall]; push_cast; exact le_refl _
  · rw [if_neg hall, if_neg hall]; rfl

end Blitzdg.Csv
