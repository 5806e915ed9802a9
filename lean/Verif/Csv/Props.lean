import Verif.Csv.Lemmas

/-! Properties C16-C19 and C56: reading and writing of CSV files. -/

namespace Blitzdg.Csv

/-! ### Specification of rendered tables -/

/-- `Joined d fields s`: `s` is the fields separated by arbitrary nonempty runs of delimiters. -/
inductive Joined (d : Char → Bool) : List Str → Str → Prop
  | one (f : Str) : Joined d [f] f
  | cons (f sep : Str) {fs : List Str} {s : Str} : sep ≠ [] → (∀ c ∈ sep, d c = true) → Joined d fs s →
      Joined d (f :: fs) (f ++ sep ++ s)

/-- A line that shows one row: the joined fields (nonempty, without delimiters), surrounded by arbitrary white space; the row text itself neither
begins nor ends with white space. -/
def RowLine (d : Char → Bool) (fields : List Str) (line : Str) : Prop :=
  ∃ lead core trail, line = lead ++ core ++ trail ∧ Blank lead ∧ Blank trail ∧ Joined d fields core ∧
    (∀ f ∈ fields, f ≠ [] ∧ ∀ c ∈ f, d c = false) ∧
    (∀ c, core.head? = some c → isSpace c = false) ∧ (∀ c, core.getLast? = some c → isSpace c = false)

/-- `Shows d table ls`: the lines show the rows of the table in order, with blank lines anywhere. -/
inductive Shows (d : Char → Bool) : List (List Str) → List Str → Prop
  | nil : Shows d [] []
  | blank (l : Str) {t : List (List Str)} {ls : List Str} : Blank l → Shows d t ls → Shows d t (l :: ls)
  | row (fields : List Str) (l : Str) {t : List (List Str)} {ls : List Str} : RowLine d fields l → Shows d t ls →
      Shows d (fields :: t) (l :: ls)

/-! ### C16 -/

theorem Joined.ne_nil {d : Char → Bool} {fs : List Str} {s : Str} (h : Joined d fs s) (hf : ∀ f ∈ fs, f ≠ []) : s ≠ [] := by
  cases h with
  | one f => exact hf _ (by simp)
  | cons f sep _ _ _ =>
    have := hf f (by simp)
    simp [this]

theorem Joined.isSplit {d : Char → Bool} {fs : List Str} {s : Str} (h : Joined d fs s)
    (hf : ∀ f ∈ fs, f ≠ [] ∧ ∀ c ∈ f, d c = false) : ∀ first, IsSplit d first s fs := by
  induction h with
  | one f => intro first; exact .one _ _ (hf f (by simp)).2
  | cons f sep h1 h2 h3 ih =>
    intro first
    exact .cons first f sep (hf f (by simp)).2 (fun _ => (hf f (by simp)).1) h1 h2
      (ih (fun g hg => hf g (List.mem_cons_of_mem _ hg)) false)

theorem RowLine.trim_ne {d : Char → Bool} {fs : List Str} {l : Str} (h : RowLine d fs l) :
    trim l ≠ [] ∧ IsSplit d true (trim l) fs := by
  obtain ⟨lead, core, trail, rfl, h1, h2, h3, h4, h5, h6⟩ := h
  have hne := h3.ne_nil (fun f hf => (h4 f hf).1)
  rw [trim_core lead core trail h1 h2 hne h5 h6]
  exact ⟨hne, h3.isSplit h4 true⟩

theorem Shows.nb {delims : Str} {t : List (List Str)} {ls : List Str} (h : Shows (fun c => delims.contains c) t ls) :
    (Csv.nb ls).map (tokenizeLine delims) = t := by
  induction h with
  | nil => rfl
  | blank l hb _ ih => rw [nb_blank l _ ((trim_nil_iff l).2 hb), ih]
  | row fields l hr _ ih =>
    rw [nb_cons _ _ hr.trim_ne.1, List.map_cons, ih, tokenizeLine_eq hr.trim_ne.2]

/-- **C16.** A file whose lines after the skipped ones show a nonempty rectangular table of convertible fields is read as that table,
whatever header lines are skipped, whatever runs of delimiters, surrounding white space and blank lines occur, and
whether or not the last line ends with a newline. -/
theorem C16_csvread {β : Type} (conv : Str → Option β) (val : Str → β) (delims : Str) (hd : checkDelimiters delims = true)
    (text : Str) (header body : List Str) (hl : Lines text (header ++ body))
    (table : List (List Str)) (c : Nat) (hne : table ≠ []) (hs : Shows (fun x => delims.contains x) table body)
    (hrect : ∀ row ∈ table, row.length = c) (hconv : ∀ row ∈ table, ∀ f ∈ row, conv f = some (val f)) :
    csvread conv (some text) header.length delims = .ok (table.length, (c : Int), table.flatten.map val) := by
  rw [csvread_spec conv text _ hl _ _ hd (by simp)]
  simp only [Int.toNat_natCast, List.drop_left]
  have hm := hs.nb
  have hfc : firstCount delims body = c := by
    unfold firstCount
    cases hb : Csv.nb body with
    | nil => rw [hb] at hm; exact absurd hm.symm hne
    | cons l ls =>
      rw [hb, List.map_cons] at hm
      exact hrect _ (by rw [← hm]; simp)
  have hlen : (Csv.nb body).length = table.length := by rw [← hm, List.length_map]
  have hconvAll : ∀ row ∈ table, convAll conv row = (true, row.map val) := by
    intro row hrow
    have : ∀ ts : List Str, (∀ f ∈ ts, conv f = some (val f)) → convAll conv ts = (true, ts.map val) := by
      intro ts
      induction ts with
      | nil => intro _; rfl
      | cons t ts ih =>
        intro h
        have := ih (fun f hf => h f (List.mem_cons_of_mem _ hf))
        simp [convAll, h t (by simp), this]
    exact this row (hconv row hrow)
  rw [hfc, if_pos]
  · rw [hlen]
    congr 3
    rw [← hm, List.flatMap_def, List.map_flatten, List.map_map]
    congr 1
    apply List.map_congr_left
    intro l hl
    have := hconvAll _ (hm ▸ List.mem_map_of_mem hl)
    simp [this]
  · rw [List.all_eq_true]
    intro l hl
    have hmem : tokenizeLine delims l ∈ table := hm ▸ List.mem_map_of_mem hl
    simp [rowOK, hrect _ hmem, hconvAll _ hmem]

/-- The hypotheses of C16 are met by a file with a header line, a blank line, runs of delimiters and a missing final newline. -/
example : Lines "# x\n 1,,2 \n\n3,4".toList (["# x".toList] ++ [" 1,,2 ".toList, [], "3,4".toList]) ∧
    Shows (fun x => [','].contains x) [["1".toList, "2".toList], ["3".toList, "4".toList]] [" 1,,2 ".toList, [], "3,4".toList] := by
  refine ⟨.cons "# x".toList (by decide) (.cons " 1,,2 ".toList (by decide) (.cons [] (by decide) (.last "3,4".toList (by decide) (by decide)))), ?_⟩
  refine .row _ _ ⟨[' '], "1,,2".toList, [' '], by decide, by simp [Blank, isSpace], by simp [Blank, isSpace],
    .cons "1".toList ",,".toList (by decide) (by decide) (.one "2".toList), by decide, by simp [isSpace], by simp [isSpace]⟩
    (.blank _ (by simp [Blank]) (.row _ _ ⟨[], "3,4".toList, [], by decide, by simp [Blank], by simp [Blank],
    .cons "3".toList ",".toList (by decide) (by decide) (.one "4".toList), by decide, by simp [isSpace], by simp [isSpace]⟩ .nil))

/-! ### C17 -/

/-- `l` is one of the lines after the first `nskip` that is not blank, and `toks` are its fields. -/
def BodyRow (ls : List Str) (nskip : Int) (delims : Str) (toks : List Str) : Prop :=
  ∃ l ∈ ls.drop nskip.toNat, ¬ Blank l ∧ IsSplit (fun c => delims.contains c) true (trim l) toks

theorem mem_nb {ls : List Str} {x : Str} : x ∈ nb ls ↔ ∃ l ∈ ls, ¬ Blank l ∧ trim l = x := by
  unfold nb
  simp only [List.mem_filter, List.mem_map, Bool.not_eq_true', List.isEmpty_eq_false_iff]
  constructor
  · rintro ⟨⟨l, hl, rfl⟩, h⟩
    exact ⟨l, hl, fun hb => h ((trim_nil_iff l).2 hb), rfl⟩
  · rintro ⟨l, hl, hb, rfl⟩
    exact ⟨⟨l, hl, rfl⟩, fun h => hb ((trim_nil_iff l).1 h)⟩

theorem openReader_bad (text : Str) (ls : List Str) (hl : Lines text ls) (nskip : Int) (delims : Str)
    (h : ¬ (checkDelimiters delims = true ∧ nskip ≤ ls.length)) : openReader (some text) nskip delims = .throws := by
  cases hd : checkDelimiters delims with
  | false => simp [openReader, hd]
  | true =>
    have h0 : Rel [] ls ({ content := text, rest := text, failed := false, lineno := 0, nskip := nskip, ncols := -1, delims := delims } : Reader) :=
      ⟨by simpa using hl, hl, rfl, by simp⟩
    have := (skipLines_spec nskip h0 rfl).2.2.2 (by
      by_contra hc
      exact h ⟨hd, by omega⟩)
    simp [openReader, hd, this]

theorem openReader_inv {text : Str} {ls : List Str} (hl : Lines text ls) {nskip : Int} {delims : Str}
    (h : openReader (some text) nskip delims ≠ .throws) : checkDelimiters delims = true ∧ nskip ≤ ls.length := by
  by_contra hc
  exact h (openReader_bad text ls hl nskip delims hc)

theorem csvread_inv {β : Type} {conv : Str → Option β} {text : Str} {ls : List Str} (hl : Lines text ls) {nskip : Int} {delims : Str}
    (h : csvread conv (some text) nskip delims ≠ .throws) : checkDelimiters delims = true ∧ nskip ≤ ls.length := by
  apply openReader_inv hl
  intro h'
  apply h
  unfold csvread
  rw [h']; rfl

/-- **C17 (no ragged table is returned).** If `csvread` returns, then every nonblank line after the skipped ones has exactly `ncols` fields and they all
convert, the data are `nrows * ncols` values, and `nrows` is the number of nonblank lines. -/
theorem C17_sound {β : Type} (conv : Str → Option β) (text : Str) (ls : List Str) (hl : Lines text ls) (nskip : Int) (delims : Str)
    (nrows : Nat) (ncols : Int) (data : List β) (h : csvread conv (some text) nskip delims = .ok (nrows, ncols, data)) :
    (data.length : Int) = nrows * ncols ∧
    (∀ toks, BodyRow ls nskip delims toks → (toks.length : Int) = ncols ∧ ∀ t ∈ toks, (conv t).isSome) ∧
    nrows = ((ls.drop nskip.toNat).filter fun l => !l.all isSpace).length := by
  obtain ⟨hd, hn⟩ := csvread_inv hl (by rw [h]; simp)
  rw [csvread_spec conv text ls hl nskip delims hd hn] at h
  split at h
  · rename_i hall
    simp only [Out.ok.injEq, Prod.mk.injEq] at h
    obtain ⟨rfl, rfl, rfl⟩ := h
    rw [List.all_eq_true] at hall
    have hrow : ∀ x ∈ nb (ls.drop nskip.toNat), (tokenizeLine delims x).length = firstCount delims (ls.drop nskip.toNat) ∧
        (convAll conv (tokenizeLine delims x)).1 = true := by
      intro x hx
      have := hall x hx
      simp only [rowOK, Bool.and_eq_true, decide_eq_true_eq] at this
      exact ⟨by exact_mod_cast this.1, this.2⟩
    refine ⟨?_, ?_, ?_⟩
    · have : ∀ b : List Str, (∀ x ∈ b, (tokenizeLine delims x).length = firstCount delims (ls.drop nskip.toNat) ∧
          (convAll conv (tokenizeLine delims x)).1 = true) →
          (b.flatMap fun l => (convAll conv (tokenizeLine delims l)).2).length = b.length * firstCount delims (ls.drop nskip.toNat) := by
        intro b
        induction b with
        | nil => simp
        | cons l b ih =>
          intro hb
          have h2 := congrArg List.length (convAll_length conv _ (hb l (by simp)).2)
          simp only [List.length_map] at h2
          simp only [List.flatMap_cons, List.length_append, List.length_cons, h2, (hb l (by simp)).1,
            ih (fun x hx => hb x (List.mem_cons_of_mem _ hx))]
          ring
      rw [this _ hrow]; push_cast; rfl
    · rintro toks ⟨l, hl, hb, hsp⟩
      have hx := hrow (trim l) (mem_nb.2 ⟨l, hl, hb, rfl⟩)
      rw [tokenizeLine_eq hsp] at hx
      exact ⟨by exact_mod_cast hx.1, (convAll_true conv toks).1 hx.2⟩
    · have : ∀ b : List Str, (nb b).length = (b.filter fun l => !l.all isSpace).length := by
        intro b
        induction b with
        | nil => rfl
        | cons l b ih =>
          by_cases hb : trim l = []
          · have h1 : l.all isSpace = true := by rw [List.all_eq_true]; exact (trim_nil_iff l).1 hb
            rw [nb_blank l b hb, ih]; simp [h1]
          · have h1 : l.all isSpace = false := by
              rw [← Bool.not_eq_true, List.all_eq_true]; exact fun h => hb ((trim_nil_iff l).2 h)
            rw [nb_cons l b hb]; simp [h1, ih]
      exact this _
  · simp at h

/-- **C17 (bad files are rejected).** If two nonblank lines after the skipped ones differ in their number of fields, or some field does not convert,
`csvread` throws. -/
theorem C17_rejects {β : Type} (conv : Str → Option β) (text : Str) (ls : List Str) (hl : Lines text ls) (nskip : Int) (delims : Str)
    (hbad : (∃ t1 t2, BodyRow ls nskip delims t1 ∧ BodyRow ls nskip delims t2 ∧ t1.length ≠ t2.length) ∨
      (∃ toks, BodyRow ls nskip delims toks ∧ ∃ t ∈ toks, conv t = none)) :
    csvread conv (some text) nskip delims = .throws := by
  cases h : csvread conv (some text) nskip delims with
  | throws => rfl
  | ok res =>
    obtain ⟨nrows, ncols, data⟩ := res
    have hs := (C17_sound conv text ls hl nskip delims nrows ncols data h).2.1
    rcases hbad with ⟨t1, t2, h1, h2, hne⟩ | ⟨toks, h1, t, ht, hc⟩
    · have e1 := (hs t1 h1).1
      have e2 := (hs t2 h2).1
      omega
    · have := (hs toks h1).2 t ht
      simp [hc] at this
  | ub =>
    obtain ⟨hd, hn⟩ := csvread_inv hl (by rw [h]; simp)
    rw [csvread_spec conv text ls hl nskip delims hd hn] at h
    split at h <;> simp at h

/-- A ragged file that C17 applies to. -/
example : BodyRow ["1 2".toList, "3".toList] 0 [' '] ["1".toList, "2".toList] ∧ BodyRow ["1 2".toList, "3".toList] 0 [' '] ["3".toList] := by
  refine ⟨⟨"1 2".toList, by simp, by simp [Blank, isSpace], .cons true "1".toList " ".toList (by decide) (by decide) (by decide) (by decide) (.one false "2".toList (by decide))⟩,
    ⟨"3".toList, by simp, by simp [Blank, isSpace], .one true "3".toList (by decide)⟩⟩

/-! ### C18 -/

/-- Public operations that move the stream or change the expected number of columns. -/
inductive Op
  | readLine
  | skipLines (n : Int)
  | parseRow
  | parseRowValues (nargs : Nat)
  | getNumRows
  | setToStart
  | setNumCols (c : Int)

/-- State after one operation (exceptions of the parse operations are caught by the caller). -/
def step {β : Type} (conv : Str → Option β) (r : Reader) : Op → Reader
  | .readLine => (Csv.readLine r).2
  | .skipLines n => Csv.skipLines n r
  | .parseRow => (Csv.parseRow conv r).2.2
  | .parseRowValues k => (Csv.parseRowValues conv k r).2.2
  | .getNumRows => (Csv.getNumRows r).2
  | .setToStart => Csv.setToStart r
  | .setNumCols c => Csv.setNumCols c r

theorem Rel.skip_any {done rem : List Str} {r : Reader} (h : Rel done rem r) (n : Int) :
    ∃ d' r', d' ++ r' = done ++ rem ∧ Rel d' r' (Csv.skipLines n r) ∧ (Csv.skipLines n r).content = r.content := by
  cases hf : r.failed with
  | false =>
    obtain ⟨h1, h2, _⟩ := skipLines_spec n h hf
    exact ⟨_, _, by rw [List.append_assoc, List.take_append_drop], h1, h2.content⟩
  | true =>
    have hr := h.failed hf
    subst hr
    unfold Csv.skipLines
    split
    · obtain ⟨h1, h2⟩ := skipLoop_failed n.toNat done r h
      exact ⟨done, [], rfl, h1, h2.content⟩
    · exact ⟨done, [], rfl, h, rfl⟩

theorem Rel.parse_any {β : Type} (conv : Str → Option β) {done rem : List Str} {r : Reader} (h : Rel done rem r) :
    ∃ d' r', d' ++ r' = done ++ rem ∧ Rel d' r' (Csv.parseRow conv r).2.2 ∧ (Csv.parseRow conv r).2.2.content = r.content := by
  rcases parseRow_spec conv h with ⟨_, r', e, h2, h3⟩ | ⟨bl, l, rem', h1, _, _, r', h4, hs, h5⟩
  · rw [e]; exact ⟨done ++ rem, [], by simp, h2, h3.content⟩
  · subst h1
    have e : (Csv.parseRow conv r).2.2 = r' := by
      rcases h5 with ⟨_, e⟩ | ⟨_, vs, e⟩ <;> rw [e]
    rw [e]; exact ⟨_, _, by simp, h4, hs.content⟩

theorem step_rel {β : Type} (conv : Str → Option β) {done rem : List Str} {r : Reader} (h : Rel done rem r) (op : Op) :
    ∃ d' r', d' ++ r' = done ++ rem ∧ Rel d' r' (step conv r op) ∧ (step conv r op).content = r.content := by
  cases op with
  | readLine =>
    cases rem with
    | nil =>
      obtain ⟨r', e, h', hs, _⟩ := readLine_nil h
      have e' : step conv r .readLine = r' := by simp [step, e]
      rw [e']
      exact ⟨_, _, rfl, h', hs.content⟩
    | cons l rem =>
      obtain ⟨r', e, h', hs, _⟩ := readLine_cons h
      have e' : step conv r .readLine = r' := by simp [step, e]
      rw [e']
      exact ⟨_, _, by simp, h', hs.content⟩
  | skipLines n => exact h.skip_any n
  | parseRow => exact h.parse_any conv
  | parseRowValues k =>
    simp only [step, Csv.parseRowValues]
    split
    · exact ⟨_, _, rfl, h, rfl⟩
    · exact h.parse_any conv
  | getNumRows =>
    obtain ⟨r', e, h', hs, _⟩ := getNumRows_spec h
    have e' : step conv r .getNumRows = r' := by simp [step, e]
    rw [e']
    exact ⟨_, _, by simp, h', hs.content⟩
  | setToStart =>
    obtain ⟨h1, h2, _⟩ := setToStart_spec h.content
    exact ⟨_, _, List.take_append_drop _ _, h1, h2.content⟩
  | setNumCols c =>
    exact ⟨_, _, rfl, ⟨h.content, h.rest, h.lineno, h.failed⟩, rfl⟩

/-- **C18 (line accounting).** For every file, every successful construction and every sequence of operations, the reader has consumed exactly the first
`getLineNum()` physical lines: the next `readLine` yields physical line number `getLineNum()` (counted from 0), or fails if there is none. -/
theorem C18_history {β : Type} (conv : Str → Option β) (text : Str) (ls : List Str) (hl : Lines text ls) (nskip : Int) (delims : Str)
    (r0 : Reader) (h0 : openReader (some text) nskip delims = .ok r0) (ops : List Op) :
    let r := ops.foldl (step conv) r0
    r.lineno ≤ ls.length ∧ Lines r.rest (ls.drop r.lineno) ∧ (Csv.readLine r).1 = ls[r.lineno]? := by
  obtain ⟨hd, hn⟩ := openReader_inv hl (by rw [h0]; simp)
  obtain ⟨r, e, h1, _, hc, _⟩ := openReader_spec text ls hl nskip delims hd hn
  rw [h0] at e
  simp only [Out.ok.injEq] at e
  subst e
  have key : ∀ (ops : List Op) (d m : List Str) (r : Reader), d ++ m = ls → Rel d m r →
      ∃ d' m', d' ++ m' = ls ∧ Rel d' m' (ops.foldl (step conv) r) := by
    intro ops
    induction ops with
    | nil => intro d m r e h; exact ⟨d, m, e, h⟩
    | cons op ops ih =>
      intro d m r e h
      obtain ⟨d', m', e', h', _⟩ := step_rel conv h op
      exact ih d' m' _ (e'.trans e) h'
  obtain ⟨d, m, e, h⟩ := key ops _ _ r0 (by simp) h1
  intro r
  have hln : r.lineno = d.length := h.lineno
  subst e
  refine ⟨by rw [hln]; simp, by rw [hln, List.drop_left]; exact h.rest, ?_⟩
  rw [hln]
  cases m with
  | nil =>
    obtain ⟨r', e, _⟩ := readLine_nil h
    rw [e]; simp
  | cons l m =>
    obtain ⟨r', e, _⟩ := readLine_cons h
    rw [e]; simp

/-- **C18 (construction).** Construction throws exactly when the delimiter string is empty or has a character outside the six allowed ones, the file cannot
be opened, or it has fewer than `nskip` lines; otherwise the reader stands at line `nskip`. -/
theorem C18_open (file : Option Str) (nskip : Int) (delims : Str) :
    (openReader file nskip delims = .throws ↔
      (delims = [] ∨ ∃ c ∈ delims, c ∉ [' ', '\t', ',', ';', '^', '|']) ∨ file = none ∨
        ∃ text ls, file = some text ∧ Lines text ls ∧ (ls.length : Int) < nskip) ∧
    (∀ r, openReader file nskip delims = .ok r → r.lineno = nskip.toNat) ∧
    openReader file nskip delims ≠ .ub := by
  have hdel : checkDelimiters delims = false ↔ (delims = [] ∨ ∃ c ∈ delims, c ∉ [' ', '\t', ',', ';', '^', '|']) := by
    unfold checkDelimiters
    rw [Bool.and_eq_false_iff]
    simp only [← Bool.not_eq_true, List.all_eq_true]
    simp
    tauto
  cases hd : checkDelimiters delims with
  | false =>
    have := hdel.1 hd
    have hth : openReader file nskip delims = .throws := by simp [openReader, hd]
    rw [hth]
    exact ⟨⟨fun _ => Or.inl this, fun _ => rfl⟩, by simp, by simp⟩
  | true =>
    have hnd : ¬ (delims = [] ∨ ∃ c ∈ delims, c ∉ [' ', '\t', ',', ';', '^', '|']) := fun h => by
      have := hdel.2 h
      rw [hd] at this; simp at this
    cases file with
    | none => simp [openReader, hd]
    | some text =>
      obtain ⟨ls, hl⟩ := lines_total text
      by_cases hn : nskip ≤ ls.length
      · obtain ⟨r, e, h1, _⟩ := openReader_spec text ls hl nskip delims hd hn
        rw [e]
        refine ⟨⟨by simp, ?_⟩, ?_, by simp⟩
        · rintro (h | h | ⟨text', ls', h1, h2, h3⟩)
          · exact absurd h hnd
          · simp at h
          · simp only [Option.some.injEq] at h1
            subst h1
            rw [hl.unique h2] at hn
            omega
        · intro r' h'
          simp only [Out.ok.injEq] at h'
          subst h'
          rw [h1.lineno, List.length_take]
          omega
      · have h0' : Rel [] ls ({ content := text, rest := text, failed := false, lineno := 0, nskip := nskip, ncols := -1, delims := delims } : Reader) :=
          ⟨by simpa using hl, hl, rfl, by simp⟩
        have := (skipLines_spec nskip h0' rfl).2.2.2 (by omega)
        have hth : openReader (some text) nskip delims = .throws := by simp [openReader, hd, this]
        rw [hth]
        exact ⟨⟨fun _ => Or.inr (Or.inr ⟨text, ls, rfl, hl, by omega⟩), fun _ => rfl⟩, by simp, by simp⟩

example : ∃ r, openReader (some "a b\n\n1 2\n".toList) 1 [' '] = .ok r ∧ r.lineno = 1 :=
  ⟨{ content := "a b\n\n1 2\n".toList, rest := "\n1 2\n".toList, failed := false, lineno := 1, nskip := 1, ncols := 2, delims := [' '] },
    by decide, rfl⟩

/-! ### C19 -/

/-- **C19 (partial).** On a freshly constructed reader `getNumRows` returns the number of nonblank lines after the skipped ones.  Missing: the stream is not returned to the
start, see `C19_no_reset`. -/
theorem C19_count_partial (text : Str) (ls : List Str) (hl : Lines text ls) (nskip : Int) (delims : Str) (r : Reader)
    (h : openReader (some text) nskip delims = .ok r) :
    (getNumRows r).1 = ((ls.drop nskip.toNat).filter fun l => !l.all isSpace).length := by
  obtain ⟨hd, hn⟩ := openReader_inv hl (by rw [h]; simp)
  obtain ⟨r', e, h1, _⟩ := openReader_spec text ls hl nskip delims hd hn
  rw [h] at e
  simp only [Out.ok.injEq] at e
  subst e
  obtain ⟨r2, e2, _⟩ := getNumRows_spec h1
  rw [e2]
  have : ∀ b : List Str, (nb b).length = (b.filter fun l => !l.all isSpace).length := by
    intro b
    induction b with
    | nil => rfl
    | cons l b ih =>
      by_cases hb : trim l = []
      · have h1 : l.all isSpace = true := by rw [List.all_eq_true]; exact (trim_nil_iff l).1 hb
        rw [nb_blank l b hb, ih]; simp [h1]
      · have h1 : l.all isSpace = false := by
          rw [← Bool.not_eq_true, List.all_eq_true]; exact fun h => hb ((trim_nil_iff l).2 h)
        rw [nb_cons l b hb]; simp [h1, ih]
  exact this _

/-- **C19 refuted.** `getNumRows` never resets the stream: after it, every reader is at the end of the file, so a second call returns 0 and a parse call reads nothing
until `setToStart` is called. -/
theorem C19_no_reset {β : Type} (conv : Str → Option β) (text : Str) (nskip : Int) (delims : Str) (r : Reader)
    (h : openReader (some text) nskip delims = .ok r) :
    (getNumRows (getNumRows r).2).1 = 0 ∧ (parseRow conv (getNumRows r).2).1 = .eof ∧
      (getNumRows (setToStart (getNumRows r).2)).1 = (getNumRows r).1 := by
  obtain ⟨ls, hl⟩ := lines_total text
  obtain ⟨hd, hn⟩ := openReader_inv hl (by rw [h]; simp)
  obtain ⟨r', e, h1, hf, hc, hns, _⟩ := openReader_spec text ls hl nskip delims hd hn
  rw [h] at e
  simp only [Out.ok.injEq] at e
  subst e
  obtain ⟨r2, e2, h2, hs2, _⟩ := getNumRows_spec h1
  rw [e2]
  refine ⟨?_, ?_, ?_⟩
  · obtain ⟨r3, e3, _⟩ := getNumRows_spec h2
    rw [e3]; rfl
  · rcases parseRow_spec conv h2 with ⟨_, r3, e3, _⟩ | ⟨bl, l, rem', h3, _⟩
    · rw [e3]
    · simp at h3
  · have hc2 : r2.content = text := hs2.content.trans hc
    obtain ⟨k1, _⟩ := setToStart_spec (r := r2) (ls := ls) (by rw [hc2]; exact hl)
    rw [hs2.nskip, hns] at k1
    obtain ⟨r4, e4, _⟩ := getNumRows_spec k1
    rw [e4]

/-- A file for which the two calls differ. -/
theorem C19_witness : ∃ r, openReader (some "1 2\n3 4\n".toList) 0 [' '] = .ok r ∧
    (getNumRows r).1 = 2 ∧ (getNumRows (getNumRows r).2).1 = 0 :=
  ⟨{ content := "1 2\n3 4\n".toList, rest := "1 2\n3 4\n".toList, failed := false, lineno := 0, nskip := 0, ncols := 2, delims := [' '] },
    by decide, by decide, by decide⟩

/-! ### C56 -/

theorem write_joined (fmt : Nat → Str) (delim : Char) (n : Nat) :
    ∃ core, ((List.range (n + 1)).flatMap fun k => fmt k ++ [delim]) = core ++ [delim] ∧
      Joined (fun c => [delim].contains c) ((List.range (n + 1)).map fmt) core := by
  have gen : ∀ (l : List Nat), l ≠ [] → ∃ core, (l.flatMap fun k => fmt k ++ [delim]) = core ++ [delim] ∧
      Joined (fun c => [delim].contains c) (l.map fmt) core := by
    intro l
    induction l with
    | nil => intro h; simp at h
    | cons x l ih =>
      intro _
      cases l with
      | nil => exact ⟨fmt x, by simp, .one _⟩
      | cons y l =>
        obtain ⟨core, e, hj⟩ := ih (by simp)
        refine ⟨fmt x ++ [delim] ++ core, ?_, ?_⟩
        · rw [List.flatMap_cons, e]; simp
        · rw [List.map_cons]
          exact .cons (fmt x) [delim] (by simp) (by simp) hj
  exact gen _ (by simp)

theorem Joined.head_last {d : Char → Bool} {fs : List Str} {s : Str} (h : Joined d fs s) (p : Char → Prop)
    (hf : ∀ f ∈ fs, f ≠ [] ∧ ∀ c ∈ f, p c) : (∀ c, s.head? = some c → p c) ∧ (∀ c, s.getLast? = some c → p c) := by
  induction h with
  | one f =>
    have := hf f (by simp)
    exact ⟨fun c hc => this.2 c (List.mem_of_head? hc), fun c hc => this.2 c (List.mem_of_getLast? hc)⟩
  | @cons f sep fs s h1 h2 h3 ih =>
    have hff := hf f (by simp)
    have hne := h3.ne_nil (fun g hg => (hf g (List.mem_cons_of_mem _ hg)).1)
    refine ⟨?_, ?_⟩
    · intro c hc
      cases f with
      | nil => simp at hff
      | cons x f => simp at hc; subst hc; exact hff.2 x (by simp)
    · intro c hc
      have e : (f ++ sep ++ s).getLast? = s.getLast? := by
        rw [List.getLast?_append]
        cases hs : s.getLast? with
        | none => exact absurd (List.getLast?_eq_none_iff.1 hs) hne
        | some x => rfl
      rw [e] at hc
      exact (ih (fun g hg => hf g (List.mem_cons_of_mem _ hg))).2 c hc

/-- The lines written by `writeFieldToFile`. -/
theorem writeField_lines {α : Type} (fmt : α → Str) (delim : Char) (hdn : delim ≠ '\n') (rows cols : Nat) (f : Nat → Nat → α)
    (hnl : ∀ i k, '\n' ∉ fmt (f i k)) :
    Lines (writeField fmt delim rows cols f)
      ((List.range rows).map fun i => (List.range cols).flatMap fun k => fmt (f i k) ++ [delim]) := by
  unfold writeField
  induction List.range rows with
  | nil => exact .nil
  | cons i l ih =>
    have : '\n' ∉ (List.range cols).flatMap fun k => fmt (f i k) ++ [delim] := by
      simp only [List.mem_flatMap, List.mem_append, List.mem_singleton, not_exists, not_and, not_or]
      exact fun k _ => ⟨hnl i k, Ne.symm hdn⟩
    have h2 := Lines.cons _ this ih
    simpa using h2

/-- **C56 (partial).** A field of at least one row and column, written with a space or tab as delimiter and read back with that delimiter, has the same shape
and the same field texts, provided number texts are nonempty and free of white space (as `operator<<` produces).  Missing: other delimiters, see
`C56_comma_fails`. -/
theorem C56_roundtrip_partial {α : Type} (fmt : α → Str) (delim : Char) (hdelim : delim = ' ' ∨ delim = '\t') (rows cols : Nat)
    (hr : 0 < rows) (hc : 0 < cols) (f : Nat → Nat → α) (hfmt : ∀ i k, fmt (f i k) ≠ [] ∧ ∀ c ∈ fmt (f i k), isSpace c = false) :
    csvread some (some (writeField fmt delim rows cols f)) 0 [delim] =
      .ok (rows, (cols : Int), (List.range rows).flatMap fun i => (List.range cols).map fun k => fmt (f i k)) := by
  have hsp : isSpace delim = true := by rcases hdelim with rfl | rfl <;> decide
  have hl := writeField_lines fmt delim (by rcases hdelim with rfl | rfl <;> decide) rows cols f (by
    intro i k h
    have := (hfmt i k).2 _ h
    simp [isSpace] at this)
  have hnd : ∀ i k, ∀ c ∈ fmt (f i k), ([delim].contains c) = false := by
    intro i k c hm
    have := (hfmt i k).2 c hm
    rw [List.contains_eq_mem]
    simp only [List.mem_singleton, decide_eq_false_iff_not]
    rintro rfl
    rw [hsp] at this; simp at this
  have hshow : Shows (fun c => [delim].contains c) ((List.range rows).map fun i => (List.range cols).map fun k => fmt (f i k))
      ((List.range rows).map fun i => (List.range cols).flatMap fun k => fmt (f i k) ++ [delim]) := by
    induction List.range rows with
    | nil => exact .nil
    | cons i l ih =>
      refine .row _ _ ?_ ih
      obtain ⟨n, rfl⟩ : ∃ n, cols = n + 1 := ⟨cols - 1, by omega⟩
      obtain ⟨core, e, hj⟩ := write_joined (fun k => fmt (f i k)) delim n
      have hfs : ∀ g ∈ (List.range (n + 1)).map (fun k => fmt (f i k)), g ≠ [] ∧ ∀ c ∈ g, isSpace c = false := by
        intro g hg
        obtain ⟨k, _, rfl⟩ := List.mem_map.1 hg
        exact hfmt i k
      have hhl := hj.head_last (fun c => isSpace c = false) hfs
      refine ⟨[], core, [delim], by simp [e], by simp [Blank], by simpa [Blank] using hsp, hj, ?_, hhl.1, hhl.2⟩
      intro g hg
      obtain ⟨k, _, rfl⟩ := List.mem_map.1 hg
      exact ⟨(hfmt i k).1, hnd i k⟩
  have := C16_csvread some id [delim] (by rcases hdelim with rfl | rfl <;> decide) _ [] _ (by simpa using hl) _ cols (by
    intro h
    have := congrArg List.length h
    simp at this; omega) hshow (by
    intro row hrow
    obtain ⟨i, _, rfl⟩ := List.mem_map.1 hrow
    simp) (by intros; rfl)
  simp only [List.length_nil, Int.natCast_zero] at this
  rw [this]
  simp [List.flatMap_def]

/-- **C56 refuted for other delimiters.** With any non-white-space delimiter, the trailing delimiter yields an empty last field, so reading numbers throws for every
nonempty field. -/
theorem C56_comma_fails {α β : Type} (fmt : α → Str) (conv : Str → Option β) (hconv : conv [] = none) (delim : Char)
    (hdelim : delim = ',' ∨ delim = ';' ∨ delim = '^' ∨ delim = '|') (rows cols : Nat)
    (hr : 0 < rows) (hc : 0 < cols) (f : Nat → Nat → α)
    (hfmt : ∀ i k, fmt (f i k) ≠ [] ∧ ∀ c ∈ fmt (f i k), isSpace c = false ∧ c ≠ delim) :
    csvread conv (some (writeField fmt delim rows cols f)) 0 [delim] = .throws := by
  have hsp : isSpace delim = false := by rcases hdelim with rfl | rfl | rfl | rfl <;> decide
  have hl := writeField_lines fmt delim (by rcases hdelim with rfl | rfl | rfl | rfl <;> decide) rows cols f (by
    intro i k h
    have := (hfmt i k).2 _ h
    simp [isSpace] at this)
  obtain ⟨n, rfl⟩ : ∃ n, cols = n + 1 := ⟨cols - 1, by omega⟩
  obtain ⟨core, e, hj⟩ := write_joined (fun k => fmt (f 0 k)) delim n
  have hfs : ∀ g ∈ (List.range (n + 1)).map (fun k => fmt (f 0 k)), g ≠ [] ∧ ∀ c ∈ g, isSpace c = false := by
    intro g hg
    obtain ⟨k, _, rfl⟩ := List.mem_map.1 hg
    exact ⟨(hfmt 0 k).1, fun c hc => ((hfmt 0 k).2 c hc).1⟩
  have hhl := hj.head_last (fun c => isSpace c = false) hfs
  have hne := hj.ne_nil (fun g hg => (hfs g hg).1)
  have htrim : trim (core ++ [delim]) = core ++ [delim] := by
    have := trim_core [] (core ++ [delim]) [] (by simp [Blank]) (by simp [Blank]) (by simp) (by
      intro c hc
      cases core with
      | nil => simp at hne
      | cons x core => exact hhl.1 c (by simpa using hc)) (by
      intro c hc
      simp only [List.getLast?_concat, Option.some.injEq] at hc
      subst hc; exact hsp)
    simpa using this
  have hsplit : ∀ {fs : List Str} {s : Str} (first : Bool), Joined (fun c => [delim].contains c) fs s →
      (∀ g ∈ fs, g ≠ [] ∧ ∀ c ∈ g, ([delim].contains c) = false) →
      IsSplit (fun c => [delim].contains c) first (s ++ [delim]) (fs ++ [[]]) := by
    intro fs s first hj
    induction hj generalizing first with
    | one g =>
      intro hg
      have := IsSplit.cons (d := fun c => [delim].contains c) first g [delim] (hg g (by simp)).2 (fun _ => (hg g (by simp)).1) (by simp) (by simp)
        (.one false [] (by simp))
      simpa using this
    | cons g sep h1 h2 _ ih =>
      intro hg
      have := IsSplit.cons (d := fun c => [delim].contains c) first g sep (hg g (by simp)).2 (fun _ => (hg g (by simp)).1) h1 h2
        (ih false (fun x hx => hg x (List.mem_cons_of_mem _ hx)))
      simpa using this
  apply C17_rejects conv _ _ hl 0 [delim]
  refine Or.inr ⟨(List.range (n + 1)).map (fun k => fmt (f 0 k)) ++ [[]], ⟨core ++ [delim], ?_, ?_, ?_⟩, [], ?_, hconv⟩
  · simp only [Int.toNat_zero, List.drop_zero, List.mem_map, List.mem_range]
    exact ⟨0, hr, e⟩
  · intro hb
    have := hb delim (by simp)
    rw [hsp] at this; simp at this
  · rw [htrim]
    refine hsplit true hj ?_
    intro g hg
    obtain ⟨k, _, rfl⟩ := List.mem_map.1 hg
    refine ⟨(hfmt 0 k).1, fun c hc => ?_⟩
    rw [List.contains_eq_mem]
    simpa using ((hfmt 0 k).2 c hc).2
  · simp

example : csvread some (some (writeField (fun n : Nat => (toString n).toList) ' ' 2 2 (fun i j => 10 * i + j))) 0 [' '] =
    .ok (2, 2, ["0".toList, "1".toList, "10".toList, "11".toList]) := by decide

end Blitzdg.Csv
