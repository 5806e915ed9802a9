import Verif.Csv.Props

/-! Property C130: reading a file row by row (`setNumCols`, `parseRowValues`), and Windows line ends. -/

namespace Blitzdg.Csv

/-! ### Lemmas -/

theorem readLine_delims (r : Reader) : (readLine r).2.delims = r.delims := by
  unfold readLine
  split
  · rfl
  · split <;> rfl

theorem skipLoop_delims (n : Nat) : ∀ r : Reader, (skipLoop n r).delims = r.delims := by
  induction n with
  | zero => intro r; rfl
  | succ n ih =>
    intro r
    have h := readLine_delims r
    unfold skipLoop
    split
    · rename_i r' e; rw [e] at h; rw [ih]; exact h
    · rename_i r' e; rw [e] at h; exact h

theorem skipLines_delims (n : Int) (r : Reader) : (skipLines n r).delims = r.delims := by
  unfold skipLines
  split
  · exact skipLoop_delims _ _
  · rfl

theorem nonemptyLoop_delims (n : Nat) : ∀ r : Reader, (nonemptyLoop n r).2.delims = r.delims := by
  induction n with
  | zero => intro r; rfl
  | succ n ih =>
    intro r
    have h := readLine_delims r
    unfold nonemptyLoop
    split
    · rename_i l r' e
      rw [e] at h
      split
      · rw [ih]; exact h
      · exact h
    · rename_i r' e; rw [e] at h; exact h

theorem numRowsLoop_delims (n : Nat) : ∀ (m : Nat) (r : Reader), (numRowsLoop n m r).2.delims = r.delims := by
  induction n with
  | zero => intro m r; rfl
  | succ n ih =>
    intro m r
    have h := nonemptyLoop_delims (r.rest.length + 1) r
    unfold numRowsLoop getNonemptyLine
    split
    · rename_i l r' e; rw [e] at h; rw [ih]; exact h
    · rename_i r' e; rw [e] at h; exact h

theorem parseRow_delims {β : Type} (conv : Str → Option β) (r : Reader) : (parseRow conv r).2.2.delims = r.delims := by
  have h := nonemptyLoop_delims (r.rest.length + 1) r
  unfold parseRow getNonemptyLine
  split
  · rename_i l r' e
    rw [e] at h
    simp only
    split
    · exact h
    · split <;> exact h
  · rename_i r' e; rw [e] at h; exact h

theorem step_delims {β : Type} (conv : Str → Option β) (r : Reader) (op : Op) : (step conv r op).delims = r.delims := by
  cases op with
  | readLine => exact readLine_delims r
  | skipLines n => exact skipLines_delims n r
  | parseRow => exact parseRow_delims conv r
  | parseRowValues k =>
    simp only [step, Csv.parseRowValues]
    split
    · rfl
    · exact parseRow_delims conv r
  | getNumRows => exact numRowsLoop_delims _ _ r
  | setToStart => exact skipLines_delims _ _
  | setNumCols c => rfl

/-- The lines read and left after any history. -/
theorem history_rel {β : Type} (conv : Str → Option β) (ops : List Op) : ∀ (d m : List Str) (r : Reader), Rel d m r →
    ∃ d' m', d' ++ m' = d ++ m ∧ Rel d' m' (ops.foldl (step conv) r) ∧ (ops.foldl (step conv) r).delims = r.delims := by
  induction ops with
  | nil => intro d m r h; exact ⟨d, m, rfl, h, rfl⟩
  | cons op ops ih =>
    intro d m r h
    obtain ⟨d', m', e', h', _⟩ := step_rel conv h op
    obtain ⟨d2, m2, e2, h2, h3⟩ := ih d' m' _ h'
    exact ⟨d2, m2, e2.trans e', h2, h3.trans (step_delims conv r op)⟩

theorem nb_nil_iff (ls : List Str) : nb ls = [] ↔ ∀ l ∈ ls, Blank l := by
  constructor
  · intro h l hl
    by_contra hb
    have : trim l ∈ nb ls := mem_nb.2 ⟨l, hl, hb, rfl⟩
    rw [h] at this; simp at this
  · intro h
    rw [List.eq_nil_iff_forall_not_mem]
    intro x hx
    obtain ⟨l, hl, hb, _⟩ := mem_nb.1 hx
    exact hb (h l hl)

/-- The first nonblank line is unique. -/
theorem first_nonblank {b1 b2 : List Str} {l1 l2 : Str} {t1 t2 : List Str} (h : b1 ++ l1 :: t1 = b2 ++ l2 :: t2)
    (h1 : ∀ l ∈ b1, Blank l) (h2 : ∀ l ∈ b2, Blank l) (n1 : ¬ Blank l1) (n2 : ¬ Blank l2) : b1 = b2 ∧ l1 = l2 ∧ t1 = t2 := by
  induction b1 generalizing b2 with
  | nil =>
    cases b2 with
    | nil => simp only [List.nil_append, List.cons.injEq] at h; exact ⟨rfl, h⟩
    | cons x b2 =>
      simp only [List.nil_append, List.cons_append, List.cons.injEq] at h
      exact absurd (h2 x (by simp)) (h.1 ▸ n1)
  | cons y b1 ih =>
    cases b2 with
    | nil =>
      simp only [List.nil_append, List.cons_append, List.cons.injEq] at h
      exact absurd (h1 y (by simp)) (h.1.symm ▸ n2)
    | cons x b2 =>
      simp only [List.cons_append, List.cons.injEq] at h
      obtain ⟨e1, e2, e3⟩ := ih h.2 (fun l hl => h1 l (List.mem_cons_of_mem _ hl)) (fun l hl => h2 l (List.mem_cons_of_mem _ hl))
      exact ⟨by rw [h.1, e1], e2, e3⟩

theorem trim_append_space (l : Str) (c : Char) (hc : isSpace c = true) : trim (l ++ [c]) = trim l := by
  by_cases hb : Blank l
  · rw [(trim_nil_iff l).2 hb, (trim_nil_iff _).2]
    intro x hx
    rcases List.mem_append.1 hx with h | h
    · exact hb x h
    · rw [List.mem_singleton.1 h]; exact hc
  · have hne : l.dropWhile isSpace ≠ [] := by
      intro h
      apply hb
      intro x hx
      by_contra hc'
      exact hc' ((dropWhile_eq_nil l).1 h x hx)
    have : (l ++ [c]).dropWhile isSpace = l.dropWhile isSpace ++ [c] := by
      rw [List.dropWhile_append]
      simp [hne]
    unfold trim
    rw [this, List.reverse_append]
    simp [hc]

/-! ### C130 -/

/-- The fields of a line: the line without leading and trailing white space, cut at every run of delimiters. -/
def LineFields (delims : Str) (l : Str) (toks : List Str) : Prop := IsSplit (fun c => delims.contains c) true (trim l) toks

/-- **C130 (argument count).** After any history, asking for a number of values other than the number of columns in force throws and leaves the reader as it is. -/
theorem C130_arguments {β : Type} (conv : Str → Option β) (r : Reader) (c : Int) (n : Nat) (h : (n : Int) ≠ c) :
    parseRowValues conv n (setNumCols c r) = (.threw, [], setNumCols c r) ∧ (setNumCols c r).ncols = c ∧
      readLine (setNumCols c r) = ((readLine r).1, setNumCols c (readLine r).2) := by
  refine ⟨by simp [parseRowValues, setNumCols, h], rfl, ?_⟩
  unfold readLine setNumCols
  simp only
  split
  · rfl
  · split <;> rfl

/-- **C130 (rows).** For every file, every construction and every sequence of operations, then `setNumCols(n)` and `parseRowValues` with `n` arguments: if only blank lines are left, the
end of the file is reported.  Otherwise the first nonblank line left decides: if it has `n` fields that all convert, their values are returned in order; if not, an exception is thrown.
In both cases that line and the blank ones before it are consumed. -/
theorem C130_row {β : Type} (conv : Str → Option β) (text : Str) (ls : List Str) (hl : Lines text ls) (nskip : Int) (delims : Str)
    (r0 : Reader) (h0 : openReader (some text) nskip delims = .ok r0) (ops : List Op) (n : Nat) :
    let r := ops.foldl (step conv) r0
    ((∀ l ∈ ls.drop r.lineno, Blank l) → (parseRowValues conv n (setNumCols n r)).1 = .eof) ∧
    (∀ bl l rest toks, ls.drop r.lineno = bl ++ l :: rest → (∀ b ∈ bl, Blank b) → ¬ Blank l → LineFields delims l toks →
      (parseRowValues conv n (setNumCols n r)).2.2.lineno = r.lineno + bl.length + 1 ∧
      (∀ vals, toks.length = n → toks.map conv = vals.map some →
        (parseRowValues conv n (setNumCols n r)).1 = .row ∧ (parseRowValues conv n (setNumCols n r)).2.1 = vals) ∧
      ((toks.length ≠ n ∨ ∃ t ∈ toks, conv t = none) → (parseRowValues conv n (setNumCols n r)).1 = .threw)) := by
  obtain ⟨hd, hn⟩ := openReader_inv hl (by rw [h0]; simp)
  obtain ⟨r, e, h1, _, _, _, hdel, _⟩ := openReader_spec text ls hl nskip delims hd hn
  rw [h0] at e
  simp only [Out.ok.injEq] at e
  subst e
  obtain ⟨d, m, e, h, hds⟩ := history_rel conv ops _ _ r0 h1
  intro r
  rw [List.take_append_drop] at e
  have hln : r.lineno = d.length := h.lineno
  have hdrop : ls.drop r.lineno = m := by rw [hln, ← e, List.drop_left]
  rw [hdrop]
  have hrel : Rel d m (setNumCols n r) := ⟨h.content, h.rest, h.lineno, h.failed⟩
  have hp : parseRowValues conv n (setNumCols n r) = parseRow conv (setNumCols n r) := by simp [parseRowValues, setNumCols]
  have hdr : (setNumCols n r).delims = delims := hds.trans hdel
  rw [hp]
  rcases parseRow_spec conv hrel with ⟨a1, r', a2, _⟩ | ⟨bl', l', rem', a1, a2, a3, r', a4, a5, a6⟩
  · rw [a2]
    refine ⟨fun _ => rfl, ?_⟩
    intro bl l rest toks hb _ hnb _
    exact absurd ((nb_nil_iff m).1 a1 l (by rw [hb]; simp)) hnb
  · have hnb' : ¬ Blank l' := fun hb => a3 ((trim_nil_iff l').2 hb)
    refine ⟨fun hall => absurd (hall l' (by rw [a1]; simp)) hnb', ?_⟩
    intro bl l rest toks hb hbl hnb hf
    obtain ⟨rfl, rfl, rfl⟩ := first_nonblank (a1.symm.trans hb) ((nb_nil_iff bl').1 a2) hbl hnb' hnb
    have htok : tokenizeLine (setNumCols n r).delims (trim l') = toks := by rw [hdr]; exact tokenizeLine_eq hf
    have hlin : r'.lineno = r.lineno + bl'.length + 1 := by
      rw [a4.lineno, hln]; simp; omega
    rcases a6 with ⟨b1, b2⟩ | ⟨b1, vs, b2⟩
    · rw [b2]
      refine ⟨hlin, ?_, ?_⟩
      · intro vals _ hv
        refine ⟨rfl, ?_⟩
        unfold rowOK at b1
        rw [Bool.and_eq_true] at b1
        have := convAll_length conv _ b1.2
        simp only [htok] at this ⊢
        rw [hv] at this
        have h2 := congrArg (List.filterMap id) this
        simpa using h2
      · intro hbad
        exfalso
        unfold rowOK at b1
        rw [Bool.and_eq_true, decide_eq_true_eq, htok] at b1
        rcases hbad with hbad | ⟨t, ht, hbad⟩
        · apply hbad
          have := b1.1
          simpa [setNumCols] using this
        · have := (convAll_true conv toks).1 b1.2 t ht
          rw [hbad] at this; simp at this
    · rw [b2]
      refine ⟨hlin, ?_, fun _ => rfl⟩
      intro vals hlen hv
      exfalso
      unfold rowOK at b1
      rw [htok, Bool.and_eq_false_iff] at b1
      rcases b1 with b1 | b1
      · rw [decide_eq_false_iff_not] at b1
        exact b1 (by simp [setNumCols, hlen])
      · rw [← Bool.not_eq_true, convAll_true] at b1
        apply b1
        intro t ht
        have : conv t ∈ vals.map some := hv ▸ List.mem_map_of_mem ht
        obtain ⟨v, _, e⟩ := List.mem_map.1 this
        rw [← e]; rfl

/-- **C130 (Windows line ends).** If every line of a file gets a carriage return at its end, `csvread` gives the same result: the same table, or an exception in both cases. -/
theorem C130_crlf {β : Type} (conv : Str → Option β) (text text' : Str) (ls : List Str) (hl : Lines text ls)
    (hl' : Lines text' (ls.map fun l => l ++ ['\r'])) (nskip : Int) (delims : Str) :
    csvread conv (some text') nskip delims = csvread conv (some text) nskip delims := by
  have hnb : ∀ b : List Str, nb (b.map fun l => l ++ ['\r']) = nb b := by
    intro b
    unfold nb
    rw [List.map_map]
    congr 1
    apply List.map_congr_left
    intro l _
    exact trim_append_space l '\r' (by decide)
  by_cases hok : checkDelimiters delims = true ∧ nskip ≤ ls.length
  · rw [csvread_spec conv text ls hl nskip delims hok.1 hok.2,
      csvread_spec conv text' _ hl' nskip delims hok.1 (by simpa using hok.2)]
    unfold firstCount
    rw [← List.map_drop, hnb]
  · have e1 : csvread conv (some text) nskip delims = .throws := by
      unfold csvread; rw [openReader_bad text ls hl nskip delims hok]; rfl
    have e2 : csvread conv (some text') nskip delims = .throws := by
      unfold csvread; rw [openReader_bad text' _ hl' nskip delims (by simpa using hok)]; rfl
    rw [e1, e2]

/-- **C130 (white space).** What counts as white space around a row: blank, tab, newline, vertical tab, form feed and carriage return, nothing else; so a line of these characters alone is never
a row. -/
theorem C130_blank (l : Str) : Blank l ↔ ∀ c ∈ l, c ∈ [' ', '\t', '\n', '\x0b', '\x0c', '\r'] := by
  unfold Blank isSpace
  simp [or_assoc]

/-- A row of two numbers behind a blank line, read with two arguments after the count on the first line. -/
example : ∃ r0, openReader (some "2\n \n7 8\n".toList) 0 [' '] = .ok r0 ∧
    parseRowValues (fun t => some t) 2 (setNumCols 2 (parseRowValues (fun t => some t) 1 (setNumCols 1 r0)).2.2) =
      (.row, ["7".toList, "8".toList],
        { content := "2\n \n7 8\n".toList, rest := [], failed := false, lineno := 3, nskip := 0, ncols := 2, delims := [' '] }) :=
  ⟨{ content := "2\n \n7 8\n".toList, rest := "2\n \n7 8\n".toList, failed := false, lineno := 0, nskip := 0, ncols := 1, delims := [' '] },
    by decide, by decide⟩

/-- The hypotheses of `C130_crlf` are met. -/
example : Lines "1 2\n3 4\n".toList ["1 2".toList, "3 4".toList] ∧
    Lines "1 2\r\n3 4\r\n".toList (["1 2".toList, "3 4".toList].map fun l => l ++ ['\r']) :=
  ⟨.cons "1 2".toList (by decide) (.cons "3 4".toList (by decide) .nil),
    .cons "1 2\r".toList (by decide) (.cons "3 4\r".toList (by decide) .nil)⟩

end Blitzdg.Csv
