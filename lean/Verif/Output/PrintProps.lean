import Verif.Output.Print
import Verif.Output.Props
import Verif.Sparse.CscProps
import Verif.Mesh.HistoryProps

/-! C147: what the library prints can be read back. -/

namespace Blitzdg.Print

open Blitzdg.Output (Str intText decText digitChar value decText_value decText_small decText_large digitChar_toNat minus_notin)
open Blitzdg.Sparse (Triplet Csc Holds WF)

/-! ### Specification: reading printed text -/

/-- The pieces of a text between the occurrences of a character. -/
def cut (c : Char) : Str → List Str
  | [] => [[]]
  | x :: s => if x = c then [] :: cut c s else
    match cut c s with
    | [] => [[x]]
    | l :: ls => (x :: l) :: ls

/-- The lines of a text in which every line is ended. -/
def linesOf (t : Str) : List Str := (cut '\n' t).dropLast

/-- The words of a line: what is between blanks. -/
def words (l : Str) : List Str := (cut ' ' l).filter fun w => w ≠ []

/-- The natural number that a word denotes. -/
def natOf (w : Str) : Option ℕ := if w ≠ [] ∧ ∀ c ∈ w, 48 ≤ c.toNat ∧ c.toNat ≤ 57 then some (value w) else none

/-- The integer that a word denotes. -/
def intOf : Str → Option Int
  | '-' :: w => (natOf w).map fun n => -(n : Int)
  | w => (natOf w).map fun n => (n : Int)

/-- A line of a printed matrix: row, column and the written value. -/
def readEntry (l : Str) : Option (Int × Int × Str) :=
  match words l with
  | [i, j, x] => (intOf i).bind fun i => (intOf j).map fun j => (i, j, x)
  | _ => none

/-- The word without the comma at its end. -/
def noComma (w : Str) : Option Str := if w.getLast? = some ',' then some w.dropLast else none

/-- The first line of a printed matrix: rows, columns, number of entries. -/
def readHead (l : Str) : Option (ℕ × ℕ × ℕ) :=
  match words l with
  | [a, b, r, c, d, s, e, f, z] =>
    if [a, b, c, d, e, f] = ["rows".toList, "=".toList, "cols".toList, "=".toList, "nnz".toList, "=".toList] then
      (noComma r).bind fun r => (natOf r).bind fun r => (noComma s).bind fun s => (natOf s).bind fun s => (natOf z).map fun z => (r, s, z)
    else none
  | _ => none

/-- A printed matrix: the first line, an empty line, and a line for every entry. -/
def readMatrix (t : Str) : Option ((ℕ × ℕ × ℕ) × List (Int × Int × Str)) :=
  match linesOf t with
  | h :: [] :: ls => (readHead h).bind fun h => (ls.mapM readEntry).map fun es => (h, es)
  | _ => none

/-- The C++ library writes every real number as a non-empty word. -/
def Plain {F : Type} (num : Fmt → F → Str) : Prop := ∀ f x, num f x ≠ [] ∧ ' ' ∉ num f x ∧ '\n' ∉ num f x

/-! ### Lemmas -/

theorem cut_none (c : Char) (s : Str) (h : c ∉ s) : cut c s = [s] := by
  induction s with
  | nil => rfl
  | cons x s ih =>
    simp only [List.mem_cons, not_or] at h
    simp [cut, Ne.symm h.1, ih h.2]

theorem cut_at (c : Char) (s t : Str) (h : c ∉ s) : cut c (s ++ c :: t) = s :: cut c t := by
  induction s with
  | nil => simp [cut]
  | cons x s ih =>
    simp only [List.mem_cons, not_or] at h
    simp [cut, Ne.symm h.1, ih h.2]

theorem cut_ne (c : Char) (s : Str) : cut c s ≠ [] := by
  cases s with
  | nil => simp [cut]
  | cons x s => simp only [cut]; split_ifs; · simp
                split <;> simp

theorem linesOf_nil : linesOf [] = [] := rfl

theorem linesOf_line (l t : Str) (h : '\n' ∉ l) : linesOf (l ++ '\n' :: t) = l :: linesOf t := by
  unfold linesOf
  rw [cut_at _ _ _ h]
  exact List.dropLast_cons_of_ne_nil (cut_ne _ _)

theorem linesOf_joined (ls : List Str) (h : ∀ l ∈ ls, '\n' ∉ l) : linesOf (ls.flatMap fun l => l ++ ['\n']) = ls := by
  induction ls with
  | nil => rfl
  | cons l ls ih =>
    rw [List.flatMap_cons, List.append_assoc, List.singleton_append, linesOf_line _ _ (h l List.mem_cons_self),
      ih fun l hl => h l (List.mem_cons_of_mem _ hl)]

theorem words_blank (t : Str) : words (' ' :: t) = words t := by simp [words, cut]

theorem words_blanks (k : ℕ) (t : Str) : words (List.replicate k ' ' ++ t) = words t := by
  induction k with
  | zero => rfl
  | succ k ih => rw [List.replicate_succ, List.cons_append, words_blank, ih]

theorem words_word (w t : Str) (h : ' ' ∉ w) (h0 : w ≠ []) : words (w ++ ' ' :: t) = w :: words t := by
  unfold words
  rw [cut_at _ _ _ h, List.filter_cons_of_pos (by simpa using h0)]

theorem words_last (w : Str) (h : ' ' ∉ w) (h0 : w ≠ []) : words w = [w] := by
  unfold words
  rw [cut_none _ _ h, List.filter_cons_of_pos (by simpa using h0)]
  rfl

theorem words_nil : words [] = [] := by simp [words, cut]

theorem dec_chars (n : ℕ) : decText n ≠ [] ∧ ∀ c ∈ decText n, 48 ≤ c.toNat ∧ c.toNat ≤ 57 := by
  induction n using Nat.strong_induction_on with
  | _ n ih =>
    by_cases h : n < 10
    · rw [decText_small n h]
      refine ⟨by simp, fun c hc => ?_⟩
      rw [List.mem_singleton.1 hc, digitChar_toNat n h]
      omega
    · rw [decText_large n (by omega)]
      refine ⟨by simp, fun c hc => ?_⟩
      rcases List.mem_append.1 hc with hc | hc
      · exact (ih (n / 10) (by omega)).2 c hc
      · rw [List.mem_singleton.1 hc, digitChar_toNat _ (by omega)]
        omega

theorem int_chars (i : Int) : intText i ≠ [] ∧ ∀ c ∈ intText i, (48 ≤ c.toNat ∧ c.toNat ≤ 57) ∨ c = '-' := by
  unfold intText
  split_ifs with h
  · refine ⟨by simp, fun c hc => ?_⟩
    rcases List.mem_cons.1 hc with hc | hc
    · exact .inr hc
    · exact .inl ((dec_chars _).2 c hc)
  · exact ⟨(dec_chars _).1, fun c hc => .inl ((dec_chars _).2 c hc)⟩

theorem int_no (i : Int) (c : Char) (h : c.toNat < 45) : c ∉ intText i := by
  intro hc
  rcases (int_chars i).2 c hc with hc | rfl
  · omega
  · exact absurd h (by decide)

theorem natOf_dec (n : ℕ) : natOf (decText n) = some n := by
  unfold natOf
  rw [if_pos (dec_chars n), decText_value]

theorem natOf_int (n : ℕ) : natOf (intText n) = some n := by
  unfold intText
  rw [if_neg (by omega), Int.natAbs_natCast, natOf_dec]

theorem intOf_int (i : Int) : intOf (intText i) = some i := by
  unfold intText
  split_ifs with h
  · rw [intOf, natOf_dec]
    show some (-(i.natAbs : Int)) = _
    congr 1
    omega
  · have hm := minus_notin i.natAbs
    have hn := natOf_dec i.natAbs
    obtain ⟨c, w, hw⟩ := List.exists_cons_of_ne_nil (dec_chars i.natAbs).1
    rw [hw] at hm hn ⊢
    have hc : c ≠ '-' := fun e => hm (by rw [e]; exact List.mem_cons_self)
    have : intOf (c :: w) = (natOf (c :: w)).map fun n => (n : Int) := by
      unfold intOf
      split
      · rename_i h1; cases h1; exact absurd rfl hc
      · rfl
    rw [this, hn]
    show some (i.natAbs : Int) = _
    congr 1
    omega

/-- The line of one entry. -/
def lineOf {F : Type} (num : Fmt → F → Str) (f : Fmt) (ndr ndc : ℕ) (e : Int × Int × F) : Str :=
  List.replicate (ndr - (intText e.1).length) ' ' ++ (intText e.1 ++ ' ' ::
    (List.replicate (ndc - (intText e.2.1).length) ' ' ++ (intText e.2.1 ++ ' ' :: num f e.2.2)))

variable {F : Type}

theorem putEntry_eq (num : Fmt → F → Str) (ndr ndc : ℕ) (s : Strm) (i j : Int) (x : F) :
    putEntry num ndr ndc s i j x = { s with text := s.text ++ (lineOf num s.fmt ndr ndc (i, j, x) ++ ['\n']) } := by
  simp [putEntry, Strm.put, Strm.putw, lineOf]

theorem lineOf_plain {num : Fmt → F → Str} (hn : Plain num) (f : Fmt) (ndr ndc : ℕ) (e : Int × Int × F) : '\n' ∉ lineOf num f ndr ndc e := by
  have h1 := int_no e.1 '\n' (by decide)
  have h2 := int_no e.2.1 '\n' (by decide)
  have h3 := (hn f e.2.2).2.2
  simp [lineOf, h1, h2, h3]

theorem readEntry_line {num : Fmt → F → Str} (hn : Plain num) (f : Fmt) (ndr ndc : ℕ) (e : Int × Int × F) :
    readEntry (lineOf num f ndr ndc e) = some (e.1, e.2.1, num f e.2.2) := by
  have : words (lineOf num f ndr ndc e) = [intText e.1, intText e.2.1, num f e.2.2] := by
    unfold lineOf
    rw [words_blanks, words_word _ _ (int_no _ _ (by decide)) (int_chars _).1, words_blanks,
      words_word _ _ (int_no _ _ (by decide)) (int_chars _).1, words_last _ (hn _ _).2.1 (hn _ _).1]
  unfold readEntry
  rw [this]
  simp only [intOf_int, Option.bind_some, Option.map_some]

/-- The first line. -/
def headOf (rows cols nnz : ℕ) : Str :=
  "rows".toList ++ ' ' :: ("=".toList ++ ' ' :: ((intText rows ++ [',']) ++ ' ' :: ("cols".toList ++ ' ' :: ("=".toList ++ ' ' ::
    ((intText cols ++ [',']) ++ ' ' :: ("nnz".toList ++ ' ' :: ("=".toList ++ ' ' :: intText nnz)))))))

theorem header_eq (s : Strm) (rows cols nnz : ℕ) : header s rows cols nnz = { s with text := s.text ++ (headOf rows cols nnz ++ ['\n', '\n']) } := by
  simp [header, Strm.put, headOf]

theorem headOf_plain (rows cols nnz : ℕ) : '\n' ∉ headOf rows cols nnz := by
  have h1 := int_no rows '\n' (by decide)
  have h2 := int_no cols '\n' (by decide)
  have h3 := int_no nnz '\n' (by decide)
  simp [headOf, h1, h2, h3]

theorem readHead_head (rows cols nnz : ℕ) : readHead (headOf rows cols nnz) = some (rows, cols, nnz) := by
  have b (n : ℕ) : ' ' ∉ intText n ++ [','] := by
    have := int_no n ' ' (by decide)
    simp [this]
  have : words (headOf rows cols nnz) = ["rows".toList, "=".toList, intText rows ++ [','], "cols".toList, "=".toList, intText cols ++ [','], "nnz".toList,
      "=".toList, intText nnz] := by
    unfold headOf
    rw [words_word _ _ (by decide) (by decide), words_word _ _ (by decide) (by decide), words_word _ _ (b _) (by simp), words_word _ _ (by decide) (by decide),
      words_word _ _ (by decide) (by decide), words_word _ _ (b _) (by simp), words_word _ _ (by decide) (by decide), words_word _ _ (by decide) (by decide),
      words_last _ (int_no _ _ (by decide)) (int_chars _).1]
  have c (n : ℕ) : noComma (intText n ++ [',']) = some (intText n) := by simp [noComma]
  unfold readHead
  rw [this]
  simp only [if_true, c, Option.bind_some, natOf_int, Option.map_some]

/-- The text of a matrix: the first line, an empty line and a line for each entry. -/
def textOf (num : Fmt → F → Str) (f : Fmt) (rows cols nnz : ℕ) (es : List (Int × Int × F)) : Str :=
  headOf rows cols nnz ++ ['\n', '\n'] ++ (es.map (lineOf num f (numDigits rows) (numDigits cols))).flatMap fun l => l ++ ['\n']

theorem lines_text {num : Fmt → F → Str} (hn : Plain num) (f : Fmt) (rows cols nnz : ℕ) (es : List (Int × Int × F)) :
    linesOf (textOf num f rows cols nnz es) = headOf rows cols nnz :: [] :: es.map (lineOf num f (numDigits rows) (numDigits cols)) := by
  unfold textOf
  have e (a b : Str) : a ++ ['\n', '\n'] ++ b = a ++ '\n' :: ([] ++ '\n' :: b) := by simp
  rw [e, linesOf_line _ _ (headOf_plain _ _ _), linesOf_line _ _ (by simp), linesOf_joined _ fun l hl => ?_]
  obtain ⟨e, _, rfl⟩ := List.mem_map.1 hl
  exact lineOf_plain hn _ _ _ _

theorem read_text {num : Fmt → F → Str} (hn : Plain num) (f : Fmt) (rows cols nnz : ℕ) (es : List (Int × Int × F)) :
    readMatrix (textOf num f rows cols nnz es) = some ((rows, cols, nnz), es.map fun e => (e.1, e.2.1, num f e.2.2)) := by
  unfold readMatrix
  rw [lines_text hn]
  simp only [readHead_head, Option.bind_some]
  have : (es.map (lineOf num f (numDigits rows) (numDigits cols))).mapM readEntry = some (es.map fun e => (e.1, e.2.1, num f e.2.2)) := by
    induction es with
    | nil => rfl
    | cons e es ih =>
      rw [List.map_cons, List.mapM_cons, readEntry_line hn, ih]
      rfl
  rw [this]
  rfl

theorem digitLoop_len (fuel : ℕ) : ∀ n, 0 < n → n ≤ fuel → digitLoop fuel n = (decText n).length := by
  induction fuel with
  | zero => intro n h1 h2; omega
  | succ fuel ih =>
    intro n h1 h2
    unfold digitLoop
    rw [if_pos h1]
    by_cases h : n < 10
    · rw [decText_small n h, Nat.div_eq_of_lt h]
      cases fuel <;> simp [digitLoop]
    · rw [decText_large n (by omega), ih (n / 10) (by omega) (by omega), List.length_append]
      rfl

theorem numDigits_eq (n : ℕ) : numDigits n = (intText n).length := by
  unfold intText
  rw [if_neg (by omega), Int.natAbs_natCast]
  unfold numDigits
  split_ifs with h
  · rw [h]; rfl
  · exact digitLoop_len n n (by omega) (le_refl n)

theorem dec_mono : ∀ n m : ℕ, m ≤ n → (decText m).length ≤ (decText n).length := by
  intro n
  induction n using Nat.strong_induction_on with
  | _ n ih =>
    intro m h
    by_cases hm : m < 10
    · rw [decText_small m hm]
      exact List.length_pos_of_ne_nil (dec_chars n).1
    · rw [decText_large m (by omega), decText_large n (by omega), List.length_append, List.length_append]
      have := ih (n / 10) (by omega) (m / 10) (by omega)
      simpa using this

theorem int_mono (n : ℕ) (i : Int) (h0 : 0 ≤ i) (h : i < n) : (intText i).length ≤ (intText n).length := by
  unfold intText
  rw [if_neg (by omega), if_neg (by omega)]
  exact dec_mono _ _ (by omega)

/-- The values start in the same column when the indices are in range. -/
theorem line_aligned (num : Fmt → F → Str) (f : Fmt) (rows cols : ℕ) (e : Int × Int × F) (h1 : 0 ≤ e.1 ∧ e.1 < rows) (h2 : 0 ≤ e.2.1 ∧ e.2.1 < cols) :
    (lineOf num f (numDigits rows) (numDigits cols) e).drop ((intText rows).length + (intText cols).length + 2) = num f e.2.2 := by
  have a := int_mono rows e.1 h1.1 h1.2
  have b := int_mono cols e.2.1 h2.1 h2.2
  rw [numDigits_eq, numDigits_eq]
  unfold lineOf
  have : List.replicate ((intText rows).length - (intText e.1).length) ' ' ++ (intText e.1 ++ ' ' ::
      (List.replicate ((intText cols).length - (intText e.2.1).length) ' ' ++ (intText e.2.1 ++ ' ' :: num f e.2.2))) =
      (List.replicate ((intText rows).length - (intText e.1).length) ' ' ++ intText e.1 ++ [' '] ++
        List.replicate ((intText cols).length - (intText e.2.1).length) ' ' ++ intText e.2.1 ++ [' ']) ++ num f e.2.2 := by simp
  rw [this]
  apply List.drop_left'
  simp only [List.length_append, List.length_replicate, List.length_singleton]
  omega

theorem loop_text {β : Type} (g : Strm → β → Out Strm) (l : Fmt → β → Str) (xs : List β)
    (h : ∀ s, ∀ x ∈ xs, g s x = .ok { s with text := s.text ++ l s.fmt x }) :
    ∀ s : Strm, loopM g s xs = .ok { s with text := s.text ++ xs.flatMap (l s.fmt) } := by
  induction xs with
  | nil => intro s; simp
  | cons x xs ih =>
    intro s
    rw [loopM_cons, h s x List.mem_cons_self, Out.bind_ok, ih fun s y hy => h s y (List.mem_cons_of_mem _ hy)]
    simp

/-! ### C147 -/

/-- What was appended to a stream. -/
def Appended (s : Strm) (t : Str) (r : Out Strm) : Prop := r = .ok { s with text := s.text ++ t }

theorem triplet_text (num : Fmt → F → Str) (s : Strm) (t : Triplet F) (es : List (Int × Int × F)) (h : Holds t es) :
    Appended s (textOf num s.fmt t.rows t.cols es.length es) (printTriplet num s t) := by
  unfold Appended printTriplet
  simp only
  rw [loop_text _ (fun f k => if hk : k < es.length then lineOf num f (numDigits t.rows) (numDigits t.cols) es[k] ++ ['\n'] else [])]
  · rw [header_eq, h.nnz]
    unfold textOf
    simp only [List.append_assoc]
    congr 4
    simp only [List.flatMap_def, List.map_map]
    congr 2
    apply List.ext_getElem
    · simp
    · intro k hk hk'
      simp only [List.length_map] at hk'
      simp [hk']
  · intro s k hk
    have hk : k < es.length := by rw [← h.nnz]; exact List.mem_range.1 hk
    have he := h.entries k hk
    rw [Sparse.entry_ok] at he
    rw [rd_eq_ok.2 he.1, rd_eq_ok.2 he.2.1, rd_eq_ok.2 he.2.2]
    simp only [Out.bind_ok, dif_pos hk, putEntry_eq]
    rfl

/-- **C147.** A triplet matrix with any history of calls behind it can be printed to any stream.  What is appended reads back as its size, its number of entries, and its
entries in the order of the calls, each value as the stream writes it; the stream's settings stay. If the indices are in range, the values of all lines start in the same column. -/
theorem C147_triplet {num : Fmt → F → Str} (hn : Plain num) (zero : F) (rows cols nzmax : ℕ) (ops : List (Sparse.Op F)) (t : Triplet F) (thrown : List Bool)
    (hr : Sparse.run zero (Sparse.mk0 zero rows cols nzmax) ops = some (t, thrown)) (s : Strm) :
    ∃ body, printTriplet num s t = .ok ⟨s.fmt, s.text ++ body⟩ ∧
      readMatrix body = some ((t.rows, t.cols, (Sparse.inserted (ops.zip thrown) []).length),
        (Sparse.inserted (ops.zip thrown) []).map fun e => (e.1, e.2.1, num s.fmt e.2.2)) ∧
      ((∀ e ∈ Sparse.inserted (ops.zip thrown) [], (0 ≤ e.1 ∧ e.1 < t.rows) ∧ 0 ≤ e.2.1 ∧ e.2.1 < t.cols) →
        ∃ start, ((linesOf body).drop 2).map (·.drop start) = (Sparse.inserted (ops.zip thrown) []).map fun e => num s.fmt e.2.2) := by
  obtain ⟨t1, bs, e, -, h⟩ := Sparse.run_holds zero ops _ _ (Sparse.holds_mk0 zero rows cols nzmax)
  rw [hr] at e
  obtain ⟨rfl, rfl⟩ : t = t1 ∧ thrown = bs := by simpa using e
  refine ⟨_, triplet_text num s t _ h, read_text hn _ _ _ _ _, fun hin => ⟨(intText t.rows).length + (intText t.cols).length + 2, ?_⟩⟩
  rw [lines_text hn, List.drop_succ_cons, List.drop_succ_cons, List.drop_zero, List.map_map]
  exact List.map_congr_left fun e he => line_aligned num _ _ _ e (hin e he).1 (hin e he).2

/-- The entries of a list of columns, with the column numbers, starting at column `j`. -/
def listed {α : Type} : ℕ → List (List (ℕ × α)) → List (Int × Int × α)
  | _, [] => []
  | j, col :: cols => (col.map fun e => ((e.1 : Int), (j : Int), e.2)) ++ listed (j + 1) cols

theorem listed_range {α : Type} (cols : List (List (ℕ × α))) : ∀ j0, listed j0 cols =
    (List.range cols.length).flatMap fun j => (cols.getD j []).map fun e => ((e.1 : Int), ((j0 + j : ℕ) : Int), e.2) := by
  induction cols with
  | nil => intro j0; rfl
  | cons col cols ih =>
    intro j0
    rw [listed, ih, List.length_cons, List.range_succ_eq_map, List.flatMap_cons, List.flatMap_map]
    simp [Nat.add_assoc, Nat.add_comm 1]

theorem cell_ok {β : Type} {l : List (Option β)} {k : ℕ} {b : β} (h : l[k]? = some (some b)) : cell l k = .ok b := by
  unfold cell; rw [h]

theorem sum_succ (l : List ℕ) (j : ℕ) (h : j < l.length) : (l.take (j + 1)).sum = (l.take j).sum + l[j] := by
  rw [List.take_add_one, List.sum_append, List.getElem?_eq_getElem h]
  simp

theorem flat_getElem? {α : Type} (cols : List (List α)) (j i : ℕ) (hj : j < cols.length) (hi : i < cols[j].length) :
    cols.flatten[((cols.map List.length).take j).sum + i]? = some cols[j][i] := by
  induction cols generalizing j with
  | nil => simp at hj
  | cons c cs ih =>
    cases j with
    | zero => simp at hi ⊢; rw [List.getElem?_append_left hi, List.getElem?_eq_getElem hi]
    | succ j =>
      simp only [List.map_cons, List.take_succ_cons, List.sum_cons, List.flatten_cons, List.getElem_cons_succ] at hi ⊢
      rw [List.getElem?_append_right (by omega)]
      have : c.length + (((cs.map List.length).take j)).sum + i - c.length = ((cs.map List.length).take j).sum + i := by omega
      rw [this]
      exact ih j (by simpa using hj) hi

theorem flatMap_at {α β : Type} (l : List α) (g : α → List β) (k : ℕ → List β) (h : ∀ i (hi : i < l.length), k i = g l[i]) :
    (List.range l.length).flatMap k = l.flatMap g := by
  simp only [List.flatMap_def]
  congr 1
  apply List.ext_getElem
  · simp
  · intro i h1 h2
    simp only [List.length_map] at h2
    simp [h i h2]

theorem csc_text (num : Fmt → F → Str) (s : Strm) (c : Csc F) (cols : List (List (ℕ × F))) (h : WF c cols) :
    Appended s (textOf num s.fmt c.m c.n c.nnz (listed 0 cols)) (printCsc num s c) := by
  unfold Appended printCsc
  simp only
  rw [loop_text _ (fun f j => (cols.getD j []).flatMap fun e => lineOf num f (numDigits c.m) (numDigits c.n) ((e.1 : Int), (j : Int), e.2) ++ ['\n'])]
  · rw [header_eq]
    unfold textOf
    simp only [List.append_assoc]
    congr 4
    rw [listed_range, h.ncols]
    simp only [List.flatMap_map, List.map_flatMap, List.flatMap_assoc, Nat.zero_add, List.map_map, Function.comp_def]
  · intro s j hj
    have hj : j < cols.length := by rw [h.ncols]; exact List.mem_range.1 hj
    rw [cell_ok (h.ptr j (by rw [← h.ncols]; omega)), cell_ok (h.ptr (j + 1) (by rw [← h.ncols]; omega)), Out.bind_ok, Out.bind_ok,
      sum_succ _ j (by simpa using hj), List.getElem_map, Nat.add_sub_cancel_left, List.range'_eq_map_range]
    have hc (i : ℕ) (hi : i < cols[j].length) : c.ix[((cols.map List.length).take j).sum + i]? = some (some cols[j][i]) := by
      have h1 := flat_getElem? cols j i hj hi
      have h2 := (List.getElem?_eq_some_iff.1 h1).1
      rw [h.ix_eq, List.getElem?_append_left (by rw [List.length_map]; exact h2), List.getElem?_map, h1]
      rfl
    rw [loop_text _ (fun f k => match c.ix[k]? with
      | some (some e) => lineOf num f (numDigits c.m) (numDigits c.n) ((e.1 : Int), (j : Int), e.2) ++ ['\n']
      | _ => [])]
    · congr 3
      rw [List.flatMap_map, List.getD_eq_getElem _ _ hj]
      exact flatMap_at _ _ _ fun i hi => by rw [hc i hi]
    · intro s k hk
      obtain ⟨i, hi, rfl⟩ := List.mem_map.1 hk
      rw [cell_ok (hc i (List.mem_range.1 hi)), Out.bind_ok, hc i (List.mem_range.1 hi), putEntry_eq]
      rfl

/-- **C147.** A compressed matrix that is well formed can be printed to any stream.  What is appended reads back as its size and all its entries, column by column. -/
theorem C147_csc {num : Fmt → F → Str} (hn : Plain num) (c : Csc F) (cols : List (List (ℕ × F))) (h : WF c cols) (s : Strm) :
    ∃ body, printCsc num s c = .ok ⟨s.fmt, s.text ++ body⟩ ∧
      readMatrix body = some ((c.m, c.n, c.nnz), (listed 0 cols).map fun e => (e.1, e.2.1, num s.fmt e.2.2)) ∧
      ∃ start, ((linesOf body).drop 2).map (·.drop start) = (listed 0 cols).map fun e => num s.fmt e.2.2 := by
  refine ⟨_, csc_text num s c cols h, read_text hn _ _ _ _ _, (intText c.m).length + (intText c.n).length + 2, ?_⟩
  rw [lines_text hn, List.drop_succ_cons, List.drop_succ_cons, List.drop_zero, List.map_map]
  refine List.map_congr_left fun e he => ?_
  rw [listed_range] at he
  obtain ⟨j, hj, he⟩ := List.mem_flatMap.1 he
  obtain ⟨e', he', rfl⟩ := List.mem_map.1 he
  have hj := List.mem_range.1 hj
  rw [List.getD_eq_getElem _ _ hj] at he'
  have hr := h.rows _ (List.getElem_mem hj) e' he'
  have hcn := h.ncols
  exact line_aligned num _ _ _ _ ⟨by simp, by simpa using hr⟩ ⟨by simp, by simp; omega⟩

/-- **C147, refutation.** The number of entries in the first line need not be the number of lines below it: a 3 by 3 matrix without entries is announced with one. -/
theorem C147_csc_count {num : Fmt → ℤ → Str} (hn : Plain num) : ∃ c, Sparse.cscOfTriplet (Sparse.mk0 (0 : ℤ) 3 3 0) = .ok c ∧
    ∀ s, ∃ body, printCsc num s c = .ok ⟨s.fmt, s.text ++ body⟩ ∧ readMatrix body = some ((3, 3, 1), []) := by
  have hw : WF (⟨3, 3, [some 0, some 0, some 0, some 0], [none]⟩ : Csc ℤ) [[], [], []] := by
    refine ⟨rfl, rfl, fun j hj => ?_, rfl, by simp⟩
    simp only at hj
    interval_cases j <;> rfl
  refine ⟨_, (by decide +kernel : _ = Out.ok (⟨3, 3, [some 0, some 0, some 0, some 0], [none]⟩ : Csc ℤ)), fun s => ?_⟩
  obtain ⟨body, h1, h2, -⟩ := C147_csc hn _ _ hw s
  exact ⟨body, h1, h2⟩

theorem flagText_injective (f g : Gmres.Flag) (h : flagText f = flagText g) : f = g := by
  revert h
  cases f <;> cases g <;> decide +kernel

theorem flagText_plain (f : Gmres.Flag) : '\n' ∉ flagText f := by cases f <;> decide +kernel

theorem intText_injective (i j : Int) (h : intText i = intText j) : i = j := by
  have := congrArg intOf h
  rw [intOf_int, intOf_int] at this
  exact Option.some.inj this

/-- **C147.** The lines of a printed report: the outcome in words, a line about the message if there is one, the numbers of outer and inner iterations, the relative residual in scientific
notation with three digits.  The stream keeps that notation afterwards. -/
theorem C147_report {num : Fmt → F → Str} (hn : Plain num) (s : Strm) (o : Gmres.GOut F) :
    ∃ body, printReport num s o = ⟨⟨true, 2⟩, s.text ++ body⟩ ∧
      linesOf body = ["outcome: ".toList ++ flagText o.flag] ++ (if o.msg = "" then [] else ["info: 0".toList]) ++
        ["outer iter: ".toList ++ intText o.outerIts, "inner iter: ".toList ++ intText o.innerIts, "relative residual: ".toList ++ num ⟨true, 2⟩ o.relres] := by
  have h1 := flagText_plain o.flag
  have h2 := int_no o.outerIts '\n' (by decide)
  have h3 := int_no o.innerIts '\n' (by decide)
  have h4 := (hn ⟨true, 2⟩ o.relres).2.2
  have hb : printReport num s o = ⟨⟨true, 2⟩, s.text ++ (["outcome: ".toList ++ flagText o.flag] ++ (if o.msg = "" then [] else ["info: 0".toList]) ++
      ["outer iter: ".toList ++ intText o.outerIts, "inner iter: ".toList ++ intText o.innerIts,
        "relative residual: ".toList ++ num ⟨true, 2⟩ o.relres]).flatMap fun l => l ++ ['\n']⟩ := by
    by_cases hm : o.msg = ""
    · have : o.msg.isEmpty = true := by rw [hm]; rfl
      simp [printReport, Strm.put, hm]
    · have : o.msg.isEmpty = false := by
        rw [Bool.eq_false_iff]
        exact fun e => hm (String.isEmpty_iff.1 e)
      simp [printReport, Strm.put, hm, this, boolText]
  refine ⟨_, hb, linesOf_joined _ fun l hl => ?_⟩
  rcases List.mem_append.1 hl with hl | hl
  · rcases List.mem_append.1 hl with hl | hl
    · rw [List.mem_singleton.1 hl, List.mem_append, not_or]
      exact ⟨by decide, h1⟩
    · split_ifs at hl
      · cases hl
      · rw [List.mem_singleton.1 hl]; decide
  · simp only [List.mem_cons, List.not_mem_nil, or_false] at hl
    rcases hl with rfl | rfl | rfl <;> rw [List.mem_append, not_or]
    · exact ⟨by decide, h2⟩
    · exact ⟨by decide, h3⟩
    · exact ⟨by decide, h4⟩

/-- **C147.** A printed report determines the outcome, both numbers of iterations, the residual as it is written, and whether there is a message. -/
theorem C147_report_tells {num : Fmt → F → Str} (hn : Plain num) (s : Strm) (o o' : Gmres.GOut F) (h : printReport num s o = printReport num s o') :
    o.flag = o'.flag ∧ o.outerIts = o'.outerIts ∧ o.innerIts = o'.innerIts ∧ num ⟨true, 2⟩ o.relres = num ⟨true, 2⟩ o'.relres ∧ (o.msg = "" ↔ o'.msg = "") := by
  obtain ⟨b, h1, h2⟩ := C147_report hn s o
  obtain ⟨b', h1', h2'⟩ := C147_report hn s o'
  have hb : b = b' := by
    rw [h1, h1', Strm.mk.injEq] at h
    exact List.append_cancel_left h.2
  rw [← hb, h2] at h2'
  clear h1 h1' h2 hb h
  have fin (x y z x' y' z' : Str) (h : [x, y, z] = [x', y', z']) : x = x' ∧ y = y' ∧ z = z' := by simpa using h
  by_cases hm : o.msg = "" <;> by_cases hm' : o'.msg = ""
  · rw [if_pos hm, if_pos hm'] at h2'
    obtain ⟨e1, e2⟩ := List.append_inj h2' rfl
    obtain ⟨e3, e4, e5⟩ := fin _ _ _ _ _ _ e2
    have e1 : "outcome: ".toList ++ flagText o.flag = "outcome: ".toList ++ flagText o'.flag := by simpa using e1
    refine ⟨flagText_injective _ _ (List.append_cancel_left e1), ?_, ?_, List.append_cancel_left e5, by simp [hm, hm']⟩
    · exact_mod_cast intText_injective _ _ (List.append_cancel_left e3)
    · exact_mod_cast intText_injective _ _ (List.append_cancel_left e4)
  · have := congrArg List.length h2'; simp [hm, hm'] at this
  · have := congrArg List.length h2'; simp [hm, hm'] at this
  · rw [if_neg hm, if_neg hm'] at h2'
    obtain ⟨e1, e2⟩ := List.append_inj h2' rfl
    obtain ⟨e3, e4, e5⟩ := fin _ _ _ _ _ _ e2
    have e1 : "outcome: ".toList ++ flagText o.flag = "outcome: ".toList ++ flagText o'.flag := by simpa using (List.append_inj e1 rfl).1
    refine ⟨flagText_injective _ _ (List.append_cancel_left e1), ?_, ?_, List.append_cancel_left e5, by simp [hm, hm']⟩
    · exact_mod_cast intText_injective _ _ (List.append_cancel_left e3)
    · exact_mod_cast intText_injective _ _ (List.append_cancel_left e4)

/-- **C147, refutation.** The message of a report is not printed: whatever it says, the text is the same, so no reader can recover it. -/
theorem C147_message_lost {num : Fmt → F → Str} (s : Strm) (o : Gmres.GOut F) :
    (∀ m m' : String, m ≠ "" → m' ≠ "" → printReport num s { o with msg := m } = printReport num s { o with msg := m' }) ∧
      ¬ ∃ read : Str → String, ∀ m, read (printReport num s { o with msg := m }).text = m := by
  have h (m m' : String) (hm : m ≠ "") (hm' : m' ≠ "") : printReport num s { o with msg := m } = printReport num s { o with msg := m' } := by
    have e (x : String) (hx : x ≠ "") : x.isEmpty = false := by
      rw [Bool.eq_false_iff]
      exact fun e => hx (String.isEmpty_iff.1 e)
    simp [printReport, e m hm, e m' hm']
  refine ⟨h, ?_⟩
  rintro ⟨read, hr⟩
  have h1 := hr "matvec failed when computing initial residual"
  rw [h _ "matvec failed when updating residual" (by decide) (by decide), hr] at h1
  exact absurd h1 (by decide)

/-- **C147, refutation.** Printing a report changes how the stream writes every real number after it: to two digits after the point, whatever was set before.  So the two-dimensional Poisson
program prints its largest value with three digits. -/
theorem C147_settings (num : Fmt → F → Str) (s : Strm) (K : ℕ) (o : Gmres.GOut F) (largest : F) :
    (printReport num s o).fmt = ⟨true, 2⟩ ∧
      ∃ front, poissonLines num s K o largest = ⟨⟨true, 2⟩, front ++ "normMax u is: ".toList ++ num ⟨true, 2⟩ largest ++ "\n".toList⟩ := by
  have h (s : Strm) : (printReport num s o).fmt = ⟨true, 2⟩ := rfl
  refine ⟨h s, ((printReport num ((((s.put "K: ".toList).put (intText K)).put "\n".toList).put "result is ".toList) o).put "\n".toList).text, ?_⟩
  unfold poissonLines
  simp only [Strm.put, h]

/-! ### The tables of a mesh -/

theorem array_text {β : Type} {txt : Fmt → β → Str} (s : Strm) (arr : List β) (m n : ℕ) (h : arr.length = m * n) :
    Appended s ((List.range m).flatMap fun i => ((List.range n).flatMap fun j => (match arr[i * n + j]? with | some x => txt s.fmt x | none => []) ++ [' ']) ++ ['\n'])
      (printArray txt s arr m n) := by
  unfold Appended printArray
  rw [loop_text _ (fun f i => ((List.range n).flatMap fun j => (match arr[i * n + j]? with | some x => txt f x | none => []) ++ [' ']) ++ ['\n'])]
  intro s i hi
  have hi := List.mem_range.1 hi
  rw [loop_text _ (fun f j => (match arr[i * n + j]? with | some x => txt f x | none => []) ++ [' '])]
  · rw [Out.bind_ok]
    simp [Strm.put]
  · intro s j hj
    have hj := List.mem_range.1 hj
    have hlt : i * n + j < arr.length := by
      rw [h]
      calc i * n + j < i * n + n := by omega
        _ = (i + 1) * n := by ring
        _ ≤ m * n := Nat.mul_le_mul_right n hi
    rw [rd_of_lt hlt, Out.bind_ok, List.getElem?_eq_getElem hlt]
    simp [Strm.put]

theorem words_row (ws : List Str) (h : ∀ w ∈ ws, w ≠ [] ∧ ' ' ∉ w) : words (ws.flatMap fun w => w ++ [' ']) = ws := by
  induction ws with
  | nil => exact words_nil
  | cons w ws ih =>
    rw [List.flatMap_cons, List.append_assoc, List.singleton_append, words_word _ _ (h w List.mem_cons_self).2 (h w List.mem_cons_self).1,
      ih fun w hw => h w (List.mem_cons_of_mem _ hw)]

/-- The table printed by `r` to the stream `s`: `m` lines of `n` words, and the word in line `i` at place `j` is the entry `i * n + j` of the table as the stream writes it. -/
def Tabulated {β : Type} (txt : Fmt → β → Str) (s : Strm) (r : Out Strm) (l : List β) (m n : ℕ) : Prop :=
  ∃ body, r = .ok ⟨s.fmt, s.text ++ body⟩ ∧ (linesOf body).length = m ∧ ∀ i < m, ((linesOf body).map words)[i]? = some ((List.range n).filterMap fun j => (l[i * n + j]?).map (txt s.fmt)) ∧
    (((linesOf body).map words).getD i []).length = n

theorem array_table {β : Type} {txt : Fmt → β → Str} (ht : Plain txt) (s : Strm) (arr : List β) (m n : ℕ) (h : arr.length = m * n) :
    Tabulated txt s (printArray txt s arr m n) arr m n := by
  refine ⟨_, array_text s arr m n h, ?_⟩
  have hlt (i j : ℕ) (hi : i < m) (hj : j < n) : i * n + j < arr.length := by
    rw [h]
    calc i * n + j < i * n + n := by omega
      _ = (i + 1) * n := by ring
      _ ≤ m * n := Nat.mul_le_mul_right n hi
  have hrow (i : ℕ) (hi : i < m) : ((List.range n).flatMap fun j => (match arr[i * n + j]? with | some x => txt s.fmt x | none => []) ++ [' ']) =
      ((List.range n).filterMap fun j => (arr[i * n + j]?).map (txt s.fmt)).flatMap fun w => w ++ [' '] := by
    have : ∀ js : List ℕ, (∀ j ∈ js, j < n) → (js.flatMap fun j => (match arr[i * n + j]? with | some x => txt s.fmt x | none => []) ++ [' ']) =
        (js.filterMap fun j => (arr[i * n + j]?).map (txt s.fmt)).flatMap fun w => w ++ [' '] := by
      intro js
      induction js with
      | nil => intro _; rfl
      | cons j js ih =>
        intro hjs
        rw [List.flatMap_cons, ih fun j hj => hjs j (List.mem_cons_of_mem _ hj), List.getElem?_eq_getElem (hlt i j hi (hjs j List.mem_cons_self)),
          List.filterMap_cons_some (b := txt s.fmt (arr[i * n + j]'(hlt i j hi (hjs j List.mem_cons_self)))) (by
            rw [List.getElem?_eq_getElem (hlt i j hi (hjs j List.mem_cons_self))]; rfl), List.flatMap_cons]
    exact this _ fun j hj => List.mem_range.1 hj
  have hlines : linesOf ((List.range m).flatMap fun i => ((List.range n).flatMap fun j => (match arr[i * n + j]? with | some x => txt s.fmt x | none => []) ++ [' ']) ++ ['\n']) =
      (List.range m).map fun i => ((List.range n).filterMap fun j => (arr[i * n + j]?).map (txt s.fmt)).flatMap fun w => w ++ [' '] := by
    have e : ((List.range m).flatMap fun i => ((List.range n).flatMap fun j => (match arr[i * n + j]? with | some x => txt s.fmt x | none => []) ++ [' ']) ++ ['\n']) =
        ((List.range m).map fun i => ((List.range n).filterMap fun j => (arr[i * n + j]?).map (txt s.fmt)).flatMap fun w => w ++ [' ']).flatMap fun l => l ++ ['\n'] := by
      rw [List.flatMap_map]
      simp only [List.flatMap_def]
      congr 1
      exact List.map_congr_left fun i hi => by rw [← List.flatMap_def, ← List.flatMap_def, hrow i (List.mem_range.1 hi)]
    rw [e, linesOf_joined]
    intro l hl
    obtain ⟨i, -, rfl⟩ := List.mem_map.1 hl
    intro hc
    obtain ⟨w, hw, hc⟩ := List.mem_flatMap.1 hc
    obtain ⟨j, -, hj⟩ := List.mem_filterMap.1 hw
    obtain ⟨x, -, rfl⟩ := Option.map_eq_some_iff.1 hj
    rcases List.mem_append.1 hc with hc | hc
    · exact (ht _ _).2.2 hc
    · exact absurd hc (by decide)
  rw [hlines]
  refine ⟨by simp, fun i hi => ?_⟩
  have hw : words (((List.range n).filterMap fun j => (arr[i * n + j]?).map (txt s.fmt)).flatMap fun w => w ++ [' ']) =
      (List.range n).filterMap fun j => (arr[i * n + j]?).map (txt s.fmt) := by
    apply words_row
    intro w hw
    obtain ⟨j, -, hj⟩ := List.mem_filterMap.1 hw
    obtain ⟨x, -, rfl⟩ := Option.map_eq_some_iff.1 hj
    exact ⟨(ht _ _).1, (ht _ _).2.1⟩
  have hg : (((List.range m).map fun i => ((List.range n).filterMap fun j => (arr[i * n + j]?).map (txt s.fmt)).flatMap fun w => w ++ [' ']).map words)[i]? =
      some ((List.range n).filterMap fun j => (arr[i * n + j]?).map (txt s.fmt)) := by
    rw [List.map_map, List.getElem?_map, List.getElem?_range hi]
    simp only [Option.map_some, Function.comp_def, hw]
  refine ⟨hg, ?_⟩
  rw [List.getD_eq_getElem?_getD, hg, Option.getD_some]
  have : ∀ js : List ℕ, (∀ j ∈ js, j < n) → (js.filterMap fun j => (arr[i * n + j]?).map (txt s.fmt)).length = js.length := by
    intro js
    induction js with
    | nil => intro _; rfl
    | cons j js ih =>
      intro hjs
      rw [List.filterMap_cons_some (b := txt s.fmt (arr[i * n + j]'(hlt i j hi (hjs j List.mem_cons_self)))) (by
            rw [List.getElem?_eq_getElem (hlt i j hi (hjs j List.mem_cons_self))]; rfl), List.length_cons, List.length_cons,
        ih fun j hj => hjs j (List.mem_cons_of_mem _ hj)]
  rw [this _ fun j hj => List.mem_range.1 hj, List.length_range]

/-- **C147.** After any history of calls in which no table was rejected, printing the vertices prints a line with the coordinates for every vertex, and printing the elements a line with the vertex
numbers for every element. -/
theorem C147_mesh_partial {R : Type} [Sub R] [Mul R] [Zero R] [LT R] [DecidableLT R] {num : Fmt → R → Str} (hn : Plain num) (cv : Mesh.Conv R) (wrap : Bool) (metis : Mesh.Metis) (calls : List (Mesh.Call R)) (m : Mesh.Manager R)
    (threw : List Bool) (h : Mesh.history cv wrap metis Mesh.Manager.new calls = some (m, threw)) (ht : ∀ p ∈ calls.zip threw, p.1.Table → p.2 = false) (s : Strm) :
    (∀ v, m.vert = some v → Tabulated num s (printVertices num s m) v m.nv m.dim) ∧
      ∀ e, m.e2v = some e → Tabulated (fun _ => intText) s (printElements s m) e m.k m.nf := by
  obtain ⟨f1, f2, -⟩ := Mesh.history_fits cv wrap metis calls Mesh.Manager.new m threw Mesh.new_fits h ht
  refine ⟨fun v hv => ?_, fun e he => ?_⟩
  · unfold printVertices
    rw [hv]
    exact array_table hn s v _ _ (f1 v hv)
  · unfold printElements
    rw [he]
    exact array_table (fun _ i => ⟨(int_chars i).1, int_no i _ (by decide), int_no i _ (by decide)⟩) s e _ _ (f2 e he)

/-- **C147, refutation.** After a rejected table of vertices the size belongs to one file and the entries to another: here one vertex of three is printed. -/
theorem C147_mesh_rejected : ∃ m, Mesh.history Mesh.exConv false Mesh.exMetis Mesh.Manager.new [.readVertices (some "0 0\n1 0\n0 1\n".toList),
      .readVertices (some "0 0\n1\n0 1\n".toList)] = some (m, [false, true]) ∧ m.vert = some [0, 0, 1, 0, 0, 1] ∧
    printVertices (fun _ (q : ℚ) => intText q.num) ⟨.initial, []⟩ m = .ok ⟨.initial, "0 0 \n".toList⟩ :=
  ⟨{ dim := 2, nv := 1, nf := 0, k := 0, vert := some [0, 0, 1, 0, 0, 1], e2v := none, tabs := none, epart := none, vpart := none }, by decide +kernel, rfl, by decide +kernel⟩

/-! ### Concrete cases -/

/-- Integers as values. -/
theorem plain_int : Plain fun _ => intText := fun _ i => ⟨(int_chars i).1, int_no i _ (by decide), int_no i _ (by decide)⟩

/-- A history of `C147_triplet`: three entries are inserted in a 12 by 3 matrix. -/
example : (Sparse.run (0 : ℤ) (Sparse.mk0 0 12 3 0) [.insert 11 2 7, .insert 0 1 (-5), .insert 0 1 8]).bind (fun r => match printTriplet (fun _ => intText) ⟨.initial, []⟩ r.1 with
    | .ok s => some s.text | _ => none) = some "rows = 12, cols = 3, nnz = 3\n\n11 2 7\n 0 1 -5\n 0 1 8\n".toList := by decide +kernel

/-- A matrix of `C147_csc`. -/
example : WF (⟨2, 2, [some 0, some 2, some 3], [some (1, 4), some (0, 5), some (0, 6), none]⟩ : Csc ℤ) [[(1, 4), (0, 5)], [(0, 6)]] := by
  refine ⟨rfl, rfl, fun j hj => ?_, rfl, by decide⟩
  simp only at hj
  interval_cases j <;> rfl

/-- A mesh of `C147_mesh_partial`: the calls of C136. -/
example : ∃ m, Mesh.history Mesh.exConv false Mesh.exMetis Mesh.Manager.new [.readMesh 77 (some Mesh.exText)] = some (m, [false]) ∧
    printElements ⟨.initial, []⟩ m = .ok ⟨.initial, "0 1 2 \n0 2 3 \n".toList⟩ :=
  ⟨{ dim := 3, nv := 4, nf := 3, k := 2, vert := some [0, 0, 0, 1, 0, 0, 1, 1, 0, 0, 1, 0], e2v := some [0, 1, 2, 0, 2, 3],
     tabs := some ([0, 0, 1, 0, 1, 1], [0, 1, 0, 2, 1, 2], [3, 3, 0, 0, 3, 3]), epart := none, vpart := none }, by decide +kernel, by decide +kernel⟩

/-- A report with a message. -/
example : printReport (fun _ => intText) ⟨.initial, []⟩ (⟨.matvecFail, 3, 1, 2, "matvec failed when updating residual"⟩ : Gmres.GOut ℤ) =
    ⟨⟨true, 2⟩, "outcome: matrix-vector product failed\ninfo: 0\nouter iter: 1\ninner iter: 3\nrelative residual: 2\n".toList⟩ := by decide +kernel

end Blitzdg.Print
