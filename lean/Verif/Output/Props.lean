import Verif.Output.Model
import Mathlib.Data.List.Lex
import Mathlib.Tactic.IntervalCases
import Mathlib.Tactic.NormNum
import Mathlib.Tactic.Ring

/-! Properties C55 (file names) and C57 (path joining). -/

namespace Blitzdg.Output

/-! ### Decimal text -/

theorem digitChar_toNat (d : Nat) (h : d < 10) : (digitChar d).toNat = 48 + d := by
  interval_cases d <;> rfl

/-- The number that a digit string denotes. -/
def value (s : Str) : Nat := s.foldl (fun a c => 10 * a + (c.toNat - 48)) 0

theorem value_append_digit (s : Str) (d : Nat) (h : d < 10) : value (s ++ [digitChar d]) = 10 * value s + d := by
  simp [value, digitChar_toNat d h]

theorem decLoop_value (fuel : Nat) : ∀ n, n ≤ fuel → value (decLoop fuel n) = n := by
  induction fuel with
  | zero => intro n h; have : n = 0 := by omega
            subst this; rfl
  | succ f ih =>
    intro n h
    unfold decLoop
    split
    · rename_i h10
      have := value_append_digit [] n h10
      simpa [value] using this
    · rw [value_append_digit _ _ (Nat.mod_lt _ (by omega)), ih _ (by omega)]
      omega

theorem decText_value (n : Nat) : value (decText n) = n := decLoop_value n n (Nat.le_refl n)

theorem decLoop_fuel (f : Nat) : ∀ g n, n ≤ f → n ≤ g → decLoop f n = decLoop g n := by
  induction f with
  | zero =>
    intro g n h1 h2
    have : n = 0 := by omega
    subst this
    cases g with
    | zero => rfl
    | succ g => simp [decLoop]
  | succ f ih =>
    intro g n h1 h2
    cases g with
    | zero =>
      have : n = 0 := by omega
      subst this
      simp [decLoop]
    | succ g =>
      unfold decLoop
      split
      · rfl
      · rw [ih g (n / 10) (by omega) (by omega)]

theorem decText_small (n : Nat) (h : n < 10) : decText n = [digitChar n] := by
  unfold decText
  cases n with
  | zero => rfl
  | succ n => unfold decLoop; rw [if_pos h]

theorem decText_large (n : Nat) (h : 10 ≤ n) : decText n = decText (n / 10) ++ [digitChar (n % 10)] := by
  unfold decText
  cases n with
  | zero => omega
  | succ n =>
    conv => lhs; unfold decLoop
    rw [if_neg (by omega), decLoop_fuel n ((n + 1) / 10) ((n + 1) / 10) (by omega) (Nat.le_refl _)]

theorem digit_ne_minus (d : Nat) (h : d < 10) : digitChar d ≠ '-' := by
  interval_cases d <;> decide

theorem minus_notin (n : Nat) : '-' ∉ decText n := by
  induction n using Nat.strong_induction_on with
  | _ n ih =>
    by_cases h : n < 10
    · rw [decText_small n h]
      simpa using (digit_ne_minus n h).symm
    · rw [decText_large n (by omega)]
      have := ih (n / 10) (by omega)
      simp only [List.mem_append, List.mem_singleton, not_or]
      exact ⟨this, (digit_ne_minus _ (Nat.mod_lt _ (by omega))).symm⟩

theorem value_zeros (k : Nat) (s : Str) : value (List.replicate k '0' ++ s) = value s := by
  induction k with
  | zero => rfl
  | succ k ih => simpa [List.replicate_succ, value] using ih

/-- The number shown by a padded text, for the proof of injectivity. -/
def number (s : Str) : Int :=
  if '-' ∈ s then -(value ((s.dropWhile (· ≠ '-')).drop 1) : Int) else (value s : Int)

theorem number_pad (w : Nat) (n : Int) : number (padLeft w (intText n)) = n := by
  unfold padLeft intText
  by_cases h : n < 0
  · rw [if_pos h]
    have hd : ∀ k, (List.replicate k '0' ++ '-' :: decText n.natAbs).dropWhile (· ≠ '-') = '-' :: decText n.natAbs := by
      intro k
      induction k with
      | zero => simp
      | succ k ih => rw [List.replicate_succ, List.cons_append, List.dropWhile_cons, if_pos (by decide)]; exact ih
    unfold number
    rw [if_pos (by simp), hd]
    simp only [List.drop_succ_cons, List.drop_zero, decText_value]
    omega
  · rw [if_neg h]
    unfold number
    rw [if_neg, value_zeros, decText_value]
    · omega
    · have := minus_notin n.natAbs
      simp only [List.mem_append, not_or]
      refine ⟨?_, this⟩
      intro hm
      have := List.eq_of_mem_replicate hm
      exact absurd this (by decide)

/-- `w` decimal digits of `n`. -/
def digitsW : Nat → Nat → Str
  | 0, _ => []
  | w + 1, n => digitsW w (n / 10) ++ [digitChar (n % 10)]

theorem digitsW_length (w : Nat) : ∀ n, (digitsW w n).length = w := by
  induction w with
  | zero => intro n; rfl
  | succ w ih => intro n; simp [digitsW, ih]

theorem digitsW_zero (w : Nat) : digitsW w 0 = List.replicate w '0' := by
  induction w with
  | zero => rfl
  | succ w ih => rw [digitsW, Nat.zero_div, ih, List.replicate_succ']; rfl

theorem pad_digits (w : Nat) : ∀ n, n < 10 ^ (w + 1) → padLeft (w + 1) (decText n) = digitsW (w + 1) n := by
  induction w with
  | zero =>
    intro n h
    have h' : n < 10 := by simpa using h
    rw [decText_small n h']
    simp [padLeft, digitsW, Nat.mod_eq_of_lt h']
  | succ w ih =>
    intro n h
    rw [digitsW]
    by_cases h10 : n < 10
    · rw [decText_small n h10, Nat.div_eq_of_lt h10, digitsW_zero, Nat.mod_eq_of_lt h10]
      simp [padLeft]
    · rw [decText_large n (by omega), ← ih (n / 10) (by rw [Nat.div_lt_iff_lt_mul (by omega)]; rw [pow_succ] at h; exact h)]
      simp [padLeft]

theorem append_lt (p x y : Str) (h : x < y) : p ++ x < p ++ y := by
  induction p with
  | nil => exact h
  | cons c p ih => rw [List.cons_append, List.cons_append, List.cons_lt_cons_iff]; exact Or.inr ⟨rfl, ih⟩

theorem lt_append (x y u v : Str) (hl : x.length = y.length) (h : x < y) : x ++ u < y ++ v := by
  induction x generalizing y with
  | nil => cases y with
    | nil => exact absurd h (by simp)
    | cons => simp at hl
  | cons a x ih => cases y with
    | nil => simp at hl
    | cons b y =>
      rw [List.cons_append, List.cons_append, List.cons_lt_cons_iff]
      rw [List.cons_lt_cons_iff] at h
      rcases h with h | ⟨h1, h2⟩
      · exact Or.inl h
      · exact Or.inr ⟨h1, ih y (by simpa using hl) h2⟩

theorem digitChar_lt (a b : Nat) (h : a < b) (hb : b < 10) : digitChar a < digitChar b := by
  interval_cases b <;> interval_cases a <;> decide

theorem digitsW_lt (w : Nat) : ∀ a b, a < b → b < 10 ^ w → digitsW w a < digitsW w b := by
  induction w with
  | zero => intro a b h1 h2; simp at h2; omega
  | succ w ih =>
    intro a b h1 h2
    rw [digitsW, digitsW]
    by_cases h : a / 10 < b / 10
    · exact lt_append _ _ _ _ (by rw [digitsW_length, digitsW_length])
        (ih _ _ h (by rw [Nat.div_lt_iff_lt_mul (by omega)]; rw [pow_succ] at h2; exact h2))
    · have e : a / 10 = b / 10 := by omega
      rw [e]
      apply append_lt
      rw [List.cons_lt_cons_iff]
      exact Or.inl (digitChar_lt _ _ (by omega) (Nat.mod_lt _ (by omega)))

/-! ### C55 -/

/-- **C55 (one field).** For one field name, different numbers (of any size and sign) give different file names. -/
theorem C55_injective_number (ext f : Str) (m n : Int) (h : generateFileName ext f m = generateFileName ext f n) : m = n := by
  unfold generateFileName at h
  have h1 := List.append_cancel_left (List.append_cancel_right h)
  rw [← number_pad 7 m, h1, number_pad]

theorem pad7 (n : Int) (h0 : 0 ≤ n) (h : n < 10 ^ 7) : padLeft 7 (intText n) = digitsW 7 n.toNat := by
  unfold intText
  rw [if_neg (by omega)]
  have := pad_digits 6 n.natAbs (by omega)
  rw [this]; congr 1; omega

/-- **C55 (partial).** For file numbers from 0 to 9999999, different (field, number) pairs give different file names, and for one field the names sort
lexicographically like the numbers.  Missing: larger numbers, where both claims are false (`C55_collision`, `C55_unsorted`). -/
theorem C55_names_partial (ext : Str) (f g : Str) (m n : Int) (hm : 0 ≤ m) (hm' : m < 10 ^ 7) (hn : 0 ≤ n) (hn' : n < 10 ^ 7) :
    (generateFileName ext f m = generateFileName ext g n ↔ f = g ∧ m = n) ∧
    (generateFileName ext f m < generateFileName ext f n ↔ m < n) := by
  have key : ∀ a b : Int, 0 ≤ a → b < 10 ^ 7 → a < b → generateFileName ext f a < generateFileName ext f b := by
    intro a b h0 hb hab
    unfold generateFileName
    rw [pad7 a h0 (by omega), pad7 b (by omega) hb, List.append_assoc, List.append_assoc]
    apply append_lt
    apply lt_append
    · rw [digitsW_length, digitsW_length]
    · exact digitsW_lt 7 _ _ (by omega) (by omega)
  refine ⟨⟨?_, fun h => by rw [h.1, h.2]⟩, ?_, key m n hm hn'⟩
  · intro h
    have h' := h
    unfold generateFileName at h'
    rw [pad7 m hm hm', pad7 n hn hn'] at h'
    have h1 := List.append_cancel_right h'
    have h2 := List.append_inj_left' h1 (by rw [digitsW_length, digitsW_length])
    subst h2
    exact ⟨rfl, C55_injective_number ext f m n h⟩
  · intro h
    rcases lt_trichotomy m n with hlt | heq | hgt
    · exact hlt
    · subst heq; exact absurd h (List.lt_irrefl _)
    · exact absurd h (List.lt_asymm (key n m hn hm' hgt))

/-- **C55 refuted beyond seven digits.** Field "u" number 10000000 and field "u1" number 0 share a file name. -/
theorem C55_collision : generateFileName ".dat".toList "u".toList 10000000 = generateFileName ".dat".toList "u1".toList 0 := by
  have h : decText 10000000 = digitsW 8 10000000 := by
    have := pad_digits 7 10000000 (by norm_num)
    rw [← this]
    simp only [decText_large, decText_small, Nat.reduceDiv, Nat.reduceMod, Nat.reduceLeDiff, Nat.reduceLT]
    rfl
  unfold generateFileName intText
  rw [if_neg (by decide), if_neg (by decide), show (10000000 : Int).natAbs = 10000000 from rfl, h]
  decide

/-- **C55 refuted beyond seven digits.** Number 10000000 sorts before number 9999999. -/
theorem C55_unsorted : generateFileName ".dat".toList "u".toList 10000000 < generateFileName ".dat".toList "u".toList 9999999 := by
  have h : decText 10000000 = digitsW 8 10000000 := by
    have := pad_digits 7 10000000 (by norm_num)
    rw [← this]
    simp only [decText_large, decText_small, Nat.reduceDiv, Nat.reduceMod, Nat.reduceLeDiff, Nat.reduceLT]
    rfl
  unfold generateFileName
  rw [pad7 9999999 (by decide) (by decide)]
  unfold intText
  rw [if_neg (by decide), show (10000000 : Int).natAbs = 10000000 from rfl, h]
  decide

/-! ### C57 -/

/-- `s` without one trailing `d`, if it has one. -/
def stripEnd (d : Char) (s : Str) : Str := if s.getLast? = some d then s.dropLast else s

/-- `s` without one leading `d`, if it has one. -/
def stripStart (d : Char) (s : Str) : Str := if s.head? = some d then s.tail else s

/-- **C57 (partial).** For nonempty paths the result is the first without a trailing delimiter, one delimiter, and the second without a leading
delimiter.  Missing: empty arguments, which are undefined behaviour (`C57_empty_ub`). -/
theorem C57_join_partial (d : Char) (a b : Str) (ha : a ≠ []) (hb : b ≠ []) :
    joinPaths d a b = .ok (stripEnd d a ++ [d] ++ stripStart d b) := by
  obtain ⟨l, hl⟩ : ∃ l, a.getLast? = some l := ⟨_, List.getLast?_eq_some_getLast ha⟩
  obtain ⟨f, t, rfl⟩ := List.exists_cons_of_ne_nil hb
  have ha' : a = a.dropLast ++ [l] := by
    have := List.dropLast_append_getLast? l (by rw [hl]; rfl)
    exact this.symm
  unfold joinPaths stripEnd stripStart
  rw [hl]
  simp only [List.head?_cons, Option.some.injEq, List.tail_cons]
  by_cases h1 : l = d <;> by_cases h2 : f = d
  · simp [h1, h2]
  · subst h1
    simp only [h2, and_false, if_false, ne_eq, not_true_eq_false, false_and]
    conv => lhs; rw [ha']
    simp
  · simp [h1, h2]
  · simp [h1, h2]

/-- **C57 refuted for empty arguments.** `back()`/`front()` of an empty string is undefined. -/
theorem C57_empty_ub (d : Char) (a b : Str) (h : a = [] ∨ b = []) : joinPaths d a b = .ub := by
  unfold joinPaths
  rcases h with rfl | rfl
  · rfl
  · cases a.getLast? <;> rfl

example : joinPaths '/' "a/".toList "/b".toList = .ok "a/b".toList := by decide

end Blitzdg.Output
