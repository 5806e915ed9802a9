import Verif.Output.Path
import Verif.Output.Props

/-! Property C133 (the source tree is found from the path of the test program). -/

namespace Blitzdg.Output

/-! ### The executable's path -/

theorem copy_all (p : Str) (buf : List (Option Char)) (n : Nat) (hn : n ≤ p.length) (hb : ∀ i (h : i < p.length), buf[i]? = some (some p[i])) :
    loopM (copyByte buf) [] (List.range n) = .ok (p.take n) := by
  induction n with
  | zero => rfl
  | succ n ih =>
    rw [List.range_succ, loopM_append, ih (by omega), Out.bind_ok, loopM_cons]
    have h : copyByte buf (p.take n) n = .ok (p.take n ++ [p[n]]) := by
      unfold copyByte
      rw [rd_eq_ok.2 (hb n (by omega)), Out.bind_ok]
    rw [h, Out.bind_ok, loopM_nil, List.take_append_getElem]

/-- **C133.** The path that the operating system gives is kept, up to blanks at its end, when it has at most 1024 bytes. -/
theorem C133_exe (p : Str) (h : p.length ≤ 1024) : exePath (some p) = .ok (trimRight p) := by
  unfold exePath getExecutablePath
  simp only [if_pos h]
  rw [Int.toNat_natCast, copy_all p _ p.length (Nat.le_refl _), Out.bind_ok, List.take_length]
  intro i hi
  rw [List.getElem?_append_left (by simpa using hi), List.getElem?_map, List.getElem?_eq_getElem hi]
  rfl

/-- **C133 refuted for long paths.** The constructor reads bytes that were never written when the path has more than 1024 of them. -/
theorem C133_long (p : Str) (h : 1024 < p.length) : exePath (some p) = .ub := by
  unfold exePath getExecutablePath
  simp only [if_neg (Nat.not_le.2 h)]
  rw [Int.toNat_natCast]
  obtain ⟨n, hn⟩ : ∃ n, p.length = n + 1 := ⟨p.length - 1, by omega⟩
  rw [hn, List.range_succ_eq_map, loopM_cons]
  have : copyByte (List.replicate 1024 none) [] 0 = .ub := by
    unfold copyByte
    rw [rd_eq_ok.2 (show (List.replicate 1024 (none : Option Char))[0]? = some none by rw [List.getElem?_replicate]; rfl), Out.bind_ok]
  rw [this]
  rfl

theorem trimRight_keep (p : Str) (c : Char) (h : isBlank c = false) : trimRight (p ++ [c]) = p ++ [c] := by
  unfold trimRight
  rw [List.reverse_append, List.reverse_singleton, List.singleton_append, List.dropWhile_cons, if_neg (by simp [h]), List.reverse_cons, List.reverse_reverse]

/-- **C133, blanks.** A blank, tab, line feed, vertical tab, form feed or carriage return at the end of the path is dropped, any other character is kept. -/
theorem C133_blanks (p : Str) (c : Char) (h : p.length + 1 ≤ 1024) :
    (c ∈ [' ', '\t', '\n', '\x0b', '\x0c', '\r'] → exePath (some (p ++ [c])) = exePath (some p)) ∧
    (c ∉ [' ', '\t', '\n', '\x0b', '\x0c', '\r'] → exePath (some (p ++ [c])) = .ok (p ++ [c])) := by
  constructor
  · intro hc
    rw [C133_exe _ (by simpa using h), C133_exe _ (by omega)]
    have hb : isBlank c = true := by
      simp only [List.mem_cons, List.not_mem_nil, or_false] at hc
      rcases hc with rfl | rfl | rfl | rfl | rfl | rfl <;> decide
    unfold trimRight
    rw [List.reverse_append, List.reverse_singleton, List.singleton_append, List.dropWhile_cons, if_pos hb]
  · intro hc
    rw [C133_exe _ (by simpa using h)]
    rw [trimRight_keep]
    simp only [List.mem_cons, List.not_mem_nil, or_false, not_or] at hc
    simp [isBlank, hc]

/-! ### Erasing the last occurrence -/

theorem mem_occurrences {pat s : Str} {i : Nat} : i ∈ occurrences pat s ↔ i ≤ s.length ∧ pat <+: s.drop i := by
  unfold occurrences
  rw [List.mem_filter, List.mem_range, List.isPrefixOf_iff_prefix, Nat.lt_succ_iff]

theorem eraseLast_none {pat s : Str} (h : ¬ pat <:+: s) : eraseLast pat s = s := by
  unfold eraseLast
  have : occurrences pat s = [] := by
    rw [List.eq_nil_iff_forall_not_mem]
    intro i hi
    have := (mem_occurrences.1 hi).2
    exact h (this.isInfix.trans (List.drop_suffix i s).isInfix)
  rw [this]
  rfl

theorem eraseLast_end (a pat : Str) (h : pat ≠ []) : eraseLast pat (a ++ pat) = a := by
  have hlen : 0 < pat.length := List.length_pos_iff.2 h
  have key : (occurrences pat (a ++ pat)).getLast? = some a.length := by
    unfold occurrences
    have e : (a ++ pat).length + 1 = (a.length + 1) + pat.length := by rw [List.length_append]; omega
    rw [e, List.range_add, List.filter_append]
    have h2 : ((List.range pat.length).map (a.length + 1 + ·)).filter (fun i => pat.isPrefixOf ((a ++ pat).drop i)) = [] := by
      rw [List.filter_eq_nil_iff]
      intro i hi
      obtain ⟨j, hj, rfl⟩ := List.mem_map.1 hi
      rw [List.isPrefixOf_iff_prefix]
      intro hp
      have := hp.length_le
      rw [List.length_drop, List.length_append] at this
      omega
    rw [h2, List.append_nil, List.range_succ, List.filter_append, List.filter_singleton, List.drop_left]
    have h3 : pat.isPrefixOf pat = true := List.isPrefixOf_iff_prefix.2 (List.prefix_refl _)
    rw [h3]
    simp
  unfold eraseLast
  rw [key]
  simp

theorem not_infix_append {pat a b : Str} (h0 : pat ≠ []) (ha : ¬ pat <:+: a) (hb : ∀ c ∈ b.head?, c ∉ pat) (hp : ∀ c ∈ pat.head?, c ∉ b) : ¬ pat <:+: a ++ b := by
  intro h
  obtain ⟨s, t, e⟩ := h
  have hd : pat <+: (a ++ b).drop s.length := ⟨t, by rw [← e, List.append_assoc, List.drop_left]⟩
  by_cases hs : s.length ≤ a.length
  · rw [List.drop_append_of_le_length hs] at hd
    rcases List.prefix_or_prefix_of_prefix hd (List.prefix_append _ _) with h1 | ⟨u, hu⟩
    · exact ha (h1.isInfix.trans (List.drop_suffix _ _).isInfix)
    · cases u with
      | nil => exact ha (by rw [← hu, List.append_nil]; exact (List.drop_suffix _ _).isInfix)
      | cons c u =>
        rw [← hu] at hd
        have h2 := (List.prefix_append_right_inj _).1 hd
        obtain ⟨v, hv⟩ := h2
        refine hb c ?_ (by rw [← hu]; simp)
        rw [← hv]
        rfl
  · rw [List.drop_append, List.drop_eq_nil_of_le (by omega), List.nil_append] at hd
    cases hpat : pat with
    | nil => exact h0 hpat
    | cons c u =>
      rw [hpat] at hd
      exact hp c (by rw [hpat]; rfl) (List.mem_of_mem_drop (hd.subset (List.mem_cons_self ..)))

/-! ### The root -/

/-- **C133 (partial).** For a test program at `<root>/bin/test` the root is `<root>`, whatever `<root>`.  Missing: paths of more than 1024 bytes (`C133_long`), roots in
whose names ".exe" occurs (`C133_dot_exe`) and roots with a backslash (`C133_backslash`). -/
theorem C133_root_partial (root : Str) (hlen : root.length + 9 ≤ 1024) (hb : '\\' ∉ root) (he : ¬ ".exe".toList <:+: root) :
    resolveRoot (some (root ++ "/bin/test".toList)) = .ok root := by
  unfold resolveRoot
  rw [C133_exe _ (by rw [List.length_append]; exact hlen), Out.bind_ok]
  have h1 : root ++ "/bin/test".toList = (root ++ "/bin/tes".toList) ++ ['t'] := by rw [List.append_assoc]; rfl
  rw [h1, trimRight_keep _ _ (by decide), ← h1]
  unfold rootPath
  have hd : delimiter (root ++ "/bin/test".toList) = '/' := by
    unfold delimiter
    rw [if_neg]
    rw [List.mem_append, not_or]
    exact ⟨hb, by decide⟩
  simp only [hd]
  rw [eraseLast_none (not_infix_append (by decide) he (by decide) (by decide))]
  exact congrArg Out.ok (eraseLast_end root "/bin/test".toList (by decide))

/-- **C133 (Windows).** For a test program at `<root>\bin\test.exe` the root is `<root>`, whatever `<root>`. -/
theorem C133_root_windows (root : Str) (hlen : root.length + 13 ≤ 1024) :
    resolveRoot (some (root ++ "\\bin\\test.exe".toList)) = .ok root := by
  unfold resolveRoot
  rw [C133_exe _ (by rw [List.length_append]; exact hlen), Out.bind_ok]
  have h1 : root ++ "\\bin\\test.exe".toList = (root ++ "\\bin\\test.ex".toList) ++ ['e'] := by rw [List.append_assoc]; rfl
  rw [h1, trimRight_keep _ _ (by decide), ← h1]
  unfold rootPath
  have hd : delimiter (root ++ "\\bin\\test.exe".toList) = '\\' := by
    unfold delimiter
    rw [if_pos]
    exact List.mem_append_right _ (by decide)
  simp only [hd]
  have h2 : root ++ "\\bin\\test.exe".toList = (root ++ "\\bin\\test".toList) ++ ".exe".toList := by rw [List.append_assoc]; rfl
  rw [h2, eraseLast_end _ _ (by decide)]
  exact congrArg Out.ok (eraseLast_end root "\\bin\\test".toList (by decide))

/-- **C133.** The file named `file` of the directory `dir` of the source tree is found for every nonempty root that does not end in the delimiter. -/
theorem C133_input_partial (root dir file : Str) (hlen : root.length + 9 ≤ 1024) (hb : '\\' ∉ root) (he : ¬ ".exe".toList <:+: root) (h0 : root ≠ [])
    (hr : root.getLast? ≠ some '/') (hd : dir ≠ []) (hd1 : dir.head? ≠ some '/') (hd2 : dir.getLast? ≠ some '/') (hf : file ≠ []) (hf1 : file.head? ≠ some '/') :
    inputFile (some (root ++ "/bin/test".toList)) dir file = .ok (root ++ "/".toList ++ dir ++ "/".toList ++ file) := by
  have h1 : root ++ "/bin/test".toList = (root ++ "/bin/tes".toList) ++ ['t'] := by rw [List.append_assoc]; rfl
  have he1 : exePath (some (root ++ "/bin/test".toList)) = .ok (root ++ "/bin/test".toList) := by
    rw [C133_exe _ (by rw [List.length_append]; exact hlen), h1, trimRight_keep _ _ (by decide), ← h1]
  have hroot : rootPath (root ++ "/bin/test".toList) = root := by
    have := C133_root_partial root hlen hb he
    unfold resolveRoot at this
    rw [he1, Out.bind_ok] at this
    exact Out.ok.inj this
  have hdl : delimiter (root ++ "/bin/test".toList) = '/' := by
    unfold delimiter
    rw [if_neg]
    rw [List.mem_append, not_or]
    exact ⟨hb, by decide⟩
  unfold inputFile
  rw [he1, Out.bind_ok, hroot, hdl, C57_join_partial _ _ _ h0 hd, Out.bind_ok]
  rw [C57_join_partial _ _ _ (by simp [stripEnd, stripStart]) hf]
  have a1 : stripEnd '/' root = root := if_neg hr
  have a2 : stripStart '/' dir = dir := if_neg hd1
  have a3 : stripStart '/' file = file := if_neg hf1
  have a4 : stripEnd '/' (root ++ ['/'] ++ dir) = root ++ ['/'] ++ dir := by
    refine if_neg ?_
    rw [List.getLast?_append_of_ne_nil _ hd]
    exact hd2
  rw [a1, a2, a3, a4]
  simp [List.append_assoc]

example : resolveRoot (some "/home/user/blitzdg/bin/test".toList) = .ok "/home/user/blitzdg".toList := by decide +kernel
example : inputFile (some "/home/user/blitzdg/bin/test".toList) "input".toList "coarse_box.msh".toList = .ok "/home/user/blitzdg/input/coarse_box.msh".toList := by decide +kernel

/-- **C133, other programs.** From a program that is not at `<root>/bin/test` the "root" is the path of the program itself. -/
theorem C133_other (p : Str) (c : Char) (hlen : p.length + 1 ≤ 1024) (hc : isBlank c = false) (hb : '\\' ∉ p ++ [c]) (he : ¬ ".exe".toList <:+: p ++ [c])
    (ht : ¬ "/bin/test".toList <:+: p ++ [c]) : resolveRoot (some (p ++ [c])) = .ok (p ++ [c]) := by
  unfold resolveRoot
  rw [C133_exe _ (by rw [List.length_append]; exact hlen), Out.bind_ok, trimRight_keep _ _ hc]
  unfold rootPath delimiter
  simp only [if_neg hb]
  rw [eraseLast_none he]
  exact congrArg Out.ok (eraseLast_none ht)

/-- **C133 refuted** for roots in whose name ".exe" occurs: the four letters are dropped from the name. -/
theorem C133_dot_exe : resolveRoot (some "/home/u/wine.executables/bin/test".toList) = .ok "/home/u/winecutables".toList := by decide +kernel

/-- **C133 refuted** for roots with a backslash in their name: "/bin/test" is not removed. -/
theorem C133_backslash : resolveRoot (some "/home/u/a\\b/bin/test".toList) = .ok "/home/u/a\\b/bin/test".toList := by decide +kernel

/-- **C133 refuted** for programs of the library other than the tests: input files are looked for below the program file. -/
theorem C133_driver : inputFile (some "/opt/blitzdg/bin/sw2d".toList) "input".toList "box.msh".toList = .ok "/opt/blitzdg/bin/sw2d/input/box.msh".toList := by decide +kernel

/-- **C133 refuted** for the test program at "/bin/test", or when the operating system does not tell the path: joining to the empty root is undefined. -/
theorem C133_top (dir file : Str) : inputFile (some "/bin/test".toList) dir file = .ub ∧ inputFile none dir file = .ub := by
  have h1 : exePath (some "/bin/test".toList) = .ok "/bin/test".toList := by decide +kernel
  have h2 : rootPath "/bin/test".toList = [] := by decide +kernel
  have h3 : exePath none = .ok [] := by decide +kernel
  have h4 : rootPath [] = [] := by decide +kernel
  constructor
  · unfold inputFile
    rw [h1, Out.bind_ok, h2, C57_empty_ub _ _ _ (Or.inl rfl), Out.bind_ub]
  · unfold inputFile
    rw [h3, Out.bind_ok, h4, C57_empty_ub _ _ _ (Or.inl rfl), Out.bind_ub]

end Blitzdg.Output
