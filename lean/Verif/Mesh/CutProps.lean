import Verif.Mesh.ReadProps

/-!
C131: mesh files that end too early.
-/

namespace Blitzdg.Mesh

open Blitzdg.Csv

variable {R : Type} [Field R] [LinearOrder R] [IsStrictOrderedRing R]

/-! ### Reader at the end of the file -/

theorem rowToks_eof {done : List Str} {r : Reader} {n : Nat} (h : Rel done [] r) (hc : r.ncols = n) :
    ∃ r', rowToks n r = .ok (none, r') ∧ Rel done [] r' ∧ Same r r' := by
  rcases parseRow_spec (fun t => some t) h with ⟨_, r', e, h', hs⟩ | ⟨bl, l, rem', h1, _⟩
  · refine ⟨r', ?_, by simpa using h', hs⟩
    unfold rowToks parseRowValues
    rw [if_neg (by simp [hc]), e]
  · simp at h1

theorem expectLine_eof {done : List Str} {m : Str} {r : Reader} (h : Rel done [] r) : expectLine m r = .throws := by
  obtain ⟨r', e, _⟩ := readLine_nil h
  simp [expectLine, e]

theorem skip1_eof {done : List Str} {r : Reader} (h : Rel done [] r) : Rel done [] (skipLines 1 r) := (skipLoop_failed 1 _ _ h).1

theorem skip1_one {done : List Str} {l : Str} {r : Reader} (h : Rel done [l] r) : Rel (done ++ [l]) [] (skipLines 1 r) := (skip1_ok h).1

theorem text_ne {text : Str} {ls : List Str} (h : Lines text ls) (hne : ls ≠ []) : text ≠ [] := by
  cases h with
  | nil => exact absurd rfl hne
  | last l h1 h2 => exact h1
  | cons l h1 h2 => simp

/-! ### Prefixes of a file -/

omit [IsStrictOrderedRing R] in
/-- A file that consists of a complete header, a number of nodes `N` and at least the first nodes: `readMesh` continues with the remaining rounds of the node loop. -/
theorem readMesh_nodes (cv : Conv R) (wrap : Bool) (junk : R) (st : MM R) (text : Str) (fmt e1 cnt : Str) (nls rem : List Str) (N : Nat)
    (hl : Lines text (["$MeshFormat".toList, fmt, e1, "$Nodes".toList, cnt] ++ nls ++ rem)) (nodes : List (Int × R × R × R))
    (hf : ∃ v t s, RowLine msep [v, t, s] fmt ∧ cv.version v = some true ∧ cv.int t = some 0 ∧ cv.int s = some 8)
    (hc : ∃ t, RowLine msep [t] cnt ∧ cv.int t = some (N : Int)) (hnodes : List.Forall₂ (NodeLine cv) nodes nls)
    (hn : ∀ nd ∈ nodes, 1 ≤ nd.1 ∧ nd.1 ≤ (N : Int)) (hN : nodes.length ≤ N) :
    ∃ r, Rel (["$MeshFormat".toList, fmt, e1, "$Nodes".toList, cnt] ++ nls) rem r ∧ r.ncols = 4 ∧ r.delims = ['\t', ' '] ∧
      readMesh cv wrap junk st (some text) = (loopM (nodeStep cv) (nodes.foldl putNode (List.replicate (N * 3) junk), r) (List.range' nodes.length (N - nodes.length)) >>= fun q =>
        expectLine "$Elements".toList (skipLines 1 q.2) >>= fun r => readCount cv 0 r >>= fun c =>
          if c.1 < 0 then .throws else loopM (elemStep cv) (([], []), "$Elements".toList, c.2) (List.range c.1.toNat) >>= fun p => elemTable p.1.1 p.1.2 >>= fun t =>
            finish wrap 3 N t.1 t.2.1 q.1 t.2.2) := by
  obtain ⟨fv, ft, fs, f1, f2, f3, f4⟩ := hf
  obtain ⟨ct, c1, c2⟩ := hc
  obtain ⟨r0, o1, o2, _, oc, _, o3, _⟩ := openReader_spec text _ hl 0 ['\t', ' '] (by decide) (Int.natCast_nonneg _)
  rw [Int.toNat_zero, List.take_zero, List.drop_zero] at o2
  have o2' : Rel [] ("$MeshFormat".toList :: fmt :: e1 :: "$Nodes".toList :: cnt :: (nls ++ rem)) r0 := by simpa using o2
  obtain ⟨r1, p1, q1, s1⟩ := expectLine_ok o2'
  obtain ⟨r2, p2, q2, s2, k2⟩ := readFormat_ok q1 (by rw [s1.delims, o3]) f1 f2 f3 f4
  obtain ⟨q3, s3⟩ := skip1_ok q2
  obtain ⟨r4, p4, q4, s4⟩ := expectLine_ok q3
  have d4 : r4.delims = ['\t', ' '] := by rw [s4.delims, s3.delims, s2, s1.delims, o3]
  obtain ⟨r5, p5, q5, s5, k5⟩ := readCount_ok (old := st.nv) q4 d4 c1 c2
  obtain ⟨r6, p6, q6, s6, k6, n6⟩ := nodes_ok nodes nls _ rem (setNumCols 4 r5) (List.replicate (N * 3) junk) N 0 hnodes
    (Rel.setNumCols q5 4) (by show r5.delims = _; rw [s5, d4]) rfl (by simp) hn
  have d6 : r6.delims = ['\t', ' '] := by rw [s6]; show r5.delims = _; rw [s5, d4]
  refine ⟨r6, by simpa using q6, n6, d6, ?_⟩
  unfold readMesh
  rw [o1, Out.bind_ok, p1, Out.bind_ok, p2, Out.bind_ok]
  simp only
  rw [p4, Out.bind_ok, p5, Out.bind_ok]
  simp only
  have hr : List.range N = List.range' 0 nodes.length ++ List.range' nodes.length (N - nodes.length) := by
    rw [List.range_eq_range']
    have := List.range'_append (s := 0) (m := nodes.length) (n := N - nodes.length) (step := 1)
    rw [Nat.add_sub_cancel' hN] at this
    simpa using this.symm
  rw [if_neg (by omega), Int.toNat_natCast, hr, loopM_append, p6, Out.bind_ok]

omit [IsStrictOrderedRing R] in
/-- **C131, cut in the format line: undefined.** A file that ends behind its first line. -/
theorem C131_format_missing (cv : Conv R) (wrap : Bool) (junk : R) (st : MM R) (text : Str) (hl : Lines text ["$MeshFormat".toList]) :
    readMesh cv wrap junk st (some text) = .ub := by
  obtain ⟨r0, o1, o2, _, oc, _, o3, _⟩ := openReader_spec text _ hl 0 ['\t', ' '] (by decide) (Int.natCast_nonneg _)
  rw [Int.toNat_zero, List.take_zero, List.drop_zero] at o2
  obtain ⟨r1, p1, q1, s1⟩ := expectLine_ok o2
  obtain ⟨r2, p2, -⟩ := rowToks_eof (n := 3) (Rel.setNumCols q1 3) rfl
  have : readFormat cv r1 = .ub := by
    unfold readFormat
    rw [p2, Out.bind_ok]
  unfold readMesh
  rw [o1, Out.bind_ok, p1, Out.bind_ok, this]
  rfl

omit [IsStrictOrderedRing R] in
/-- **C131, cut in front of the number of nodes: rejected by a new mesh object.** -/
theorem C131_count_missing (cv : Conv R) (wrap : Bool) (junk : R) (st : MM R) (text : Str) (fmt e1 : Str)
    (hf : ∃ v t s, RowLine msep [v, t, s] fmt ∧ cv.version v = some true ∧ cv.int t = some 0 ∧ cv.int s = some 8)
    (hl : Lines text ["$MeshFormat".toList, fmt, e1, "$Nodes".toList]) (hst : st.nv = 0) : readMesh cv wrap junk st (some text) = .throws := by
  obtain ⟨fv, ft, fs, f1, f2, f3, f4⟩ := hf
  obtain ⟨r0, o1, o2, _, oc, _, o3, _⟩ := openReader_spec text _ hl 0 ['\t', ' '] (by decide) (Int.natCast_nonneg _)
  rw [Int.toNat_zero, List.take_zero, List.drop_zero] at o2
  obtain ⟨r1, p1, q1, s1⟩ := expectLine_ok o2
  obtain ⟨r2, p2, q2, s2, k2⟩ := readFormat_ok q1 (by rw [s1.delims, o3]) f1 f2 f3 f4
  obtain ⟨q3, s3⟩ := skip1_ok q2
  obtain ⟨r4, p4, q4, s4⟩ := expectLine_ok q3
  obtain ⟨r5, p5, q5, s5⟩ := rowToks_eof (n := 1) (Rel.setNumCols q4 1) rfl
  have hc : readCount cv (st.nv : Int) r4 = .ok ((0 : Int), r5) := by
    unfold readCount
    rw [p5, Out.bind_ok, hst]
    rfl
  unfold readMesh
  rw [o1, Out.bind_ok, p1, Out.bind_ok, p2, Out.bind_ok]
  simp only
  rw [p4, Out.bind_ok, hc, Out.bind_ok]
  simp only
  rw [if_neg (by omega)]
  simp only [Int.toNat_zero, List.range_zero, loopM_nil, Out.bind_ok]
  rw [expectLine_eof (skip1_eof (Rel.setNumCols q5 4))]
  rfl

omit [IsStrictOrderedRing R] in
/-- **C131, cut in front of the number of nodes: undefined for a mesh object that holds a mesh already.** The old number of nodes is used. -/
theorem C131_count_missing_reused (cv : Conv R) (wrap : Bool) (junk : R) (st : MM R) (text : Str) (fmt e1 : Str)
    (hf : ∃ v t s, RowLine msep [v, t, s] fmt ∧ cv.version v = some true ∧ cv.int t = some 0 ∧ cv.int s = some 8)
    (hl : Lines text ["$MeshFormat".toList, fmt, e1, "$Nodes".toList]) (hst : 0 < st.nv) : readMesh cv wrap junk st (some text) = .ub := by
  obtain ⟨fv, ft, fs, f1, f2, f3, f4⟩ := hf
  obtain ⟨r0, o1, o2, _, oc, _, o3, _⟩ := openReader_spec text _ hl 0 ['\t', ' '] (by decide) (Int.natCast_nonneg _)
  rw [Int.toNat_zero, List.take_zero, List.drop_zero] at o2
  obtain ⟨r1, p1, q1, s1⟩ := expectLine_ok o2
  obtain ⟨r2, p2, q2, s2, k2⟩ := readFormat_ok q1 (by rw [s1.delims, o3]) f1 f2 f3 f4
  obtain ⟨q3, s3⟩ := skip1_ok q2
  obtain ⟨r4, p4, q4, s4⟩ := expectLine_ok q3
  obtain ⟨r5, p5, q5, s5⟩ := rowToks_eof (n := 1) (Rel.setNumCols q4 1) rfl
  have hc : readCount cv (st.nv : Int) r4 = .ok ((st.nv : Int), r5) := by
    unfold readCount
    rw [p5, Out.bind_ok]
    rfl
  obtain ⟨r6, p6, -⟩ := rowToks_eof (n := 4) (Rel.setNumCols q5 4) rfl
  have h2 : nodeStep cv (List.replicate (st.nv * 3) junk, setNumCols 4 r5) 0 = .ub := by
    unfold nodeStep
    simp only
    rw [p6, Out.bind_ok]
  unfold readMesh
  rw [o1, Out.bind_ok, p1, Out.bind_ok, p2, Out.bind_ok]
  simp only
  rw [p4, Out.bind_ok, hc, Out.bind_ok]
  simp only
  rw [if_neg (by omega), Int.toNat_natCast, List.range_eq_range', show st.nv = (st.nv - 1) + 1 by omega, List.range'_succ, loopM_cons,
    show st.nv - 1 + 1 = st.nv by omega, h2]
  rfl

omit [IsStrictOrderedRing R] in
/-- **C131, cut among the nodes: undefined.** A file that announces more nodes than it has, and ends there: the number of a node that is not there is used uninitialised. -/
theorem C131_nodes_cut (cv : Conv R) (wrap : Bool) (junk : R) (st : MM R) (text : Str) (fmt e1 cnt : Str) (nls : List Str) (N : Nat)
    (hl : Lines text (["$MeshFormat".toList, fmt, e1, "$Nodes".toList, cnt] ++ nls)) (nodes : List (Int × R × R × R))
    (hf : ∃ v t s, RowLine msep [v, t, s] fmt ∧ cv.version v = some true ∧ cv.int t = some 0 ∧ cv.int s = some 8)
    (hc : ∃ t, RowLine msep [t] cnt ∧ cv.int t = some (N : Int)) (hnodes : List.Forall₂ (NodeLine cv) nodes nls)
    (hn : ∀ nd ∈ nodes, 1 ≤ nd.1 ∧ nd.1 ≤ (N : Int)) (hN : nodes.length < N) : readMesh cv wrap junk st (some text) = .ub := by
  obtain ⟨r, q, c, -, e⟩ := readMesh_nodes cv wrap junk st text fmt e1 cnt nls [] N (by simpa using hl) nodes hf hc hnodes hn hN.le
  obtain ⟨r', p, -⟩ := rowToks_eof (n := 4) q c
  have h1 : N - nodes.length = (N - nodes.length - 1) + 1 := by omega
  have h2 : nodeStep cv (nodes.foldl putNode (List.replicate (N * 3) junk), r) nodes.length = .ub := by
    unfold nodeStep
    simp only
    rw [p, Out.bind_ok]
  rw [e, h1, List.range'_succ, loopM_cons, h2]
  rfl

omit [IsStrictOrderedRing R] in
/-- **C131, cut behind the nodes: rejected.** A file that ends behind its nodes or one line later. -/
theorem C131_after_nodes (cv : Conv R) (wrap : Bool) (junk : R) (st : MM R) (text : Str) (fmt e1 cnt : Str) (nls rem : List Str)
    (hl : Lines text (["$MeshFormat".toList, fmt, e1, "$Nodes".toList, cnt] ++ nls ++ rem)) (nodes : List (Int × R × R × R))
    (hf : ∃ v t s, RowLine msep [v, t, s] fmt ∧ cv.version v = some true ∧ cv.int t = some 0 ∧ cv.int s = some 8)
    (hc : ∃ t, RowLine msep [t] cnt ∧ cv.int t = some (nodes.length : Int)) (hnodes : List.Forall₂ (NodeLine cv) nodes nls)
    (hn : ∀ nd ∈ nodes, 1 ≤ nd.1 ∧ nd.1 ≤ (nodes.length : Int)) (hr : rem.length ≤ 1) : readMesh cv wrap junk st (some text) = .throws := by
  obtain ⟨r, q, c, -, e⟩ := readMesh_nodes cv wrap junk st text fmt e1 cnt nls rem nodes.length hl nodes hf hc hnodes hn le_rfl
  have : ∃ done, Rel done [] (skipLines 1 r) := by
    match rem, hr with
    | [], _ => exact ⟨_, skip1_eof q⟩
    | [l], _ => exact ⟨_, skip1_one q⟩
  obtain ⟨done, hd⟩ := this
  rw [e, Nat.sub_self, List.range'_zero, loopM_nil, Out.bind_ok]
  simp only
  rw [expectLine_eof hd]
  rfl

/-- **C131, refuted: cut behind the line `$Elements`.** Such a file is accepted; the mesh has all nodes and no element. -/
theorem C131_after_marker (cv : Conv R) (wrap : Bool) (junk : R) (st : MM R) (text : Str) (fmt e1 cnt e2 : Str) (nls : List Str)
    (hl : Lines text (["$MeshFormat".toList, fmt, e1, "$Nodes".toList, cnt] ++ nls ++ [e2, "$Elements".toList])) (nodes : List (Int × R × R × R))
    (hf : ∃ v t s, RowLine msep [v, t, s] fmt ∧ cv.version v = some true ∧ cv.int t = some 0 ∧ cv.int s = some 8)
    (hc : ∃ t, RowLine msep [t] cnt ∧ cv.int t = some (nodes.length : Int)) (hnodes : List.Forall₂ (NodeLine cv) nodes nls)
    (hn : ∀ nd ∈ nodes, 1 ≤ nd.1 ∧ nd.1 ≤ (nodes.length : Int)) :
    ∃ M, readMesh cv wrap junk st (some text) = .ok M ∧ M.k = 0 ∧ M.nv = nodes.length ∧ M.e2v = [] ∧ M.bc = [] := by
  obtain ⟨r, q, c, -, e⟩ := readMesh_nodes cv wrap junk st text fmt e1 cnt nls _ nodes.length hl nodes hf hc hnodes hn le_rfl
  obtain ⟨q1, -⟩ := skip1_ok q
  obtain ⟨r2, p2, q2, -⟩ := expectLine_ok q1
  obtain ⟨r3, p3, q3, -⟩ := rowToks_eof (n := 1) (Rel.setNumCols q2 1) rfl
  have hcnt : readCount cv 0 r2 = .ok ((0 : Int), r3) := by
    unfold readCount
    rw [p3, Out.bind_ok]
    rfl
  have hlen : (nodes.foldl putNode (List.replicate (nodes.length * 3) junk)).length = 3 * nodes.length := by
    have : ∀ (l : List (Int × R × R × R)) (v : List R), (l.foldl putNode v).length = v.length := by
      intro l
      induction l with
      | nil => intro v; rfl
      | cons a l ih => intro v; rw [List.foldl_cons, ih, putNode_length]
    rw [this, List.length_replicate, Nat.mul_comm]
  obtain ⟨M, m1, m2, -, m4, m5, m6, -, m7⟩ := finish_ok wrap 3 nodes.length 3 0 (nodes.foldl putNode (List.replicate (nodes.length * 3) junk)) [] (Or.inl rfl) (by omega) hlen rfl
    (by simp) (by omega) (Or.inl (by simp))
  refine ⟨M, ?_, m6, m4, ?_, ?_⟩
  · rw [e, Nat.sub_self, List.range'_zero, loopM_nil, Out.bind_ok]
    simp only
    rw [p2, Out.bind_ok, hcnt, Out.bind_ok]
    simp only
    rw [if_neg (by omega), Int.toNat_zero, List.range_zero, loopM_nil, Out.bind_ok]
    have : elemTable [] [] = .ok (3, 0, []) := rfl
    rw [this, Out.bind_ok, m1]
  · have := m7.1
    rw [m6, Nat.mul_zero] at this
    exact List.length_eq_zero_iff.1 this
  · have := m7.2.2.2.1
    rw [m6, Nat.mul_zero] at this
    exact List.length_eq_zero_iff.1 this

/-! ### Cut among the element rows -/

omit [Field R] [LinearOrder R] [IsStrictOrderedRing R] in
theorem elemStep_empty {cv : Conv R} {s : List (List Int) × List (List Int)} {line : Str} {r : Reader} {i : Nat}
    (h : (readLineVar line r).1 = [] ∨ (readLineVar line r).1 = "$Elements".toList) (hd : r.delims = ['\t', ' ']) : elemStep cv (s, line, r) i = .ub := by
  unfold elemStep
  rcases h with h | h
  · simp only [h, hd]; rfl
  · simp only [h, hd]; rfl

/-- With a final newline the line variable is cleared. -/
theorem readLineVar_nl {done : List Str} {line : Str} {r : Reader} (h : Rel done [] r) (hf : r.failed = false) (hn : r.content.getLast? = some '\n') :
    (readLineVar line r).1 = [] := by
  obtain ⟨r', e, -⟩ := readLine_nil h
  unfold readLineVar atEof
  rw [e]
  simp [hf, hn]

/-- Without a final newline the line variable keeps the last line. -/
theorem readLineVar_stale {done : List Str} {line : Str} {r : Reader} (h : Rel done [] r) (hne : r.content ≠ []) (hn : r.content.getLast? ≠ some '\n') :
    ∃ r', readLineVar line r = (line, r') ∧ Rel done [] r' ∧ Same r r' := by
  obtain ⟨r', e, h', hs, -⟩ := readLine_nil h
  refine ⟨r', ?_, h', hs⟩
  have hr : r.rest = [] := h.rest.getline_nil
  unfold readLineVar atEof
  rw [e, hr]
  obtain ⟨c, hc⟩ : ∃ c, r.content.getLast? = some c := by
    cases hg : r.content.getLast? with
    | none => exact absurd (List.getLast?_eq_none_iff.1 hg) hne
    | some c => exact ⟨c, rfl⟩
  have : c ≠ '\n' := fun hh => hn (by rw [hc, hh])
  simp [hc, this]

omit [Field R] [LinearOrder R] [IsStrictOrderedRing R] in
/-- The element loop at the end of a file without final newline repeats the last row. -/
theorem elems_stale {cv : Conv R} (e : Elem) (line : Str) (hl : ElemLine cv e line) (ht : e.typed) : ∀ (k : Nat) (done : List Str) (r : Reader)
    (s : List (List Int) × List (List Int)) (i : Nat), Rel done [] r → r.delims = ['\t', ' '] → r.content ≠ [] → r.content.getLast? ≠ some '\n' →
    ∃ r', loopM (elemStep cv) (s, line, r) (List.range' i k) = .ok ((List.replicate k e).foldl addElem s, line, r') := by
  intro k
  induction k with
  | zero => intro done r s i _ _ _ _; exact ⟨r, rfl⟩
  | succ k ih =>
    intro done r s i h hd hne hn
    obtain ⟨toks, j1, j2, j3⟩ := hl
    obtain ⟨r1, e1, h1, hs⟩ := readLineVar_stale (line := line) h hne hn
    have htok : tokenizeLine r.delims line = toks := by
      rw [hd]; exact tokenizeLine_eq (j1.isSplit j2 true)
    have hstep : elemStep cv (s, line, r) i = .ok (addElem s e, line, r1) := by
      unfold elemStep
      simp only [e1]
      rw [htok, elemRow_ok cv s e toks j3 ht, Out.bind_ok]
      rfl
    obtain ⟨r', e'⟩ := ih done r1 (addElem s e) (i + 1) h1 (by rw [hs.delims, hd]) (by rw [hs.content]; exact hne) (by rw [hs.content]; exact hn)
    refine ⟨r', ?_⟩
    rw [List.range'_succ, loopM_cons, hstep, Out.bind_ok, e', List.replicate_succ, List.foldl_cons]

/-- **C131, cut among the element rows with a final newline: undefined.** Such a file announces more element rows than it has: a field of an empty line is used. -/
theorem C131_rows_cut (cv : Conv R) (wrap : Bool) (junk : R) (st : MM R) (text : Str) (fmt e1 cnt e2 ecnt : Str) (nls els : List Str) (m : Nat)
    (hl : Lines text (["$MeshFormat".toList, fmt, e1, "$Nodes".toList, cnt] ++ nls ++ [e2, "$Elements".toList, ecnt] ++ els))
    (nodes : List (Int × R × R × R)) (es : List Elem)
    (hf : ∃ v t s, RowLine msep [v, t, s] fmt ∧ cv.version v = some true ∧ cv.int t = some 0 ∧ cv.int s = some 8)
    (hc : ∃ t, RowLine msep [t] cnt ∧ cv.int t = some (nodes.length : Int)) (hnodes : List.Forall₂ (NodeLine cv) nodes nls)
    (he : ∃ t, RowLine msep [t] ecnt ∧ cv.int t = some (m : Int)) (hes : List.Forall₂ (ElemLine cv) es els)
    (hn : ∀ nd ∈ nodes, 1 ≤ nd.1 ∧ nd.1 ≤ (nodes.length : Int)) (ht : ∀ e ∈ es, e.typed) (hm : es.length < m)
    (hnl : text.getLast? = some '\n' ∨ es = []) : readMesh cv wrap junk st (some text) = .ub := by
  obtain ⟨r, q, d, k, e⟩ := readMesh_head cv wrap junk st text fmt e1 cnt e2 ecnt nls els m hl nodes hf hc hnodes he hn
  obtain ⟨r', p, q', s', ff⟩ := elems_ok es els _ [] r ([], []) "$Elements".toList 0 hes (by simpa using q) d ht
  have hr : List.range m = List.range' 0 es.length ++ (es.length :: List.range' (es.length + 1) (m - es.length - 1)) := by
    rw [List.range_eq_range']
    have := List.range'_append (s := 0) (m := es.length) (n := m - es.length) (step := 1)
    rw [Nat.add_sub_cancel' hm.le] at this
    rw [← this, show m - es.length = (m - es.length - 1) + 1 by omega, List.range'_succ]
    simp
  rw [e, hr, loopM_append, p, Out.bind_ok, loopM_cons]
  rw [elemStep_empty ?_ (by rw [s'.delims, d])]
  · rfl
  · have hd' : r'.content = text := by rw [s'.content, k]
    by_cases hnl' : text.getLast? = some '\n'
    · by_cases hff : r'.failed = true
      · -- the stream has failed before: the line is the one read last
        have hes0 : es = [] := by
          by_contra hne
          rw [ff (Or.inr hne)] at hff
          simp at hff
        subst hes0
        cases hes
        right
        obtain ⟨r'', e'', -⟩ := readLine_nil q'
        unfold readLineVar
        rw [e'']
        simp [hff]
      · left
        exact readLineVar_nl q' (by simpa using hff) (by rw [hd']; exact hnl')
    · have hes0 := hnl.resolve_left hnl'
      subst hes0
      cases hes
      right
      have hne : r'.content ≠ [] := by
        rw [hd']
        exact text_ne hl (by simp)
      obtain ⟨r'', e'', -⟩ := readLineVar_stale (line := ("$Elements".toList :: ([] : List Str)).getLastD []) q' hne (by rw [hd']; exact hnl')
      rw [e'']
      rfl

/-- **C131, refuted: cut among the element rows without final newline.** Such a file is read as if its last row stood there as often as rows are missing: the outcome is that of
any complete file with the same nodes and these rows. -/
theorem C131_rows_repeated (cv : Conv R) (wrap : Bool) (junk : R) (st : MM R) (text : Str) (fmt e1 cnt e2 ecnt : Str) (nls els : List Str) (m : Nat)
    (hl : Lines text (["$MeshFormat".toList, fmt, e1, "$Nodes".toList, cnt] ++ nls ++ [e2, "$Elements".toList, ecnt] ++ els))
    (nodes : List (Int × R × R × R)) (es : List Elem)
    (hf : ∃ v t s, RowLine msep [v, t, s] fmt ∧ cv.version v = some true ∧ cv.int t = some 0 ∧ cv.int s = some 8)
    (hc : ∃ t, RowLine msep [t] cnt ∧ cv.int t = some (nodes.length : Int)) (hnodes : List.Forall₂ (NodeLine cv) nodes nls)
    (he : ∃ t, RowLine msep [t] ecnt ∧ cv.int t = some (m : Int)) (hes : List.Forall₂ (ElemLine cv) es els)
    (hn : ∀ nd ∈ nodes, 1 ≤ nd.1 ∧ nd.1 ≤ (nodes.length : Int)) (ht : ∀ e ∈ es, e.typed) (hm : es.length ≤ m) (hne : es ≠ [])
    (hnl : text.getLast? ≠ some '\n') (text' : Str) (ls' : List Str) (hl' : Lines text' ls')
    (hf' : MshFile cv nodes (es ++ List.replicate (m - es.length) (es.getLast hne)) ls') :
    readMesh cv wrap junk st (some text) = readMesh cv wrap junk st (some text') := by
  rw [readMesh_eq cv wrap junk st text' ls' hl' nodes _ hf' hn ?_]
  · obtain ⟨r, q, d, k, e⟩ := readMesh_head cv wrap junk st text fmt e1 cnt e2 ecnt nls els m hl nodes hf hc hnodes he hn
    obtain ⟨r', p, q', s', ff⟩ := elems_ok es els _ [] r ([], []) "$Elements".toList 0 hes (by simpa using q) d ht
    have hr : List.range m = List.range' 0 es.length ++ List.range' es.length (m - es.length) := by
      rw [List.range_eq_range']
      have := List.range'_append (s := 0) (m := es.length) (n := m - es.length) (step := 1)
      rw [Nat.add_sub_cancel' hm] at this
      simpa using this.symm
    have hlne : els ≠ [] := by rintro rfl; cases hes; exact hne rfl
    have hlast : ("$Elements".toList :: els).getLastD [] = els.getLast hlne := by
      rw [List.getLastD_cons, List.getLastD_eq_getLast?, List.getLast?_eq_some_getLast hlne]; rfl
    have hline : ElemLine cv (es.getLast hne) (els.getLast hlne) := by
      have := hes
      clear * - this
      induction this with
      | nil => exact absurd rfl hne
      | @cons a b as bs h hs ih =>
        cases hs with
        | nil => simpa using h
        | cons h' hs' => simpa using ih (by simp) (by simp)
    have hcont : r'.content = text := by rw [s'.content, k]
    obtain ⟨r'', p''⟩ := elems_stale (cv := cv) (es.getLast hne) (els.getLast hlne) hline (ht _ (List.getLast_mem hne)) (m - es.length) _ r'
      (es.foldl addElem ([], [])) es.length q' (by rw [s'.delims, d]) (by rw [hcont]; exact text_ne hl (by simp)) (by rw [hcont]; exact hnl)
    rw [e, hr, loopM_append, p, Out.bind_ok, hlast, p'', Out.bind_ok, ← List.foldl_append, foldl_addElem]
    simp only [List.nil_append]
  · intro a ha
    rcases List.mem_append.1 ha with h | h
    · exact ht a h
    · rw [List.eq_of_mem_replicate h]; exact ht _ (List.getLast_mem hne)

/-- **C131 (partial).** A complete file cut behind any of its lines, read into a new mesh object, is not taken for a mesh, unless it is cut right behind the line `$Elements` or among the element rows
without final newline.  Missing: those two cases, in which it is (`C131_after_marker`, `C131_rows_repeated`), and an exception in place of undefined behaviour. -/
theorem C131_cut_partial (cv : Conv R) (wrap : Bool) (junk : R) (st : MM R) (text : Str) (fmt e1 cnt e2 ecnt : Str) (nls els : List Str) (j : Nat)
    (hl : Lines text ((["$MeshFormat".toList, fmt, e1, "$Nodes".toList, cnt] ++ nls ++ [e2, "$Elements".toList, ecnt] ++ els).take j))
    (nodes : List (Int × R × R × R)) (es : List Elem)
    (hf : ∃ v t s, RowLine msep [v, t, s] fmt ∧ cv.version v = some true ∧ cv.int t = some 0 ∧ cv.int s = some 8)
    (hc : ∃ t, RowLine msep [t] cnt ∧ cv.int t = some (nodes.length : Int)) (hnodes : List.Forall₂ (NodeLine cv) nodes nls)
    (he : ∃ t, RowLine msep [t] ecnt ∧ cv.int t = some (es.length : Int)) (hes : List.Forall₂ (ElemLine cv) es els)
    (hn : ∀ nd ∈ nodes, 1 ≤ nd.1 ∧ nd.1 ≤ (nodes.length : Int)) (ht : ∀ e ∈ es, e.typed) (hst : st.nv = 0)
    (hj : j < 8 + nodes.length + es.length) (hj7 : j ≠ 7 + nodes.length) (hnl : text.getLast? = some '\n' ∨ j ≤ 8 + nodes.length) :
    readMesh cv wrap junk st (some text) = if j = 1 ∨ (5 ≤ j ∧ j < 5 + nodes.length) ∨ 8 + nodes.length ≤ j then .ub else .throws := by
  have hnlen : nls.length = nodes.length := hnodes.length_eq.symm
  have helen : els.length = es.length := hes.length_eq.symm
  rcases Nat.lt_or_ge j 5 with h5 | h5
  · rw [List.append_assoc, List.append_assoc, List.take_append_of_le_length (by simp; omega)] at hl
    obtain ⟨fv, ft, fs, f1, f2, f3, f4⟩ := hf
    interval_cases j
    · rw [if_neg (by omega)]
      exact C62_rejects cv wrap junk st text _ hl (Or.inl (by simp))
    · rw [if_pos (by omega)]
      exact C131_format_missing cv wrap junk st text hl
    · rw [if_neg (by omega)]
      exact C62_rejects cv wrap junk st text _ hl (Or.inr ⟨fmt, [], fv, ft, fs, true, 0, 8, rfl, f1, f2, f3, f4, Or.inr (Or.inr (Or.inr (by simp)))⟩)
    · rw [if_neg (by omega)]
      exact C62_rejects cv wrap junk st text _ hl (Or.inr ⟨fmt, [e1], fv, ft, fs, true, 0, 8, rfl, f1, f2, f3, f4, Or.inr (Or.inr (Or.inr (by simp)))⟩)
    · rw [if_neg (by omega)]
      exact C131_count_missing cv wrap junk st text fmt e1 ⟨fv, ft, fs, f1, f2, f3, f4⟩ hl hst
  · rcases Nat.lt_or_ge j (5 + nodes.length) with h6 | h6
    · rw [if_pos (by omega)]
      rw [List.append_assoc, List.take_append_of_le_length (by simp; omega), List.take_append, List.take_of_length_le (by simp; omega)] at hl
      refine C131_nodes_cut cv wrap junk st text fmt e1 cnt (nls.take (j - 5)) nodes.length hl (nodes.take (j - 5)) hf hc ?_ (fun nd h => hn nd (List.mem_of_mem_take h)) (by simp; omega)
      exact List.forall₂_take (j - 5) hnodes
    · rcases Nat.lt_or_ge j (7 + nodes.length) with h7 | h7
      · rw [if_neg (by omega)]
        rw [List.append_assoc, List.take_append, List.take_of_length_le (by simp; omega)] at hl
        refine C131_after_nodes cv wrap junk st text fmt e1 cnt nls _ hl nodes hf hc hnodes hn ?_
        simp; omega
      · rw [if_pos (by omega)]
        rw [List.take_append, List.take_of_length_le (by simp; omega)] at hl
        refine C131_rows_cut cv wrap junk st text fmt e1 cnt e2 ecnt nls _ es.length hl nodes (es.take (j - (8 + nodes.length))) hf hc hnodes he ?_ hn
          (fun e h => ht e (List.mem_of_mem_take h)) (by simp; omega) ?_
        · have : (["$MeshFormat".toList, fmt, e1, "$Nodes".toList, cnt] ++ nls ++ [e2, "$Elements".toList, ecnt]).length = 8 + nodes.length := by simp; omega
          rw [this]
          exact List.forall₂_take _ hes
        · rcases hnl with h | h
          · exact Or.inl h
          · right
            have : j - (8 + nodes.length) = 0 := by omega
            rw [this, List.take_zero]

/-! ### Examples -/

/-- The two-triangle file cut behind its second element row, without newline: it is accepted, and the mesh has the first triangle twice and not the second one. -/
theorem C131_cut_accepted : readMesh exConv false 77 MM.new (some
    "$MeshFormat\n2.2 0 8\n$EndMeshFormat\n$Nodes\n4\n1 0 0 0\n2 1 0 0\n4 0 1 0\n3 1 1 0\n$EndNodes\n$Elements\n3\n1 1 2 0 1 1 2\n2 2 2 0 6 1 3 2".toList) = .ok
    { dim := 3, nv := 4, nf := 3, k := 2, vert := [0, 0, 0, 1, 0, 0, 1, 1, 0, 0, 1, 0], e2v := [0, 1, 2, 0, 1, 2],
      e2e := [1, 1, 1, 0, 0, 0], e2f := [0, 1, 2, 0, 1, 2], bc := [0, 0, 0, 0, 0, 0] } := by decide +kernel

/-- The same with a newline: undefined. -/
example : readMesh exConv false 77 MM.new (some
    "$MeshFormat\n2.2 0 8\n$EndMeshFormat\n$Nodes\n4\n1 0 0 0\n2 1 0 0\n4 0 1 0\n3 1 1 0\n$EndNodes\n$Elements\n3\n1 1 2 0 1 1 2\n2 2 2 0 6 1 3 2\n".toList) = .ub := by decide +kernel

/-- Cut behind `$Elements`: an empty mesh. -/
example : readMesh exConv false 77 MM.new (some
    "$MeshFormat\n2.2 0 8\n$EndMeshFormat\n$Nodes\n4\n1 0 0 0\n2 1 0 0\n4 0 1 0\n3 1 1 0\n$EndNodes\n$Elements\n".toList) = .ok
    { dim := 3, nv := 4, nf := 3, k := 0, vert := [0, 0, 0, 1, 0, 0, 1, 1, 0, 0, 1, 0], e2v := [], e2e := [], e2f := [], bc := [] } := by decide +kernel

/-- Cut among the nodes and behind them. -/
example : readMesh exConv false 77 MM.new (some "$MeshFormat\n2.2 0 8\n$EndMeshFormat\n$Nodes\n4\n1 0 0 0\n2 1 0 0\n".toList) = .ub ∧
    readMesh exConv false 77 MM.new (some "$MeshFormat\n2.2 0 8\n$EndMeshFormat\n$Nodes\n2\n1 0 0 0\n2 1 0 0\n$EndNodes".toList) = .throws := ⟨by decide +kernel, by decide +kernel⟩

set_option maxRecDepth 8000 in
/-- The hypotheses of `C131_cut_partial` are those of a complete file; they hold for the two-triangle file (`exFile`), cut behind 14 of its 15 lines. -/
example : ∃ text, Lines text ((["$MeshFormat".toList, "2.2 0 8".toList, "$EndMeshFormat".toList, "$Nodes".toList, "4".toList] ++
    ["1 0 0 0".toList, "2 1 0 0".toList, "4 0 1 0".toList, "3 1 1 0".toList] ++ ["$EndNodes".toList, "$Elements".toList, "3".toList] ++
    ["1 1 2 0 1 1 2".toList, "2 2 2 0 6 1 3 2".toList, "3 2 2 0 6 1 3 4".toList]).take 14) ∧ text.getLast? = some '\n' := by
  refine ⟨"$MeshFormat\n2.2 0 8\n$EndMeshFormat\n$Nodes\n4\n1 0 0 0\n2 1 0 0\n4 0 1 0\n3 1 1 0\n$EndNodes\n$Elements\n3\n1 1 2 0 1 1 2\n2 2 2 0 6 1 3 2\n".toList, ?_, by decide +kernel⟩
  have c : ∀ (l s : Str) (ls : List Str), '\n' ∉ l → Lines s ls → Lines (l ++ '\n' :: s) (l :: ls) := fun l s ls h h' => .cons l h h'
  exact c "$MeshFormat".toList _ _ (by decide) (c "2.2 0 8".toList _ _ (by decide) (c "$EndMeshFormat".toList _ _ (by decide) (c "$Nodes".toList _ _ (by decide)
    (c "4".toList _ _ (by decide) (c "1 0 0 0".toList _ _ (by decide) (c "2 1 0 0".toList _ _ (by decide) (c "4 0 1 0".toList _ _ (by decide) (c "3 1 1 0".toList _ _ (by decide)
    (c "$EndNodes".toList _ _ (by decide) (c "$Elements".toList _ _ (by decide) (c "3".toList _ _ (by decide) (c "1 1 2 0 1 1 2".toList _ _ (by decide)
    (c "2 2 2 0 6 1 3 2".toList _ _ (by decide) .nil)))))))))))))

end Blitzdg.Mesh
