import Verif.Mesh.ReadLemmas

/-! Reading of mesh files (C24, C25, C61, C62). -/

namespace Blitzdg.Mesh

open Blitzdg.Csv

set_option linter.unusedSectionVars false

variable {R : Type} [Field R] [LinearOrder R] [IsStrictOrderedRing R]

/-! ### Specification -/

/-- The contents of a Gmsh 2 text file: lines in the order the format prescribes; between the sections any text may follow the element rows. -/
structure MshFile (cv : Conv R) (nodes : List (Int × R × R × R)) (es : List Elem) (ls : List Str) : Prop where
  lines : ∃ fmt e1 cnt nls e2 ecnt els tail,
    ls = ["$MeshFormat".toList, fmt, e1, "$Nodes".toList, cnt] ++ nls ++ [e2, "$Elements".toList, ecnt] ++ els ++ tail ∧
    (∃ v t s, RowLine msep [v, t, s] fmt ∧ cv.version v = some true ∧ cv.int t = some 0 ∧ cv.int s = some 8) ∧
    (∃ t, RowLine msep [t] cnt ∧ cv.int t = some (nodes.length : Int)) ∧
    List.Forall₂ (NodeLine cv) nodes nls ∧
    (∃ t, RowLine msep [t] ecnt ∧ cv.int t = some (es.length : Int)) ∧
    List.Forall₂ (ElemLine cv) es els

/-- What a user expects of the tables of a mesh object: sizes; EToE/EToF name for each face a face of the mesh with the same two ends, or the
face itself if there is no other; bcType is Wall (3) on faces without partner and 0 on others. -/
def TablesOK (M : MM R) : Prop :=
  M.e2v.length = M.nf * M.k ∧ M.e2e.length = M.nf * M.k ∧ M.e2f.length = M.nf * M.k ∧ M.bc.length = M.nf * M.k ∧
  (∀ g < M.nf * M.k, ∃ h < M.nf * M.k, M.e2e.getD g 0 = h / M.nf ∧ M.e2f.getD g 0 = h % M.nf ∧
    ((h = g ∧ ∀ g' < M.nf * M.k, g' ≠ g → ¬ SameEdge M.nf M.e2v g g') ∨ (h ≠ g ∧ SameEdge M.nf M.e2v g h))) ∧
  (∀ g < M.nf * M.k, ((∀ g' < M.nf * M.k, g' ≠ g → ¬ SameEdge M.nf M.e2v g g') → M.bc.getD g 0 = 3) ∧
    ((∃ g' < M.nf * M.k, g' ≠ g ∧ SameEdge M.nf M.e2v g g') → M.bc.getD g 0 = 0))

/-! ### Lemmas -/

/-- Everything after the construction of EToV, from an element table with in-range, pairwise different vertices. -/
theorem finish_ok (wrap : Bool) (dim nv nf k : Nat) (vert : List R) (e2v : List Int) (hnf : nf = 3 ∨ nf = 4) (hd : 2 ≤ dim)
    (hvert : vert.length = dim * nv) (hlen : e2v.length = nf * k) (hv : ∀ v ∈ e2v, 0 ≤ v ∧ v < (nv : Int))
    (hdist : ∀ e < k, ∀ i < nf, ∀ j < nf, i ≠ j → vtx nf e2v e i ≠ vtx nf e2v e j)
    (hov : nv * (nf * k) ≤ intMax ∨ wrap = true ∧ nv * (nf * k) % 4294967296 ≠ 0) :
    ∃ M, finish wrap dim nv nf k vert e2v = .ok M ∧ ccw vert dim nf k e2v = .ok M.e2v ∧
      M.dim = dim ∧ M.nv = nv ∧ M.nf = nf ∧ M.k = k ∧ M.vert = vert ∧ TablesOK M := by
  obtain ⟨e', h1, h2, h3, _, h5⟩ := ccw_loop (nf := nf) (by omega) hd hvert hlen hv k (le_refl _)
  have hv' : ∀ v ∈ e', 0 ≤ v ∧ v < (nv : Int) := fun v h => hv v (h3 v h)
  have hdist' : ∀ e < k, ∀ i < nf, ∀ j < nf, i ≠ j → e'.getD (e * nf + i) 0 ≠ e'.getD (e * nf + j) 0 := by
    intro e he i hi j hj hne hc
    have hi' := h5 e he i hi
    have hj' := h5 e he j hj
    have : vtx nf e' e i = vtx nf e' e j := hc
    rw [hi', hj'] at this
    split_ifs at this <;> exact absurd this (hdist e he _ (by omega) _ (by omega) (by omega))
  obtain ⟨E, F, B, c1, c2, c3, c4⟩ := C22_boundary wrap nv nf k e' (List.replicate (k * nf) 0) (List.replicate (k * nf) 0)
    (List.replicate (k * nf) 0) hnf h2 hv' hdist' hov (by simp [Nat.mul_comm]) (by simp [Nat.mul_comm]) (by simp [Nat.mul_comm])
  obtain ⟨E', F', d1, d2, d3, d4⟩ := C21_connectivity wrap nv nf k e' (List.replicate (k * nf) 0) (List.replicate (k * nf) 0)
    hnf h2 hv' (distinct_ends hnf hdist') hov (by simp [Nat.mul_comm]) (by simp [Nat.mul_comm])
  rw [c1, Out.ok.injEq, Prod.mk.injEq] at d1
  obtain ⟨rfl, rfl⟩ := d1
  refine ⟨{ dim := dim, nv := nv, nf := nf, k := k, vert := vert, e2v := e', e2e := E, e2f := F, bc := B }, ?_, ?_, rfl, rfl, rfl, rfl, rfl,
    ⟨h2, d2, d3, c3, d4, c4⟩⟩
  · unfold finish ccw
    rw [h1, Out.bind_ok, c1, Out.bind_ok]
    simp only
    rw [c2]; rfl
  · exact h1

theorem flatMap_length_const {α : Type} (n : Nat) (l : List α) (f : α → List Int) (h : ∀ a ∈ l, (f a).length = n) :
    (l.flatMap f).length = n * l.length := by
  induction l with
  | nil => simp
  | cons a l ih =>
    rw [List.flatMap_cons, List.length_append, ih (fun x hx => h x (by simp [hx])), h a (by simp), List.length_cons, Nat.mul_succ]; omega

theorem flatMap_getD {α : Type} (n : Nat) (l : List α) (f : α → List Int) (h : ∀ a ∈ l, (f a).length = n) (e i : Nat) (he : e < l.length)
    (hi : i < n) : (l.flatMap f).getD (e * n + i) 0 = (f l[e]).getD i 0 := by
  induction l generalizing e with
  | nil => simp at he
  | cons a l ih =>
    have ha := h a (by simp)
    rw [List.flatMap_cons]
    cases e with
    | zero =>
      simp only [Nat.zero_mul, Nat.zero_add, List.getElem_cons_zero, List.getD_eq_getElem?_getD]
      rw [List.getElem?_append_left (by omega)]
    | succ e =>
      have := ih (fun x hx => h x (by simp [hx])) e (by simpa using he)
      rw [List.getElem_cons_succ, ← this]
      simp only [List.getD_eq_getElem?_getD]
      rw [List.getElem?_append_right (by rw [ha, Nat.succ_mul]; omega)]
      congr 2
      rw [ha, Nat.succ_mul]; omega

/-- `readMesh` of a file with this header and these nodes continues with the element loop, on a reader that stands behind the line with the number of element rows. -/
theorem readMesh_head (cv : Conv R) (wrap : Bool) (junk : R) (st : MM R) (text : Str) (fmt e1 cnt e2 ecnt : Str) (nls rem : List Str) (m : Nat)
    (hl : Lines text (["$MeshFormat".toList, fmt, e1, "$Nodes".toList, cnt] ++ nls ++ [e2, "$Elements".toList, ecnt] ++ rem))
    (nodes : List (Int × R × R × R))
    (hf : ∃ v t s, RowLine msep [v, t, s] fmt ∧ cv.version v = some true ∧ cv.int t = some 0 ∧ cv.int s = some 8)
    (hc : ∃ t, RowLine msep [t] cnt ∧ cv.int t = some (nodes.length : Int)) (hnodes : List.Forall₂ (NodeLine cv) nodes nls)
    (he : ∃ t, RowLine msep [t] ecnt ∧ cv.int t = some (m : Int))
    (hn : ∀ nd ∈ nodes, 1 ≤ nd.1 ∧ nd.1 ≤ (nodes.length : Int)) :
    ∃ r, Rel (["$MeshFormat".toList, fmt, e1, "$Nodes".toList, cnt] ++ nls ++ [e2, "$Elements".toList, ecnt]) rem r ∧ r.delims = ['\t', ' '] ∧ r.content = text ∧
      readMesh cv wrap junk st (some text) = (loopM (elemStep cv) (([], []), "$Elements".toList, r) (List.range m) >>= fun q => elemTable q.1.1 q.1.2 >>= fun t =>
        finish wrap 3 nodes.length t.1 t.2.1 (nodes.foldl putNode (List.replicate (nodes.length * 3) junk)) t.2.2) := by
  obtain ⟨fv, ft, fs, f1, f2, f3, f4⟩ := hf
  obtain ⟨ct, c1, c2⟩ := hc
  obtain ⟨et, t1, t2⟩ := he
  obtain ⟨r0, o1, o2, _, oc, _, o3, _⟩ := openReader_spec text _ hl 0 ['\t', ' '] (by decide) (Int.natCast_nonneg _)
  rw [Int.toNat_zero, List.take_zero, List.drop_zero] at o2
  have o2' : Rel [] ("$MeshFormat".toList :: fmt :: e1 :: "$Nodes".toList :: cnt :: (nls ++ (e2 :: "$Elements".toList :: ecnt :: rem))) r0 := by
    simpa using o2
  obtain ⟨r1, p1, q1, s1⟩ := expectLine_ok o2'
  obtain ⟨r2, p2, q2, s2, k2⟩ := readFormat_ok q1 (by rw [s1.delims, o3]) f1 f2 f3 f4
  obtain ⟨q3, s3⟩ := skip1_ok q2
  obtain ⟨r4, p4, q4, s4⟩ := expectLine_ok q3
  have d4 : r4.delims = ['\t', ' '] := by rw [s4.delims, s3.delims, s2, s1.delims, o3]
  have k4 : r4.content = text := by rw [s4.content, s3.content, k2, s1.content, oc]
  obtain ⟨r5, p5, q5, s5, k5⟩ := readCount_ok (old := st.nv) q4 d4 c1 c2
  obtain ⟨r6, p6, q6, s6, k6, -⟩ := nodes_ok nodes nls _ _ (setNumCols 4 r5) (List.replicate (nodes.length * 3) junk) nodes.length 0 hnodes
    (Rel.setNumCols q5 4) (by show r5.delims = _; rw [s5, d4]) rfl (by simp) hn
  have d6 : r6.delims = ['\t', ' '] := by rw [s6]; show r5.delims = _; rw [s5, d4]
  have k6' : r6.content = text := by rw [k6]; show r5.content = _; rw [k5, k4]
  obtain ⟨q7, s7⟩ := skip1_ok q6
  obtain ⟨r8, p8, q8, s8⟩ := expectLine_ok q7
  have d8 : r8.delims = ['\t', ' '] := by rw [s8.delims, s7.delims, d6]
  obtain ⟨r9, p9, q9, s9, k9⟩ := readCount_ok (old := 0) q8 d8 t1 t2
  refine ⟨r9, by simpa using q9, by rw [s9, d8], by rw [k9, s8.content, s7.content, k6'], ?_⟩
  unfold readMesh
  rw [o1, Out.bind_ok, p1, Out.bind_ok, p2, Out.bind_ok]
  simp only
  rw [p4, Out.bind_ok, p5, Out.bind_ok]
  simp only
  rw [if_neg (by omega), Int.toNat_natCast, List.range_eq_range', p6, Out.bind_ok]
  simp only
  rw [p8, Out.bind_ok, p9, Out.bind_ok]
  simp only
  rw [if_neg (by omega), Int.toNat_natCast]

/-- `readMesh` of a file with these contents continues with `finish` on the stored coordinates and the element table. -/
theorem readMesh_eq (cv : Conv R) (wrap : Bool) (junk : R) (st : MM R) (text : Str) (ls : List Str) (hl : Lines text ls)
    (nodes : List (Int × R × R × R)) (es : List Elem) (hf : MshFile cv nodes es ls)
    (hn : ∀ nd ∈ nodes, 1 ≤ nd.1 ∧ nd.1 ≤ (nodes.length : Int)) (ht : ∀ e ∈ es, e.typed) :
    readMesh cv wrap junk st (some text) = (elemTable ((kind 3 es).map Elem.row) ((kind 4 es).map Elem.row) >>= fun t =>
      finish wrap 3 nodes.length t.1 t.2.1 (nodes.foldl putNode (List.replicate (nodes.length * 3) junk)) t.2.2) := by
  obtain ⟨⟨fmt, e1, cnt, nls, e2, ecnt, els, tail, rfl, h1, h2, hnodes, h3, helems⟩⟩ := hf
  obtain ⟨r, q, d, -, e⟩ := readMesh_head cv wrap junk st text fmt e1 cnt e2 ecnt nls (els ++ tail) es.length (by simpa using hl) nodes h1 h2 hnodes h3 hn
  obtain ⟨r10, p10, -⟩ := elems_ok es els _ tail r ([], []) "$Elements".toList 0 helems q d ht
  rw [e, List.range_eq_range', p10, Out.bind_ok, foldl_addElem]
  simp only [List.nil_append]

/-! ### C61 and C24 -/

/-- The element table has the claimed vertices. -/
theorem table_facts {es : List Elem} {nf nv : Nat} (hv : ∀ e ∈ kind nf es, ∀ v ∈ e.verts, 1 ≤ v ∧ v ≤ (nv : Int))
    (hd : ∀ e ∈ kind nf es, e.verts.Nodup) :
    ((kind nf es).flatMap fun e => e.verts.map (· - 1)).length = nf * (kind nf es).length ∧
    (∀ v ∈ (kind nf es).flatMap fun e => e.verts.map (· - 1), 0 ≤ v ∧ v < (nv : Int)) ∧
    (∀ e, ∀ he : e < (kind nf es).length, ∀ i < nf,
      vtx nf ((kind nf es).flatMap fun e => e.verts.map (· - 1)) e i = (kind nf es)[e].verts.getD i 0 - 1) ∧
    (∀ e < (kind nf es).length, ∀ i < nf, ∀ j < nf, i ≠ j →
      vtx nf ((kind nf es).flatMap fun e => e.verts.map (· - 1)) e i ≠ vtx nf ((kind nf es).flatMap fun e => e.verts.map (· - 1)) e j) := by
  have hlen : ∀ a ∈ kind nf es, (a.verts.map (· - 1)).length = nf := by
    intro a ha
    simp only [kind, List.mem_filter, decide_eq_true_eq] at ha
    simp [ha.2]
  have hget : ∀ e, ∀ he : e < (kind nf es).length, ∀ i < nf,
      vtx nf ((kind nf es).flatMap fun e => e.verts.map (· - 1)) e i = (kind nf es)[e].verts.getD i 0 - 1 := by
    intro e he i hi
    unfold vtx
    rw [flatMap_getD nf _ _ hlen e i he hi]
    have := hlen _ (List.getElem_mem he)
    rw [List.length_map] at this
    simp [show i < (kind nf es)[e].verts.length by omega]
  refine ⟨flatMap_length_const nf _ _ hlen, ?_, hget, ?_⟩
  · intro v hm
    obtain ⟨a, ha, hm⟩ := List.mem_flatMap.1 hm
    obtain ⟨w, hw, rfl⟩ := List.mem_map.1 hm
    have := hv a ha w hw
    omega
  · intro e he i hi j hj hne hc
    rw [hget e he i hi, hget e he j hj] at hc
    have hl := hlen _ (List.getElem_mem he)
    rw [List.length_map] at hl
    have hnd := hd _ (List.getElem_mem he)
    have hi' : i < (kind nf es)[e].verts.length := by omega
    have hj' : j < (kind nf es)[e].verts.length := by omega
    simp only [List.getD_eq_getElem?_getD, List.getElem?_eq_getElem hi', List.getElem?_eq_getElem hj', Option.getD_some] at hc
    exact hne ((List.Nodup.getElem_inj_iff hnd).1 (by omega))

/-- **C61 (and C24 for two tags), triangles.** A well-formed file whose triangles have two tags, vertex numbers in range and pairwise different vertices, without
quadrilaterals, is read without undefined behaviour; the object holds one element per triangle of the file, in file order, each with the file's vertices minus
one up to exchange of the last two, counter-clockwise; every node's coordinates at its place; and correct connectivity and boundary tables.
Nothing depends on the previous contents of the object or on uninitialised memory. -/
theorem C61_readMesh_triangles (cv : Conv R) (wrap : Bool) (junk : R) (st : MM R) (text : Str) (ls : List Str) (hl : Lines text ls)
    (nodes : List (Int × R × R × R)) (es : List Elem) (hf : MshFile cv nodes es ls)
    (hn : ∀ nd ∈ nodes, 1 ≤ nd.1 ∧ nd.1 ≤ (nodes.length : Int)) (hnd : (nodes.map Prod.fst).Nodup) (ht : ∀ e ∈ es, e.typed)
    (hq : kind 4 es = []) (htags : ∀ e ∈ kind 3 es, e.tags.length = 2)
    (hv : ∀ e ∈ kind 3 es, ∀ v ∈ e.verts, 1 ≤ v ∧ v ≤ (nodes.length : Int)) (hd : ∀ e ∈ kind 3 es, e.verts.Nodup)
    (hov : nodes.length * (3 * (kind 3 es).length) ≤ intMax) :
    ∃ M, readMesh cv wrap junk st (some text) = .ok M ∧ M.dim = 3 ∧ M.nv = nodes.length ∧ M.nf = 3 ∧ M.k = (kind 3 es).length ∧
      (∀ nd ∈ nodes, crd M.vert 3 (nd.1 - 1) 0 = nd.2.1 ∧ crd M.vert 3 (nd.1 - 1) 1 = nd.2.2.1 ∧ crd M.vert 3 (nd.1 - 1) 2 = nd.2.2.2) ∧
      (∀ e, ∀ he : e < (kind 3 es).length,
        (∃ a b c, (kind 3 es)[e].verts = [a, b, c] ∧
          ([vtx 3 M.e2v e 0, vtx 3 M.e2v e 1, vtx 3 M.e2v e 2] = [a - 1, b - 1, c - 1] ∨
           [vtx 3 M.e2v e 0, vtx 3 M.e2v e 1, vtx 3 M.e2v e 2] = [a - 1, c - 1, b - 1])) ∧
        0 ≤ area2 M.vert 3 (vtx 3 M.e2v e 0) (vtx 3 M.e2v e 1) (vtx 3 M.e2v e 2)) ∧
      TablesOK M := by
  obtain ⟨f1, f2, f3, f4⟩ := table_facts (nf := 3) hv hd
  have hvl : (nodes.foldl putNode (List.replicate (nodes.length * 3) junk)).length = 3 * nodes.length := by
    have : ∀ (l : List (Int × R × R × R)) (w : List R), (l.foldl putNode w).length = w.length := by
      intro l
      induction l with
      | nil => simp
      | cons x l ih => intro w; rw [List.foldl_cons, ih, putNode_length]
    rw [this, List.length_replicate, Nat.mul_comm]
  have hrows : elemTable ((kind 3 es).map Elem.row) ((kind 4 es).map Elem.row)
      = .ok (3, (kind 3 es).length, (kind 3 es).flatMap fun e => e.verts.map (· - 1)) := by
    have := elemRows_ok 3 (kind 3 es) [] (fun e he => ⟨htags e he, by
      simp only [kind, List.mem_filter, decide_eq_true_eq] at he; exact he.2⟩)
    unfold elemTable
    rw [hq]
    simp only [List.map_nil, List.isEmpty_nil, if_true]
    rw [this, Out.bind_ok]
    simp
  obtain ⟨M, m1, m2, m3, m4, m5, m6, m7, m8⟩ := finish_ok wrap 3 nodes.length 3 (kind 3 es).length _ _ (Or.inl rfl) (by omega) hvl f1 f2 f4 (Or.inl hov)
  obtain ⟨e', g1, _, _, g4⟩ := C23_triangles nodes.length 3 (kind 3 es).length _ _ (by omega) hvl f1 f2
  rw [g1, Out.ok.injEq] at m2
  subst m2
  refine ⟨M, ?_, m3, m4, m5, m6, ?_, ?_, m8⟩
  · rw [readMesh_eq cv wrap junk st text ls hl nodes es hf hn ht, hrows, Out.bind_ok]
    exact m1
  · intro nd hm
    have := nodes_value nodes nodes.length 0 hn hnd (List.replicate (nodes.length * 3) junk) (by simp) nd hm
    rw [← m7] at this
    exact this
  · intro e he
    obtain ⟨h1, h2, _, _⟩ := g4 e he
    rw [f3 e he 0 (by omega), f3 e he 1 (by omega), f3 e he 2 (by omega)] at h1
    have hvl3 : (kind 3 es)[e].verts.length = 3 := by
      have := List.getElem_mem he
      simp only [kind, List.mem_filter, decide_eq_true_eq] at this
      exact this.2
    constructor
    · obtain ⟨a, b, c, habc⟩ := List.length_eq_three.1 hvl3
      refine ⟨a, b, c, habc, ?_⟩
      rw [habc] at h1
      rcases h1 with ⟨x, y, z⟩ | ⟨x, y, z⟩
      · left; rw [x, y, z]; rfl
      · right; rw [x, y, z]; rfl
    · rw [m7]; exact h2

/-- **C61, quadrilaterals.** As `C61_readMesh_triangles` for a file with quadrilaterals (its triangles, if any, are dropped by the code): each element
has the file's vertices minus one, with the second and third exchanged exactly when the corner at the second vertex is clockwise (see
`C23_quad_bowtie` for what that does to clockwise elements). -/
theorem C61_readMesh_quads (cv : Conv R) (wrap : Bool) (junk : R) (st : MM R) (text : Str) (ls : List Str) (hl : Lines text ls)
    (nodes : List (Int × R × R × R)) (es : List Elem) (hf : MshFile cv nodes es ls)
    (hn : ∀ nd ∈ nodes, 1 ≤ nd.1 ∧ nd.1 ≤ (nodes.length : Int)) (hnd : (nodes.map Prod.fst).Nodup) (ht : ∀ e ∈ es, e.typed)
    (hq : kind 4 es ≠ []) (htags : ∀ e ∈ kind 4 es, e.tags.length = 2)
    (hv : ∀ e ∈ kind 4 es, ∀ v ∈ e.verts, 1 ≤ v ∧ v ≤ (nodes.length : Int)) (hd : ∀ e ∈ kind 4 es, e.verts.Nodup)
    (hov : nodes.length * (4 * (kind 4 es).length) ≤ intMax) :
    ∃ M, readMesh cv wrap junk st (some text) = .ok M ∧ M.dim = 3 ∧ M.nv = nodes.length ∧ M.nf = 4 ∧ M.k = (kind 4 es).length ∧
      (∀ nd ∈ nodes, crd M.vert 3 (nd.1 - 1) 0 = nd.2.1 ∧ crd M.vert 3 (nd.1 - 1) 1 = nd.2.2.1 ∧ crd M.vert 3 (nd.1 - 1) 2 = nd.2.2.2) ∧
      (∀ e, ∀ he : e < (kind 4 es).length,
        ∃ a b c d, (kind 4 es)[e].verts = [a, b, c, d] ∧
          (0 ≤ area2 M.vert 3 (a - 1) (b - 1) (c - 1) →
            [vtx 4 M.e2v e 0, vtx 4 M.e2v e 1, vtx 4 M.e2v e 2, vtx 4 M.e2v e 3] = [a - 1, b - 1, c - 1, d - 1]) ∧
          (area2 M.vert 3 (a - 1) (b - 1) (c - 1) < 0 →
            [vtx 4 M.e2v e 0, vtx 4 M.e2v e 1, vtx 4 M.e2v e 2, vtx 4 M.e2v e 3] = [a - 1, c - 1, b - 1, d - 1])) ∧
      TablesOK M := by
  obtain ⟨f1, f2, f3, f4⟩ := table_facts (nf := 4) hv hd
  have hvl : (nodes.foldl putNode (List.replicate (nodes.length * 3) junk)).length = 3 * nodes.length := by
    have : ∀ (l : List (Int × R × R × R)) (w : List R), (l.foldl putNode w).length = w.length := by
      intro l
      induction l with
      | nil => simp
      | cons x l ih => intro w; rw [List.foldl_cons, ih, putNode_length]
    rw [this, List.length_replicate, Nat.mul_comm]
  have hrows : elemTable ((kind 3 es).map Elem.row) ((kind 4 es).map Elem.row)
      = .ok (4, (kind 4 es).length, (kind 4 es).flatMap fun e => e.verts.map (· - 1)) := by
    have := elemRows_ok 4 (kind 4 es) [] (fun e he => ⟨htags e he, by
      simp only [kind, List.mem_filter, decide_eq_true_eq] at he; exact he.2⟩)
    have he : ((kind 4 es).map Elem.row).isEmpty = false := by
      cases h : kind 4 es with
      | nil => exact absurd h hq
      | cons a b => rfl
    unfold elemTable
    rw [he]
    simp only [Bool.false_eq_true, if_false]
    rw [this, Out.bind_ok]
    simp
  obtain ⟨M, m1, m2, m3, m4, m5, m6, m7, m8⟩ := finish_ok wrap 3 nodes.length 4 (kind 4 es).length _ _ (Or.inr rfl) (by omega) hvl f1 f2 f4 (Or.inl hov)
  obtain ⟨e', g1, _, _, _, g4⟩ := ccw_loop (nf := 4) (by omega) (by omega : 2 ≤ 3) hvl f1 f2 _ (le_refl _)
  rw [ccw, g1, Out.ok.injEq] at m2
  subst m2
  refine ⟨M, ?_, m3, m4, m5, m6, ?_, ?_, m8⟩
  · rw [readMesh_eq cv wrap junk st text ls hl nodes es hf hn ht, hrows, Out.bind_ok]
    exact m1
  · intro nd hm
    have := nodes_value nodes nodes.length 0 hn hnd (List.replicate (nodes.length * 3) junk) (by simp) nd hm
    rw [← m7] at this
    exact this
  · intro e he
    have a0 := g4 e he 0 (by omega)
    have a1 := g4 e he 1 (by omega)
    have a2 := g4 e he 2 (by omega)
    have a3 := g4 e he 3 (by omega)
    have hvl4 : (kind 4 es)[e].verts.length = 4 := by
      have := List.getElem_mem he
      simp only [kind, List.mem_filter, decide_eq_true_eq] at this
      exact this.2
    obtain ⟨a, b, c, d, habc⟩ : ∃ a b c d, (kind 4 es)[e].verts = [a, b, c, d] := by
      match h : (kind 4 es)[e].verts, hvl4 with
      | [a, b, c, d], _ => exact ⟨a, b, c, d, rfl⟩
    have v0 : vtx 4 ((kind 4 es).flatMap fun e => e.verts.map (· - 1)) e 0 = a - 1 := by rw [f3 e he 0 (by omega), habc]; rfl
    have v1 : vtx 4 ((kind 4 es).flatMap fun e => e.verts.map (· - 1)) e 1 = b - 1 := by rw [f3 e he 1 (by omega), habc]; rfl
    have v2 : vtx 4 ((kind 4 es).flatMap fun e => e.verts.map (· - 1)) e 2 = c - 1 := by rw [f3 e he 2 (by omega), habc]; rfl
    have v3 : vtx 4 ((kind 4 es).flatMap fun e => e.verts.map (· - 1)) e 3 = d - 1 := by rw [f3 e he 3 (by omega), habc]; rfl
    rw [v0, v1, v2, ← m7] at a0 a1 a2 a3
    refine ⟨a, b, c, d, habc, ?_, ?_⟩
    · intro hc
      simp only [if_neg (not_lt.2 hc)] at a0 a1 a2 a3
      rw [a0, a1, a2, a3, v0, v1, v2, v3]
    · intro hc
      simp only [if_pos hc] at a0 a1 a2 a3
      norm_num at a0 a1 a2 a3
      rw [a0, a1, a2, a3, v0, v1, v2, v3]

/-! ### A concrete file -/

/-- Decimal natural numbers, for the concrete cases. -/
def natConv (s : Str) : Option Nat :=
  if s.isEmpty then none else s.foldl (fun acc c => acc.bind fun n =>
    if '0'.toNat ≤ c.toNat ∧ c.toNat ≤ '9'.toNat then some (10 * n + (c.toNat - '0'.toNat)) else none) (some 0)

def exConv : Conv ℚ :=
  { int := fun s => (natConv s).map fun n => (n : Int), real := fun s => (natConv s).map fun n => (n : ℚ),
    stoi := fun s => (natConv s).map fun n => (n : Int), version := fun s => some (s == "2.2".toList) }

/-- Two triangles (the first clockwise) sharing an edge; a line element before them. -/
def exText : Str :=
  "$MeshFormat\n2.2 0 8\n$EndMeshFormat\n$Nodes\n4\n1 0 0 0\n2 1 0 0\n4 0 1 0\n3 1 1 0\n$EndNodes\n$Elements\n3\n1 1 2 0 1 1 2\n2 2 2 0 6 1 3 2\n3 2 2 0 6 1 3 4\n$EndElements\n".toList

def exNodes : List (Int × ℚ × ℚ × ℚ) := [(1, 0, 0, 0), (2, 1, 0, 0), (4, 0, 1, 0), (3, 1, 1, 0)]

def exElems : List Elem := [⟨1, 1, [0, 1], [1, 2]⟩, ⟨2, 2, [0, 6], [1, 3, 2]⟩, ⟨3, 2, [0, 6], [1, 3, 4]⟩]

def exLines : List Str := ["$MeshFormat".toList, "2.2 0 8".toList, "$EndMeshFormat".toList, "$Nodes".toList, "4".toList] ++
  ["1 0 0 0".toList, "2 1 0 0".toList, "4 0 1 0".toList, "3 1 1 0".toList] ++ ["$EndNodes".toList, "$Elements".toList, "3".toList] ++
  ["1 1 2 0 1 1 2".toList, "2 2 2 0 6 1 3 2".toList, "3 2 2 0 6 1 3 4".toList] ++ ["$EndElements".toList]

/-- Joining by single blanks. -/
def joinBlank : List Str → Str
  | [] => []
  | [t] => t
  | t :: ts => t ++ [' '] ++ joinBlank ts

theorem joinBlank_joined : ∀ (ts : List Str), ts ≠ [] → Joined msep ts (joinBlank ts)
  | [t], _ => .one t
  | t :: u :: ts, _ => .cons t [' '] (by simp) (by decide) (joinBlank_joined (u :: ts) (by simp))

theorem joinBlank_row (ts : List Str) (hne : ts ≠ []) (h : ∀ t ∈ ts, t ≠ [] ∧ ∀ c ∈ t, msep c = false)
    (h1 : ∀ c, (joinBlank ts).head? = some c → isSpace c = false) (h2 : ∀ c, (joinBlank ts).getLast? = some c → isSpace c = false) :
    RowLine msep ts (joinBlank ts) :=
  ⟨[], joinBlank ts, [], by simp, by simp [Blank], by simp [Blank], joinBlank_joined ts hne, h, h1, h2⟩

theorem exRow (ts : List Str) (hne : ts ≠ []) (h : ∀ t ∈ ts, t ≠ [] ∧ ∀ c ∈ t, msep c = false)
    (h1 : ((joinBlank ts).head?.all fun c => !isSpace c) = true) (h2 : ((joinBlank ts).getLast?.all fun c => !isSpace c) = true) :
    RowLine msep ts (joinBlank ts) := by
  apply joinBlank_row ts hne h
  · intro c hc; rw [hc] at h1; simpa using h1
  · intro c hc; rw [hc] at h2; simpa using h2

/-- The hypotheses of `C61_readMesh_triangles` on the file: contents. -/
theorem exFile : MshFile exConv exNodes exElems exLines where
  lines := by
    refine ⟨_, _, _, _, _, _, _, _, rfl, ?_, ?_, ?_, ?_, ?_⟩
    · exact ⟨"2.2".toList, "0".toList, "8".toList, exRow ["2.2".toList, "0".toList, "8".toList] (by decide) (by decide) (by decide) (by decide),
        by decide, by decide, by decide⟩
    · exact ⟨"4".toList, exRow ["4".toList] (by decide) (by decide) (by decide) (by decide), by decide⟩
    · refine .cons ?_ (.cons ?_ (.cons ?_ (.cons ?_ .nil)))
      · exact ⟨['1'], ['0'], ['0'], ['0'], exRow [['1'], ['0'], ['0'], ['0']] (by decide) (by decide) (by decide) (by decide), by decide +kernel, by decide +kernel, by decide +kernel, by decide +kernel⟩
      · exact ⟨['2'], ['1'], ['0'], ['0'], exRow [['2'], ['1'], ['0'], ['0']] (by decide) (by decide) (by decide) (by decide), by decide +kernel, by decide +kernel, by decide +kernel, by decide +kernel⟩
      · exact ⟨['4'], ['0'], ['1'], ['0'], exRow [['4'], ['0'], ['1'], ['0']] (by decide) (by decide) (by decide) (by decide), by decide +kernel, by decide +kernel, by decide +kernel, by decide +kernel⟩
      · exact ⟨['3'], ['1'], ['1'], ['0'], exRow [['3'], ['1'], ['1'], ['0']] (by decide) (by decide) (by decide) (by decide), by decide +kernel, by decide +kernel, by decide +kernel, by decide +kernel⟩
    · exact ⟨"3".toList, exRow ["3".toList] (by decide) (by decide) (by decide) (by decide), by decide⟩
    · refine .cons ?_ (.cons ?_ (.cons ?_ .nil))
      · exact ⟨[['1'], ['1'], ['2'], ['0'], ['1'], ['1'], ['2']], joinBlank_joined [['1'], ['1'], ['2'], ['0'], ['1'], ['1'], ['2']] (by simp), by decide, by decide +kernel⟩
      · exact ⟨[['2'], ['2'], ['2'], ['0'], ['6'], ['1'], ['3'], ['2']], joinBlank_joined [['2'], ['2'], ['2'], ['0'], ['6'], ['1'], ['3'], ['2']] (by simp), by decide, by decide +kernel⟩
      · exact ⟨[['3'], ['2'], ['2'], ['0'], ['6'], ['1'], ['3'], ['4']], joinBlank_joined [['3'], ['2'], ['2'], ['0'], ['6'], ['1'], ['3'], ['4']] (by simp), by decide, by decide +kernel⟩

/-- What `readMesh` makes of the file. -/
example : readMesh exConv false 77 MM.new (some exText) = .ok
    { dim := 3, nv := 4, nf := 3, k := 2, vert := [0, 0, 0, 1, 0, 0, 1, 1, 0, 0, 1, 0], e2v := [0, 1, 2, 0, 2, 3],
      e2e := [0, 0, 1, 0, 1, 1], e2f := [0, 1, 0, 2, 1, 2], bc := [3, 3, 0, 0, 3, 3] } := by decide +kernel

/-! ### C24 -/

/-- **C24 (partial).** For a triangle or quadrilateral row with exactly two tags the stored vertices are the row's vertices minus one.  Missing:
other numbers of tags, for which the claim fails (`C24_three_tags`, `C24_one_tag_ub`). -/
theorem C24_two_tags_partial (e : Elem) (nf : Nat) (ht : e.tags.length = 2) (hv : e.verts.length = nf) :
    elemVerts nf e.row = .ok (e.verts.map (· - 1)) := elemVerts_ok e nf ht hv

example : elemVerts 3 (Elem.row ⟨4, 2, [7, 8], [1, 5, 3]⟩) = .ok [0, 4, 2] := by decide

/-- With three tags, the stored triangle is always (third tag, first vertex, second vertex), whatever the file says. -/
theorem C24_three_tags (id ty t1 t2 t3 a b c : Int) :
    elemVerts 3 (Elem.row ⟨id, ty, [t1, t2, t3], [a, b, c]⟩) = .ok [t3 - 1, a - 1, b - 1] := rfl

/-- With one tag (or none), a triangle row is read past its end. -/
theorem C24_one_tag_ub (id ty t a b c : Int) : elemVerts 3 (Elem.row ⟨id, ty, [t], [a, b, c]⟩) = .ub ∧
    elemVerts 3 (Elem.row ⟨id, ty, [], [a, b, c]⟩) = .ub := ⟨rfl, rfl⟩

/-- The same on a whole file: a triangle (1,2,3) written with three tags is stored as vertices (3,0,1), i.e. it contains node 4. -/
theorem C24_file_wrong : ∃ M, readMesh exConv false 77 MM.new (some
    "$MeshFormat\n2.2 0 8\n$EndMeshFormat\n$Nodes\n4\n1 0 0 0\n2 1 0 0\n4 0 1 0\n3 1 1 0\n$EndNodes\n$Elements\n1\n1 2 3 0 6 4 1 2 3\n$EndElements\n".toList) = .ok M ∧
    M.e2v = [3, 0, 1] :=
  ⟨{ dim := 3, nv := 4, nf := 3, k := 1, vert := [0, 0, 0, 1, 0, 0, 1, 1, 0, 0, 1, 0], e2v := [3, 0, 1],
      e2e := [0, 0, 0], e2f := [0, 1, 2], bc := [3, 3, 3] }, by decide +kernel, rfl⟩

/-! ### C25 -/

/-- **C25 fails.** `readElements` of any file with at least one triangle on an object without vertices (in particular a new one) writes
out of bounds. -/
theorem C25_elements_first_ub (cv : Conv R) (wrap : Bool) (st : MM R) (file : Option Str) (n : Nat) (data : List Int) (hnv : st.nv = 0) (hn : 0 < n)
    (hcsv : csvread cv.int file 0 ['\t', ' '] = .ok (n, 3, data)) :
    readElements cv wrap st file = .ub := by
  unfold readElements
  rw [hcsv, Out.bind_ok]
  simp only [Int.reduceToNat, if_true, hnv]
  have hub : buildVToF wrap 0 3 n data = .ub := by
    unfold buildVToF
    have hal : Sparse.cscAlloc wrap 0 (3 * n) (2 * (3 * n)) = .ok ({ (Sparse.spalloc 0 (3 * n) 0 : Sparse.Csc Nat) with m := 0, n := 0 }) := by
      simp [Sparse.cscAlloc, Sparse.prodIsZero]
    rw [hal, Out.bind_ok, rowMajor_eq n 3 (by omega)]
    obtain ⟨m, rfl⟩ : ∃ m, n = m + 1 := ⟨n - 1, by omega⟩
    have hr : List.range (3 * (m + 1)) = 0 :: (List.range (3 * m + 2)).map (· + 1) := by
      rw [show 3 * (m + 1) = (3 * m + 2) + 1 by ring, List.range_succ_eq_map]
    rw [hr, List.map_cons, loopM_cons]
    have hstep : vtofStep 3 data (({ (Sparse.spalloc 0 (3 * (m + 1)) 0 : Sparse.Csc Nat) with m := 0, n := 0 }), 0, 0) (0 / 3, 0 % 3) = .ub := by
      unfold vtofStep
      simp only [Sparse.spalloc]
      rw [wr_of_lt (by simp), Out.bind_ok]
      simp only [localVert, Nat.zero_mod, Nat.zero_div, Nat.zero_mul, Nat.zero_add]
      rw [if_neg (by omega), rd_of_lt (by simp), Out.bind_ok]
      simp only [List.getElem_cons_zero]
      cases h1 : (rd data 0 >>= toIx) with
      | throws => 
        simp only [rd] at h1
        cases h : data[0]? with
        | none => simp [h] at h1
        | some v => simp only [h, Out.bind_ok, toIx] at h1; split_ifs at h1
      | ub => rfl
      | ok v1 =>
        rw [Out.bind_ok]
        cases h2 : (rd data 1 >>= toIx) with
        | throws =>
          simp only [rd] at h2
          cases h : data[1]? with
          | none => simp [h] at h2
          | some v => simp only [h, Out.bind_ok, toIx] at h2; split_ifs at h2
        | ub => rfl
        | ok v2 =>
          rw [Out.bind_ok, wr_of_lt (by simp), Out.bind_ok]
          simp [wr]
    rw [hstep]; rfl
  simp only [buildConnectivity, hub, Out.bind_ub]

example : readElements exConv true MM.new (some "0 1 2\n".toList) = .ub := by decide +kernel

/-- **C25 (partial).** In the other order, on any object: after `readVertices` of `nv` rows and `readElements` of a triangle file with
vertex numbers below `nv` and pairwise different vertices per row, all tables are available and correct and hold the files' data. -/
theorem C25_vertices_first_partial (cv : Conv R) (wrap : Bool) (st : MM R) (vfile efile : Option Str) (nv k : Nat) (dim : Int) (vdata : List R) (data : List Int)
    (hv : csvread cv.real vfile 0 ['\t', ' '] = .ok (nv, dim, vdata)) (he : csvread cv.int efile 0 ['\t', ' '] = .ok (k, 3, data))
    (hlen : data.length = 3 * k) (hr : ∀ v ∈ data, 0 ≤ v ∧ v < (nv : Int))
    (hd : ∀ e < k, ∀ i < 3, ∀ j < 3, i ≠ j → data.getD (e * 3 + i) 0 ≠ data.getD (e * 3 + j) 0)
    (hov : nv * (3 * k) ≤ intMax) :
    ∃ st1 st2, readVertices cv st vfile = .ok st1 ∧ readElements cv wrap st1 efile = .ok st2 ∧ st2.vert = vdata ∧ st2.nv = nv ∧
      st2.dim = dim.toNat ∧ st2.e2v = data ∧ st2.k = k ∧ st2.nf = 3 ∧ TablesOK st2 := by
  obtain ⟨E, F, B, c1, c2, c3, c4⟩ := C22_boundary wrap nv 3 k data (List.replicate (k * 3) 0) (List.replicate (k * 3) 0)
    (List.replicate (k * 3) 0) (Or.inl rfl) hlen hr hd (Or.inl hov) (by simp [Nat.mul_comm]) (by simp [Nat.mul_comm]) (by simp [Nat.mul_comm])
  obtain ⟨E', F', d1, d2, d3, d4⟩ := C21_connectivity wrap nv 3 k data (List.replicate (k * 3) 0) (List.replicate (k * 3) 0)
    (Or.inl rfl) hlen hr (distinct_ends (Or.inl rfl) hd) (Or.inl hov) (by simp [Nat.mul_comm]) (by simp [Nat.mul_comm])
  rw [c1, Out.ok.injEq, Prod.mk.injEq] at d1
  obtain ⟨rfl, rfl⟩ := d1
  refine ⟨{ st with nv := nv, dim := dim.toNat, vert := vdata },
    { dim := dim.toNat, nv := nv, nf := 3, k := k, vert := vdata, e2v := data, e2e := E, e2f := F, bc := B }, ?_, ?_, rfl, rfl, rfl, rfl, rfl, rfl,
    ⟨hlen, d2, d3, c3, d4, c4⟩⟩
  · unfold readVertices; rw [hv]; rfl
  · unfold readElements
    rw [he, Out.bind_ok]
    simp only [Int.reduceToNat, if_true]
    rw [c1, Out.bind_ok]
    simp only
    rw [c2]; rfl

example : ∃ st1, readVertices exConv MM.new (some "0 0\n1 0\n0 1\n1 1\n".toList) = .ok st1 ∧
    readElements exConv true st1 (some "0 1 2\n1 3 2\n".toList) = .ok
      { dim := 2, nv := 4, nf := 3, k := 2, vert := [0, 0, 1, 0, 0, 1, 1, 1], e2v := [0, 1, 2, 1, 3, 2],
        e2e := [0, 1, 0, 1, 1, 0], e2f := [0, 2, 2, 0, 1, 1], bc := [3, 0, 3, 3, 3, 0] } :=
  ⟨{ (MM.new : MM ℚ) with dim := 2, nv := 4, vert := [0, 0, 1, 0, 0, 1, 1, 1] }, by decide +kernel, by decide +kernel⟩

/-! ### C62 -/

/-- **C62.** A file that does not start with `$MeshFormat`, or whose format line names an unsupported version, a binary file or a
float size other than 8, or that has no `$Nodes` line behind the header, is rejected with an exception. -/
theorem C62_rejects (cv : Conv R) (wrap : Bool) (junk : R) (st : MM R) (text : Str) (ls : List Str) (hl : Lines text ls)
    (hbad : ls.head? ≠ some "$MeshFormat".toList ∨
      ∃ fmt rest v t s okv ft fs, ls = "$MeshFormat".toList :: fmt :: rest ∧ RowLine msep [v, t, s] fmt ∧
        cv.version v = some okv ∧ cv.int t = some ft ∧ cv.int s = some fs ∧
        (okv = false ∨ ft ≠ 0 ∨ fs ≠ 8 ∨ rest[1]? ≠ some "$Nodes".toList)) :
    readMesh cv wrap junk st (some text) = .throws := by
  obtain ⟨r0, o1, o2, _, _, _, o3, _⟩ := openReader_spec text _ hl 0 ['\t', ' '] (by decide) (Int.natCast_nonneg _)
  rw [Int.toNat_zero, List.take_zero, List.drop_zero] at o2
  unfold readMesh
  rw [o1, Out.bind_ok]
  rcases hbad with hh | ⟨fmt, rest, v, t, s, okv, ft, fs, rfl, hr, hv, ht, hs, hb⟩
  · have : expectLine "$MeshFormat".toList r0 = .throws := by
      cases ls with
      | nil =>
        obtain ⟨r', e, _⟩ := readLine_nil o2
        simp [expectLine, e]
      | cons l ls =>
        obtain ⟨r', e, _⟩ := readLine_cons o2
        simp only [expectLine, e]
        rw [if_neg]
        intro hc; exact hh (by simp [hc])
    rw [this]; rfl
  · obtain ⟨r1, p1, q1, s1⟩ := expectLine_ok o2
    have d1 : r1.delims = ['\t', ' '] := by rw [s1.delims, o3]
    rw [p1, Out.bind_ok]
    obtain ⟨r', e, h1, h2⟩ := rowToks_ok (n := 3) (Rel.setNumCols q1 3) d1 hr rfl rfl
    have hfmt : readFormat cv r1 = if okv = true ∧ ft = 0 ∧ fs = 8 then .ok r' else .throws := by
      unfold readFormat
      rw [e, Out.bind_ok]
      simp only [hv, ht, hs, get, Out.bind_ok]
      cases okv <;> by_cases a : ft = 0 <;> by_cases b : fs = 8 <;> simp [a, b]
    by_cases hc : okv = true ∧ ft = 0 ∧ fs = 8
    · rw [hfmt, if_pos hc, Out.bind_ok]
      simp only
      have hb' : rest[1]? ≠ some "$Nodes".toList := by
        obtain ⟨x, y, z⟩ := hc
        rcases hb with hb | hb | hb | hb
        · rw [x] at hb; cases hb
        · exact absurd y hb
        · exact absurd z hb
        · exact hb
      have : expectLine "$Nodes".toList (skipLines 1 r') = .throws := by
        cases rest with
        | nil =>
          have : Rel ([] ++ ["$MeshFormat".toList] ++ [fmt]) [] (skipLines 1 r') := by
            obtain ⟨x, _⟩ := skipLoop_failed 1 _ _ h1
            exact x
          obtain ⟨r'', e, _⟩ := readLine_nil this
          simp [expectLine, e]
        | cons x rest =>
          obtain ⟨q3, _⟩ := skip1_ok h1
          cases rest with
          | nil =>
            obtain ⟨r'', e, _⟩ := readLine_nil q3
            simp [expectLine, e]
          | cons y rest =>
            obtain ⟨r'', e, _⟩ := readLine_cons q3
            simp only [expectLine, e]
            rw [if_neg]
            intro hc; exact hb' (by simp [hc])
      rw [this]; rfl
    · rw [hfmt, if_neg hc]; rfl

/-- Windows line ends are enough for rejection. -/
example : readMesh exConv true 0 MM.new (some "$MeshFormat\r\n2.2 0 8\r\n".toList) = .throws := by decide +kernel
example : readMesh exConv true 0 MM.new (some "$MeshFormat\n4.1 0 8\n$EndMeshFormat\n".toList) = .throws := by decide +kernel

/-- **C62, element rows.** A row of 1 to 4 vertices whose type code does not belong to that number of vertices is rejected. -/
theorem C62_row_type (cv : Conv R) (s : List (List Int) × List (List Int)) (e : Elem) (toks : List Str)
    (h : toks.map cv.stoi = e.row.map some) (hv : 1 ≤ e.verts.length ∧ e.verts.length ≤ 4) (ht : ¬ e.typed) : elemRow cv s toks = .throws := by
  have hl : toks.length = e.row.length := by simpa using congrArg List.length h
  have hrl : e.row.length = 3 + e.tags.length + e.verts.length := by simp [Elem.row]; omega
  have h1 := rd_get cv h (i := 1) (by omega)
  have h2 := rd_get cv h (i := 2) (by omega)
  have e1 : e.row[1]'(by omega) = e.ty := by simp [Elem.row]
  have e2 : e.row[2]'(by omega) = e.tags.length := by simp [Elem.row]
  unfold elemRow
  rw [h1, Out.bind_ok, h2, Out.bind_ok, e1, e2]
  have hnl : ((toks.length : Int) - (e.tags.length : Int) - 3) = e.verts.length := by omega
  simp only [hnl]
  unfold Elem.typed at ht
  obtain ⟨n, hn⟩ : ∃ n, e.verts.length = n := ⟨_, rfl⟩
  rw [hn] at ht hv ⊢
  obtain ⟨hv1, hv2⟩ := hv
  interval_cases n
  · simp at ht ⊢; exact fun h => absurd h ht
  · simp at ht ⊢; exact fun h => absurd h ht
  · simp at ht ⊢; exact fun h => absurd h ht
  · simp at ht ⊢; exact fun h => absurd h ht

end Blitzdg.Mesh
