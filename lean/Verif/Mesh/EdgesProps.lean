import Verif.Mesh.Edges
import Mathlib.Tactic.Linarith

/-!
C127: boundary tags of mesh files.
-/

namespace Blitzdg.Mesh

open Blitzdg.Csv

/-! ### Reading -/

section
variable {R : Type} [Field R] [LinearOrder R] [IsStrictOrderedRing R]

theorem flatMap_verts (l : List Elem) : (l.flatMap fun e => e.verts.map (· - 1)) = (l.map Elem.verts).flatMap fun v => v.map (· - 1) := by
  induction l with
  | nil => rfl
  | cons e l ih => rw [List.flatMap_cons, ih, List.map_cons, List.flatMap_cons]

theorem table_verts {es : List Elem} (h3 : ∀ e ∈ kind 3 es, e.tags.length = 2) (h4 : ∀ e ∈ kind 4 es, e.tags.length = 2) :
    elemTable ((kind 3 es).map Elem.row) ((kind 4 es).map Elem.row) =
      if ((kind 4 es).map Elem.verts).isEmpty then .ok (3, ((kind 3 es).map Elem.verts).length, ((kind 3 es).map Elem.verts).flatMap fun v => v.map (· - 1))
      else .ok (4, ((kind 4 es).map Elem.verts).length, ((kind 4 es).map Elem.verts).flatMap fun v => v.map (· - 1)) := by
  have hk : ∀ n, ∀ e ∈ kind n es, e.verts.length = n := by
    intro n e he
    simp only [kind, List.mem_filter, decide_eq_true_eq] at he
    exact he.2
  have r3 := elemRows_ok 3 (kind 3 es) [] fun e he => ⟨h3 e he, hk 3 e he⟩
  have r4 := elemRows_ok 4 (kind 4 es) [] fun e he => ⟨h4 e he, hk 4 e he⟩
  unfold elemTable
  by_cases h : kind 4 es = []
  · rw [h]
    simp only [List.map_nil, List.isEmpty_nil, if_true]
    rw [r3, Out.bind_ok, flatMap_verts]
    simp
  · have e1 : ((kind 4 es).map Elem.row).isEmpty = false := by simpa using h
    have e2 : ((kind 4 es).map Elem.verts).isEmpty = false := by simpa using h
    simp only [e1, e2, Bool.false_eq_true, if_false]
    rw [r4, Out.bind_ok, flatMap_verts]
    simp

/-- **C127, refuted: tags of the file reach the boundary table.** Two files with the same nodes and the same vertices in their triangles and quadrilaterals, however much their line elements, point elements and tags differ, give the
same mesh object (or fail in the same way). -/
theorem C127_tags_ignored (cv : Conv R) (wrap : Bool) (junk : R) (st : MM R) {text text' : Str} {ls ls' : List Str} (hl : Lines text ls) (hl' : Lines text' ls') {nodes : List (Int × R × R × R)} {es es' : List Elem}
    (hf : MshFile cv nodes es ls) (hf' : MshFile cv nodes es' ls') (hn : ∀ nd ∈ nodes, 1 ≤ nd.1 ∧ nd.1 ≤ (nodes.length : Int)) (ht : ∀ e ∈ es, e.typed) (ht' : ∀ e ∈ es', e.typed)
    (h3 : ∀ e ∈ kind 3 es, e.tags.length = 2) (h4 : ∀ e ∈ kind 4 es, e.tags.length = 2) (h3' : ∀ e ∈ kind 3 es', e.tags.length = 2) (h4' : ∀ e ∈ kind 4 es', e.tags.length = 2)
    (e3 : (kind 3 es).map Elem.verts = (kind 3 es').map Elem.verts) (e4 : (kind 4 es).map Elem.verts = (kind 4 es').map Elem.verts) :
    readMesh cv wrap junk st (some text) = readMesh cv wrap junk st (some text') := by
  rw [readMesh_eq cv wrap junk st text ls hl nodes es hf hn ht, readMesh_eq cv wrap junk st text' ls' hl' nodes es' hf' hn ht', table_verts h3 h4, table_verts h3' h4', e3, e4]

/-- **C127, what the boundary table holds instead.** On every mesh read from triangles with two tags all boundary faces are walls (3) and all others carry 0; no other tag occurs. -/
theorem C127_walls_only (cv : Conv R) (wrap : Bool) (junk : R) (st : MM R) (text : Str) (ls : List Str) (hl : Lines text ls)
    (nodes : List (Int × R × R × R)) (es : List Elem) (hf : MshFile cv nodes es ls)
    (hn : ∀ nd ∈ nodes, 1 ≤ nd.1 ∧ nd.1 ≤ (nodes.length : Int)) (hnd : (nodes.map Prod.fst).Nodup) (ht : ∀ e ∈ es, e.typed)
    (hq : kind 4 es = []) (htags : ∀ e ∈ kind 3 es, e.tags.length = 2)
    (hv : ∀ e ∈ kind 3 es, ∀ v ∈ e.verts, 1 ≤ v ∧ v ≤ (nodes.length : Int)) (hd : ∀ e ∈ kind 3 es, e.verts.Nodup)
    (hov : nodes.length * (3 * (kind 3 es).length) ≤ intMax) :
    ∃ M, readMesh cv wrap junk st (some text) = .ok M ∧ M.bc.length = 3 * (kind 3 es).length ∧ ∀ b ∈ M.bc, b = 0 ∨ b = 3 := by
  obtain ⟨M, h1, -, -, h4, h5, -, -, -, -, -, h6, -, h7⟩ := C61_readMesh_triangles cv wrap junk st text ls hl nodes es hf hn hnd ht hq htags hv hd hov
  refine ⟨M, h1, by rw [h6, h4, h5], fun b hb => ?_⟩
  obtain ⟨g, hg, rfl⟩ := List.getElem_of_mem hb
  have hg' : g < M.nf * M.k := by rw [← h6]; exact hg
  obtain ⟨a1, a2⟩ := h7 g hg'
  rw [List.getD_eq_getElem _ _ hg] at a1 a2
  by_cases h : ∃ g' < M.nf * M.k, g' ≠ g ∧ SameEdge M.nf M.e2v g g'
  · exact Or.inl (a2 h)
  · exact Or.inr (a1 fun g' hg1 hg2 hs => h ⟨g', hg1, hg2, hs⟩)

end

/-- The file of C61 with the line element on the side from node 1 to node 2 tagged as outflow (2). -/
def outText : Str :=
  "$MeshFormat\n2.2 0 8\n$EndMeshFormat\n$Nodes\n4\n1 0 0 0\n2 1 0 0\n4 0 1 0\n3 1 1 0\n$EndNodes\n$Elements\n3\n1 1 2 2 1 1 2\n2 2 2 0 6 1 3 2\n3 2 2 0 6 1 3 4\n$EndElements\n".toList

/-- The outflow side is a wall after reading. -/
theorem C127_outflow_lost : readMesh exConv false 77 MM.new (some outText) = readMesh exConv false 77 MM.new (some exText) ∧ ∃ M, readMesh exConv false 77 MM.new (some outText) = .ok M ∧ M.bc = [3, 3, 0, 0, 3, 3] :=
  ⟨by decide +kernel,
    { dim := 3, nv := 4, nf := 3, k := 2, vert := [0, 0, 0, 1, 0, 0, 1, 1, 0, 0, 1, 0], e2v := [0, 1, 2, 0, 2, 3],
      e2e := [0, 0, 1, 0, 1, 1], e2f := [0, 1, 0, 2, 1, 2], bc := [3, 3, 0, 0, 3, 3] }, by decide +kernel, rfl⟩

def outElems : List Elem := [⟨1, 1, [2, 1], [1, 2]⟩, ⟨2, 2, [0, 6], [1, 3, 2]⟩, ⟨3, 2, [0, 6], [1, 3, 4]⟩]

def outLines : List Str := ["$MeshFormat".toList, "2.2 0 8".toList, "$EndMeshFormat".toList, "$Nodes".toList, "4".toList] ++
  ["1 0 0 0".toList, "2 1 0 0".toList, "4 0 1 0".toList, "3 1 1 0".toList] ++ ["$EndNodes".toList, "$Elements".toList, "3".toList] ++
  ["1 1 2 2 1 1 2".toList, "2 2 2 0 6 1 3 2".toList, "3 2 2 0 6 1 3 4".toList] ++ ["$EndElements".toList]

/-- The file is one that `C127_tags_ignored` compares with the file of C61. -/
theorem outFile : MshFile exConv exNodes outElems outLines where
  lines := by
    refine ⟨_, _, _, _, _, _, _, _, rfl, ?_, ?_, ?_, ?_, ?_⟩
    · exact ⟨"2.2".toList, "0".toList, "8".toList, exRow ["2.2".toList, "0".toList, "8".toList] (by decide) (by decide) (by decide) (by decide),
        by decide, by decide, by decide⟩
    · exact ⟨"4".toList, exRow ["4".toList] (by decide) (by decide) (by decide) (by decide), by decide⟩
    · refine .cons ?_ (.cons ?_ (.cons ?_ (.cons ?_ .nil)))
      · exact ⟨['1'], ['0'], ['0'], ['0'], exRow [['1'], ['0'], ['0'], ['0']] (by decide) (by decide) (by decide) (by decide), by decide +kernel, by decide +kernel, by decide +kernel, by decide +kernel⟩
      · exact ⟨['2'], ['1'], ['0'], ['0'], exRow [['2'], ['1'], ['0'], ['0']] (by decide) (by decide) (by decide) (by decide), by decide +kernel, by decide +kernel, by decide +kernel, by decide +kernel⟩
      · exact ⟨['4'], ['0'], ['1'], ['0'], exRow [['4'], ['0'], ['1'], ['0']] (by decide) (by decide) (by decide) (by decide), by decide +kernel, by decide +kernel, by decide +kernel, by decide +kernel⟩
      · exact ⟨['3'], ['1'], ['1'], ['0'], exRow [['3'], ['1'], ['1'], ['0']] (by decide) (by decide) (by decide) (by decide), by decide +kernel, by decide +kernel, by decide +kernel, by decide +kernel⟩
    · exact ⟨"3".toList, exRow ["3".toList] (by decide) (by decide) (by decide) (by decide), by decide⟩
    · refine .cons ?_ (.cons ?_ (.cons ?_ .nil))
      · exact ⟨[['1'], ['1'], ['2'], ['2'], ['1'], ['1'], ['2']], joinBlank_joined [['1'], ['1'], ['2'], ['2'], ['1'], ['1'], ['2']] (by simp), by decide, by decide +kernel⟩
      · exact ⟨[['2'], ['2'], ['2'], ['0'], ['6'], ['1'], ['3'], ['2']], joinBlank_joined [['2'], ['2'], ['2'], ['0'], ['6'], ['1'], ['3'], ['2']] (by simp), by decide, by decide +kernel⟩
      · exact ⟨[['3'], ['2'], ['2'], ['0'], ['6'], ['1'], ['3'], ['4']], joinBlank_joined [['3'], ['2'], ['2'], ['0'], ['6'], ['1'], ['3'], ['4']] (by simp), by decide, by decide +kernel⟩

/-- The lines of a text every line of which ends in a newline. -/
theorem lines_flat : ∀ ls : List Str, (∀ l ∈ ls, '\n' ∉ l) → Lines (ls.flatMap fun l => l ++ ['\n']) ls
  | [], _ => .nil
  | l :: ls, h => by
    have := Lines.cons l (h l (by simp)) (lines_flat ls fun l hl => h l (by simp [hl]))
    simpa using this

theorem outLines_ok : Lines outText outLines := by
  have h := lines_flat outLines (by decide)
  have e : (outLines.flatMap fun l => l ++ ['\n']) = outText := by decide +kernel
  rwa [e] at h

theorem exLines_ok : Lines exText exLines := by
  have h := lines_flat exLines (by decide)
  have e : (exLines.flatMap fun l => l ++ ['\n']) = exText := by decide +kernel
  rwa [e] at h

example : readMesh exConv true 5 MM.new (some outText) = readMesh exConv true 5 MM.new (some exText) :=
  C127_tags_ignored exConv true 5 MM.new (ls := outLines) (ls' := exLines) outLines_ok exLines_ok outFile exFile (by decide) (by simp [outElems, Elem.typed]) (by simp [exElems, Elem.typed]) (by decide) (by decide) (by decide) (by decide) (by decide) (by decide)

/-! ### The function that takes line elements -/

section
variable {R : Type} [Field R] [LinearOrder R] [IsStrictOrderedRing R]

/-- Coordinate `d` of vertex `v` (numbered from 0) of a mesh with three coordinates per vertex. -/
def pt (vert : List R) (v : Int) (d : Nat) : R := vert.getD (v.toNat * 3 + d) 0

/-- Twice the area of the triangle of the line element `(n1, n2)` (numbered from 1) and the midpoint of the side from `v` to `w`. -/
def offLine (vert : List R) (n1 n2 v w : Int) : R :=
  |(pt vert (n2 - 1) 1 - 1 / 2 * (pt vert v 1 + pt vert w 1)) * (pt vert (n2 - 1) 0 - pt vert (n1 - 1) 0)
    - (pt vert (n2 - 1) 1 - pt vert (n1 - 1) 1) * (pt vert (n2 - 1) 0 - 1 / 2 * (pt vert v 0 + pt vert w 0))|

/-- A line element of the file: its numbers are id, type, number of tags, two tags, two vertices. -/
def LineOk (nv : Nat) (e : List Int) : Prop := 7 ≤ e.length ∧ 1 ≤ e.getD 5 0 ∧ e.getD 5 0 ≤ nv ∧ 1 ≤ e.getD 6 0 ∧ e.getD 6 0 ≤ nv

/-- The tag a line element hands on: its first tag, or wall if that is 0. -/
def handedOn (e : List Int) : Int := if e.getD 3 0 = 0 then 3 else e.getD 3 0

omit [LinearOrder R] [IsStrictOrderedRing R] in
theorem vertAt_ok {vert : List R} {nv : Nat} (hl : vert.length = 3 * nv) {v : Int} (h0 : 0 ≤ v) (h1 : v < nv) : vertAt vert 3 v = .ok (pt vert v 0, pt vert v 1) := by
  have hv : v.toNat < nv := by omega
  have a : v.toNat * 3 < vert.length := by omega
  have b : v.toNat * 3 + 1 < vert.length := by omega
  unfold vertAt toIx pt
  rw [if_neg (by omega), Out.bind_ok, rd_of_lt a, Out.bind_ok, rd_of_lt b, Out.bind_ok, add_zero, List.getD_eq_getElem _ _ a, List.getD_eq_getElem _ _ b]
  rfl

omit [IsStrictOrderedRing R] in
theorem firstTag_ok (tol : R) {vert : List R} {nv : Nat} (hl : vert.length = 3 * nv) (v w : Int) (edges : List (List Int)) (he : ∀ e ∈ edges, LineOk nv e) :
    firstTag tol vert 3 ((1 / 2) * (pt vert v 0 + pt vert w 0), (1 / 2) * (pt vert v 1 + pt vert w 1)) edges =
      .ok ((edges.find? fun e => offLine vert (e.getD 5 0) (e.getD 6 0) v w < tol).map handedOn) := by
  induction edges with
  | nil => rfl
  | cons e es ih =>
    obtain ⟨l1, l2, l3, l4, l5⟩ := he e (by simp)
    have ih := ih fun e h => he e (by simp [h])
    unfold firstTag edgeTag
    have a : ∀ i, i < 7 → rd e i = .ok (e.getD i 0) := fun i hi => by
      rw [rd_of_lt (by omega), List.getD_eq_getElem _ _ (by omega)]
    rw [a 5 (by norm_num), Out.bind_ok, a 6 (by norm_num), Out.bind_ok, a 3 (by norm_num), Out.bind_ok, vertAt_ok hl (by omega) (by omega), Out.bind_ok, vertAt_ok hl (by omega) (by omega), Out.bind_ok]
    rw [List.find?_cons]
    by_cases h : offLine vert (e.getD 5 0) (e.getD 6 0) v w < tol
    · have h' := h
      unfold offLine at h'
      simp only [h', h, if_true, decide_true]
      rfl
    · have h' := h
      unfold offLine at h'
      simp only [h', h, if_false, decide_false]
      exact ih

theorem fill_loop {n : Nat} (t : Nat → Option Int) (step : List Int → Nat × Nat → Out (List Int)) (nf k : Nat) (hn : n = nf * k)
    (hs : ∀ bc g, g < n → bc.length = n → step bc (g / nf, g % nf) = match t g with | some x => wr bc g x | none => .ok bc) :
    ∀ m ≤ n, ∃ B, loopM step (List.replicate n 0) ((List.range m).map fun g => (g / nf, g % nf)) = .ok B ∧ B.length = n ∧ ∀ g < n, B.getD g 0 = if g < m then (t g).getD 0 else 0 := by
  intro m
  induction m with
  | zero => intro _; exact ⟨_, rfl, by simp, fun g hg => by simp [hg]⟩
  | succ m ih =>
    intro hm
    obtain ⟨B, h1, h2, h3⟩ := ih (by omega)
    rw [List.range_succ, List.map_append, loopM_append, h1, Out.bind_ok, List.map_singleton, loopM_cons, hs B m (by omega) h2]
    cases ht : t m with
    | none =>
      refine ⟨B, rfl, h2, fun g hg => ?_⟩
      rw [h3 g hg]
      by_cases hgm : g = m
      · subst hgm; simp [ht]
      · simp [show g < m + 1 ↔ g < m by omega]
    | some x =>
      refine ⟨B.set m x, by simp only; rw [wr_of_lt (by omega)]; rfl, by simp [h2], fun g hg => ?_⟩
      by_cases hgm : g = m
      · subst hgm
        rw [List.getD_eq_getElem _ _ (by simpa [h2] using hg)]
        simp [ht]
      · have hg1 : g < (B.set m x).length := by simpa [h2] using hg
        rw [List.getD_eq_getElem _ _ hg1, List.getElem_set_ne (fun h => hgm h.symm), ← List.getD_eq_getElem _ 0 (by omega), h3 g hg]
        simp [show g < m + 1 ↔ g < m by omega]

omit [IsStrictOrderedRing R] in
/-- **C127, what the unused function would do.** On triangles every face, interior or not, gets the tag of the first line element whose infinite line passes the midpoint of the face so closely that twice the area spanned is less than
the tolerance, and 0 if there is none. -/
theorem C127_edges (tol : R) (nv k : Nat) (vert : List R) (hl : vert.length = 3 * nv) (e2v : List Int) (hk : e2v.length = 3 * k) (hv : ∀ v ∈ e2v, 0 ≤ v ∧ v < (nv : Int)) (edges : List (List Int))
    (he : ∀ e ∈ edges, LineOk nv e) : ∃ B, buildBCEdges tol 3 k vert e2v edges = .ok B ∧ B.length = 3 * k ∧ ∀ e < k, ∀ f < 3,
      B.getD (3 * e + f) 0 = ((edges.find? fun ed => offLine vert (ed.getD 5 0) (ed.getD 6 0) (vtx 3 e2v e f) (vtx 3 e2v e ((f + 1) % 3)) < tol).map handedOn).getD 0 := by
  obtain ⟨B, h1, h2, h3⟩ := fill_loop (n := 3 * k)
    (fun g => (edges.find? fun ed => offLine vert (ed.getD 5 0) (ed.getD 6 0) (vtx 3 e2v (g / 3) (g % 3)) (vtx 3 e2v (g / 3) ((g % 3 + 1) % 3)) < tol).map handedOn)
    (tagStep tol 3 vert e2v edges) 3 k rfl (by
      intro bc g hg hb
      unfold tagStep
      have a : g / 3 * 3 + g % 3 < e2v.length := by omega
      have b : g / 3 * 3 + (g % 3 + 1) % 3 < e2v.length := by omega
      have va := hv _ (List.getElem_mem a)
      have vb := hv _ (List.getElem_mem b)
      simp only
      rw [rd_of_lt a, Out.bind_ok, rd_of_lt b, Out.bind_ok, vertAt_ok hl va.1 va.2, Out.bind_ok, vertAt_ok hl vb.1 vb.2, Out.bind_ok]
      rw [firstTag_ok tol hl _ _ edges he, Out.bind_ok]
      unfold vtx
      rw [List.getD_eq_getElem _ _ a, List.getD_eq_getElem _ _ b, show 3 * (g / 3) + g % 3 = g by omega]
      rfl) (3 * k) (le_refl _)
  refine ⟨B, ?_, h2, fun e he f hf => ?_⟩
  · unfold buildBCEdges
    rw [rowMajor_eq k 3 (by norm_num), mul_comm k 3]
    exact h1
  · rw [h3 (3 * e + f) (by omega), if_pos (by omega), show (3 * e + f) / 3 = e by omega, show (3 * e + f) % 3 = f by omega]

/-- **C127, refuted: interior faces keep 0 in small units.** On a mesh that fits into a square of side `s` with `2 * s^2` below the tolerance every face, also every interior one, gets the tag of the first line element. -/
theorem C127_edges_small (tol s c d : R) (hs : 0 ≤ s) (htol : 2 * s ^ 2 < tol) (nv k : Nat) (vert : List R) (hl : vert.length = 3 * nv) (e2v : List Int) (hk : e2v.length = 3 * k)
    (hv : ∀ v ∈ e2v, 0 ≤ v ∧ v < (nv : Int)) (first : List Int) (edges : List (List Int)) (he : ∀ e ∈ first :: edges, LineOk nv e)
    (hc : ∀ v : Int, 0 ≤ v → v < nv → c ≤ pt vert v 0 ∧ pt vert v 0 ≤ c + s ∧ d ≤ pt vert v 1 ∧ pt vert v 1 ≤ d + s) :
    ∃ B, buildBCEdges tol 3 k vert e2v (first :: edges) = .ok B ∧ ∀ e < k, ∀ f < 3, B.getD (3 * e + f) 0 = handedOn first := by
  obtain ⟨B, h1, -, h3⟩ := C127_edges tol nv k vert hl e2v hk hv (first :: edges) he
  refine ⟨B, h1, fun e hek f hf => ?_⟩
  rw [h3 e hek f hf, List.find?_cons]
  obtain ⟨-, l2, l3, l4, l5⟩ := he first (by simp)
  have hvt : ∀ i < 3, 0 ≤ vtx 3 e2v e i ∧ vtx 3 e2v e i < nv := by
    intro i hi
    have a : e * 3 + i < e2v.length := by omega
    unfold vtx
    rw [List.getD_eq_getElem _ _ a]
    exact hv _ (List.getElem_mem a)
  have p1 := hc _ (hvt f hf).1 (hvt f hf).2
  have p2 := hc _ (hvt ((f + 1) % 3) (Nat.mod_lt _ (by norm_num))).1 (hvt ((f + 1) % 3) (Nat.mod_lt _ (by norm_num))).2
  have p3 := hc (first.getD 5 0 - 1) (by omega) (by omega)
  have p4 := hc (first.getD 6 0 - 1) (by omega) (by omega)
  have key : offLine vert (first.getD 5 0) (first.getD 6 0) (vtx 3 e2v e f) (vtx 3 e2v e ((f + 1) % 3)) < tol := by
    have prod : ∀ x y : R, |x| ≤ s → |y| ≤ s → |x * y| ≤ s ^ 2 := fun x y hx hy => by
      rw [abs_mul, sq]
      exact mul_le_mul hx hy (abs_nonneg _) hs
    unfold offLine
    refine lt_of_le_of_lt ((abs_sub _ _).trans (add_le_add (prod _ _ ?_ ?_) (prod _ _ ?_ ?_))) (by linarith)
    all_goals rw [abs_le]; constructor <;> linarith [p1.1, p1.2.1, p1.2.2.1, p1.2.2.2, p2.1, p2.2.1, p2.2.2.1, p2.2.2.2, p3.1, p3.2.1, p3.2.2.1, p3.2.2.2, p4.1, p4.2.1, p4.2.2.1, p4.2.2.2]
  simp only [key, decide_true, Option.map_some, Option.getD_some]

omit [IsStrictOrderedRing R] in
/-- **C127, refuted for quadrilaterals.** Coordinates are fetched with stride four from an array with three numbers per vertex: a mesh of at least four vertices in which the first side of the first element starts at the last vertex is read
out of bounds. -/
theorem C127_edges_quads (tol : R) (nv k : Nat) (h4 : 4 ≤ nv) (vert : List R) (hl : vert.length = 3 * nv) (e2v rest : List Int) (hk : 0 < k) (he : e2v = ((nv : Int) - 1) :: rest) (hr : 1 ≤ rest.length) (edges : List (List Int)) :
    buildBCEdges tol 4 k vert e2v edges = .ub := by
  unfold buildBCEdges
  obtain ⟨m, rfl⟩ : ∃ m, k = m + 1 := ⟨k - 1, by omega⟩
  have hr' : Sparse.rowMajor (m + 1) 4 = (0, 0) :: ((List.range (4 * m + 3)).map fun g => ((g + 1) / 4, (g + 1) % 4)) := by
    rw [rowMajor_eq _ 4 (by norm_num), show 4 * (m + 1) = (4 * m + 3) + 1 by ring, List.range_succ_eq_map, List.map_cons, List.map_map]
    rfl
  rw [hr', loopM_cons]
  have hs : ∀ bc, tagStep tol 4 vert e2v edges bc (0, 0) = .ub := by
    intro bc
    unfold tagStep
    have a : 0 * 4 + 0 < e2v.length := by rw [he]; simp
    have b : 0 * 4 + (0 + 1) % 4 < e2v.length := by rw [he]; simp; omega
    simp only
    rw [rd_of_lt a, Out.bind_ok, rd_of_lt b, Out.bind_ok]
    have hv : e2v[0 * 4 + 0] = (nv : Int) - 1 := by simp [he]
    rw [hv]
    unfold vertAt toIx
    rw [if_neg (by omega), Out.bind_ok]
    have : rd vert (((nv : Int) - 1).toNat * 4) = .ub := by
      unfold rd
      rw [List.getElem?_eq_none (by omega)]
    rw [this]
    rfl
  rw [hs]
  rfl

end

/-- Three triangles: two share the side from (0,0) to (1,0), the third has the boundary side from (1,0) to (2,0). -/
def lVert : List ℚ := [0, 0, 0, 1, 0, 0, 0, 1, 0, 0, -1, 0, 2, 0, 0]
def lElem : List Int := [0, 1, 2, 0, 3, 1, 1, 4, 2]

/-- **C127, refuted: interior faces keep 0.** With one line element, the outflow side from (1,0) to (2,0), the side shared by the first two triangles is tagged as outflow as well, for it lies on the same line. -/
theorem C127_edges_interior : buildBCEdges (1 / 100000 : ℚ) 3 3 lVert lElem [[1, 1, 2, 2, 1, 2, 5]] = .ok [2, 0, 0, 0, 0, 2, 2, 0, 0] := by decide +kernel

/-- The hypotheses of `C127_edges` are met there, and those of `C127_edges_small` after shrinking. -/
example : (∀ v ∈ lElem, 0 ≤ v ∧ v < ((5 : Nat) : Int)) ∧ lVert.length = 3 * 5 ∧ lElem.length = 3 * 3 ∧ LineOk 5 [1, 1, 2, 2, 1, 2, 5] := by
  refine ⟨by decide, by decide, by decide, by unfold LineOk; decide⟩

example : ∃ B, buildBCEdges (1 / 100000 : ℚ) 3 3 (lVert.map (· / 10000)) lElem [[1, 1, 2, 2, 1, 2, 5]] = .ok B ∧ ∀ e < 3, ∀ f < 3, B.getD (3 * e + f) 0 = 2 := by
  refine C127_edges_small (1 / 100000) (2 / 10000) 0 (-1 / 10000) (by norm_num) (by norm_num) 5 3 _ rfl _ rfl (by decide) [1, 1, 2, 2, 1, 2, 5] [] (by simp [LineOk]) ?_
  intro v h0 h1
  have : v < 5 := h1
  interval_cases v <;> simp [pt, lVert] <;> norm_num

end Blitzdg.Mesh
