import Verif.Mesh.ReadModel
import Verif.Mesh.CcwProps
import Verif.Csv.Props

/-! Step lemmas for `readMesh`. -/

namespace Blitzdg.Mesh

open Blitzdg.Csv

/-- The delimiters of mesh files: tab and blank. -/
def msep (c : Char) : Bool := ['\t', ' '].contains c

theorem convAll_some (ts : List Str) : convAll (fun t => some t) ts = (true, ts) := by
  induction ts with
  | nil => rfl
  | cons t ts ih => simp [convAll, ih]

theorem rowToks_ok {done rem : List Str} {l : Str} {r : Reader} {toks : List Str} {n : Nat} (h : Rel done (l :: rem) r)
    (hd : r.delims = ['\t', ' ']) (hr : RowLine msep toks l) (hn : toks.length = n) (hc : r.ncols = n) :
    ∃ r', rowToks n r = .ok (some toks, r') ∧ Rel (done ++ [l]) rem r' ∧ Same r r' := by
  obtain ⟨t1, t2⟩ := hr.trim_ne
  have htok : tokenizeLine r.delims (trim l) = toks := by rw [hd]; exact tokenizeLine_eq t2
  rcases parseRow_spec (fun t => some t) h with ⟨hnb, _⟩ | ⟨bl, l', rem', h1, h2, h3, r', h4, hs, h5⟩
  · rw [nb_cons _ _ t1] at hnb; simp at hnb
  · have hbl : bl = [] := by
      cases bl with
      | nil => rfl
      | cons b bl =>
        rw [List.cons_append, List.cons.injEq] at h1
        rw [← h1.1, nb_cons _ _ t1] at h2
        simp at h2
    subst hbl
    rw [List.nil_append, List.cons.injEq] at h1
    obtain ⟨rfl, rfl⟩ := h1
    have hok : rowOK (fun t => some t) r.delims r.ncols (trim l) = true := by
      simp [rowOK, htok, hn, hc, convAll_some]
    rcases h5 with ⟨_, e⟩ | ⟨hf, _⟩
    · refine ⟨r', ?_, h4, hs⟩
      rw [htok, convAll_some] at e
      unfold rowToks parseRowValues
      rw [if_neg (by simp [hc]), e]
    · rw [hok] at hf; simp at hf

theorem Rel.setNumCols {done rem : List Str} {r : Reader} (h : Rel done rem r) (c : Int) : Rel done rem (Csv.setNumCols c r) :=
  ⟨h.content, h.rest, h.lineno, h.failed⟩

theorem Rel.notFailed {done rem : List Str} {r : Reader} {l : Str} (h : Rel done (l :: rem) r) : r.failed = false := by
  cases hf : r.failed with
  | false => rfl
  | true => exact absurd (h.failed hf) (by simp)

theorem expectLine_ok {done rem : List Str} {m : Str} {r : Reader} (h : Rel done (m :: rem) r) :
    ∃ r', expectLine m r = .ok r' ∧ Rel (done ++ [m]) rem r' ∧ Same r r' := by
  obtain ⟨r', e, h1, h2, _⟩ := readLine_cons h
  exact ⟨r', by simp [expectLine, e], h1, h2⟩

theorem skip1_ok {done rem : List Str} {m : Str} {r : Reader} (h : Rel done (m :: rem) r) :
    Rel (done ++ [m]) rem (skipLines 1 r) ∧ Same r (skipLines 1 r) := by
  obtain ⟨h1, h2, _⟩ := skipLines_spec 1 h (Rel.notFailed h)
  exact ⟨by simpa using h1, h2⟩

theorem readFormat_ok {R : Type} {cv : Conv R} {done rem : List Str} {l : Str} {r : Reader} {v t s : Str} (h : Rel done (l :: rem) r)
    (hd : r.delims = ['\t', ' ']) (hr : RowLine msep [v, t, s] l) (hv : cv.version v = some true) (ht : cv.int t = some 0)
    (hs : cv.int s = some 8) : ∃ r', readFormat cv r = .ok r' ∧ Rel (done ++ [l]) rem r' ∧ r'.delims = r.delims ∧ r'.content = r.content := by
  obtain ⟨r', e, h1, h2⟩ := rowToks_ok (n := 3) (Rel.setNumCols h 3) hd hr rfl rfl
  refine ⟨r', ?_, h1, h2.delims, h2.content⟩
  unfold readFormat
  rw [e, Out.bind_ok]
  simp [hv, ht, hs, get]

theorem readCount_ok {R : Type} {cv : Conv R} {done rem : List Str} {l : Str} {r : Reader} {t : Str} {n old : Int} (h : Rel done (l :: rem) r)
    (hd : r.delims = ['\t', ' ']) (hr : RowLine msep [t] l) (ht : cv.int t = some n) :
    ∃ r', readCount cv old r = .ok (n, r') ∧ Rel (done ++ [l]) rem r' ∧ r'.delims = r.delims ∧ r'.content = r.content := by
  obtain ⟨r', e, h1, h2⟩ := rowToks_ok (n := 1) (Rel.setNumCols h 1) hd hr rfl rfl
  refine ⟨r', ?_, h1, h2.delims, h2.content⟩
  unfold readCount
  rw [e, Out.bind_ok]
  simp [ht, get]

/-- A node line of the file shows the node (number, x, y, z). -/
def NodeLine {R : Type} (cv : Conv R) (nd : Int × R × R × R) (l : Str) : Prop :=
  ∃ n x y z, RowLine msep [n, x, y, z] l ∧ cv.int n = some nd.1 ∧ cv.real x = some nd.2.1 ∧ cv.real y = some nd.2.2.1 ∧
    cv.real z = some nd.2.2.2

/-- Coordinates after storing one node. -/
def putNode {R : Type} (v : List R) (nd : Int × R × R × R) : List R :=
  ((v.set ((nd.1 - 1) * 3).toNat nd.2.1).set ((nd.1 - 1) * 3 + 1).toNat nd.2.2.1).set ((nd.1 - 1) * 3 + 2).toNat nd.2.2.2

theorem putNode_length {R : Type} (v : List R) (nd : Int × R × R × R) : (putNode v nd).length = v.length := by simp [putNode]

theorem nodes_ok {R : Type} {cv : Conv R} (nodes : List (Int × R × R × R)) : ∀ (lines : List Str) (done rem : List Str) (r : Reader) (v : List R) (N i : Nat),
    List.Forall₂ (NodeLine cv) nodes lines → Rel done (lines ++ rem) r → r.delims = ['\t', ' '] → r.ncols = 4 → v.length = N * 3 →
    (∀ nd ∈ nodes, 1 ≤ nd.1 ∧ nd.1 ≤ (N : Int)) →
    ∃ r', loopM (nodeStep cv) (v, r) (List.range' i nodes.length) = .ok (nodes.foldl putNode v, r') ∧ Rel (done ++ lines) rem r' ∧
      r'.delims = r.delims ∧ r'.content = r.content ∧ r'.ncols = 4 := by
  induction nodes with
  | nil =>
    intro lines done rem r v N i hf h _ hc _ _
    cases hf
    exact ⟨r, rfl, by simpa using h, rfl, rfl, hc⟩
  | cons nd nodes ih =>
    intro lines done rem r v N i hf h hd hc hv hb
    cases hf with
    | @cons _ l _ ls hnl hf =>
      obtain ⟨n, x, y, z, hr, e1, e2, e3, e4⟩ := hnl
      obtain ⟨r1, er, h1, hs⟩ := rowToks_ok (n := 4) (show Rel done (l :: (ls ++ rem)) r from h) hd hr rfl hc
      have hb0 := hb nd (by simp)
      have hstep : nodeStep cv (v, r) i = .ok (putNode v nd, r1) := by
        unfold nodeStep
        simp only
        rw [er, Out.bind_ok]
        simp only [e1, e2, e3, e4, get, Out.bind_ok]
        unfold wrI
        rw [if_neg (by omega), wr_of_lt (by omega), Out.bind_ok, if_neg (by omega), wr_of_lt (by simp; omega), Out.bind_ok,
          if_neg (by omega), wr_of_lt (by simp; omega), Out.bind_ok]
        rfl
      obtain ⟨r', e', h', hd', hc', hn'⟩ := ih ls (done ++ [l]) rem r1 (putNode v nd) N (i + 1) hf h1 (by rw [hs.delims, hd]) (by rw [hs.ncols, hc])
        (by rw [putNode_length, hv]) (fun a ha => hb a (by simp [ha]))
      refine ⟨r', ?_, by simpa using h', by rw [hd', hs.delims], by rw [hc', hs.content], hn'⟩
      rw [List.length_cons, List.range'_succ, loopM_cons, hstep, Out.bind_ok, e', List.foldl_cons]

/-- The stored coordinates: with distinct node numbers each node's coordinates are found at its place. -/
theorem nodes_value {R : Type} (nodes : List (Int × R × R × R)) (N : Nat) (d : R) (hb : ∀ nd ∈ nodes, 1 ≤ nd.1 ∧ nd.1 ≤ (N : Int))
    (hnd : (nodes.map Prod.fst).Nodup) (v : List R) (hv : v.length = N * 3) :
    ∀ nd ∈ nodes, (nodes.foldl putNode v).getD ((nd.1 - 1).toNat * 3) d = nd.2.1 ∧
      (nodes.foldl putNode v).getD ((nd.1 - 1).toNat * 3 + 1) d = nd.2.2.1 ∧
      (nodes.foldl putNode v).getD ((nd.1 - 1).toNat * 3 + 2) d = nd.2.2.2 := by
  induction nodes using List.reverseRecOn with
  | nil => simp
  | append_singleton nodes a ih =>
    rw [List.map_append, List.nodup_append] at hnd
    obtain ⟨n1, _, n3⟩ := hnd
    have hb' : ∀ nd ∈ nodes, 1 ≤ nd.1 ∧ nd.1 ≤ (N : Int) := fun x hx => hb x (by simp [hx])
    have ha := hb a (by simp)
    have hl : (nodes.foldl putNode v).length = N * 3 := by
      have : ∀ (l : List (Int × R × R × R)) (w : List R), (l.foldl putNode w).length = w.length := by
        intro l
        induction l with
        | nil => simp
        | cons x l ih => intro w; rw [List.foldl_cons, ih, putNode_length]
      rw [this, hv]
    intro nd hm
    rw [List.foldl_append, List.foldl_cons, List.foldl_nil]
    generalize nodes.foldl putNode v = w at *
    rcases List.mem_append.1 hm with hm | hm
    · have hne : nd.1 ≠ a.1 := by
        have := n3 nd.1 (List.mem_map_of_mem hm) a.1 (by simp)
        exact this
      have hbn := hb' nd hm
      obtain ⟨i1, i2, i3⟩ := ih hb' n1 nd hm
      unfold putNode
      refine ⟨?_, ?_, ?_⟩ <;>
      rw [getD_set_ne _ (by omega), getD_set_ne _ (by omega), getD_set_ne _ (by omega)] <;> assumption
    · rw [List.mem_singleton] at hm
      subst hm
      have q0 : ((nd.1 - 1) * 3).toNat = (nd.1 - 1).toNat * 3 := by omega
      have q1 : ((nd.1 - 1) * 3 + 1).toNat = (nd.1 - 1).toNat * 3 + 1 := by omega
      have q2 : ((nd.1 - 1) * 3 + 2).toNat = (nd.1 - 1).toNat * 3 + 2 := by omega
      unfold putNode
      rw [q0, q1, q2]
      refine ⟨?_, ?_, ?_⟩
      · rw [getD_set_ne _ (by omega), getD_set_ne _ (by omega), getD_set_eq _ (by omega)]
      · rw [getD_set_ne _ (by omega), getD_set_eq _ (by simp; omega)]
      · rw [getD_set_eq _ (by simp; omega)]

/-! ### Elements -/

/-- An element record of the file. -/
structure Elem where
  id : Int
  ty : Int
  tags : List Int
  verts : List Int

/-- The numbers on its line: id, type, number of tags, tags, vertices. -/
def Elem.row (e : Elem) : List Int := [e.id, e.ty, e.tags.length] ++ e.tags ++ e.verts

/-- The type code agrees with the number of vertices (15 points, 1 lines, 2 triangles, 3 quadrilaterals; other elements are skipped). -/
def Elem.typed (e : Elem) : Prop :=
  (e.verts.length = 1 → e.ty = 15) ∧ (e.verts.length = 2 → e.ty = 1) ∧ (e.verts.length = 3 → e.ty = 2) ∧ (e.verts.length = 4 → e.ty = 3)

/-- A line of the file shows the numbers of the record, separated by runs of delimiters. -/
def ElemLine {R : Type} (cv : Conv R) (e : Elem) (l : Str) : Prop :=
  ∃ toks, Joined msep toks l ∧ (∀ t ∈ toks, t ≠ [] ∧ ∀ c ∈ t, msep c = false) ∧ toks.map cv.stoi = e.row.map some

theorem parseElem_ok {R : Type} (cv : Conv R) : ∀ (toks : List Str) (xs : List Int), toks.map cv.stoi = xs.map some → parseElem cv toks = .ok xs := by
  intro toks
  induction toks with
  | nil => intro xs h; cases xs <;> simp_all [parseElem]
  | cons t ts ih =>
    intro xs h
    cases xs with
    | nil => simp at h
    | cons x xs =>
      simp only [List.map_cons, List.cons.injEq] at h
      simp [parseElem, h.1, get, ih xs h.2]

/-- Rows sorted by kind. -/
def addElem (s : List (List Int) × List (List Int)) (e : Elem) : List (List Int) × List (List Int) :=
  if e.verts.length = 3 then (s.1 ++ [e.row], s.2) else if e.verts.length = 4 then (s.1, s.2 ++ [e.row]) else s

theorem rd_get {R : Type} (cv : Conv R) {toks : List Str} {xs : List Int} (h : toks.map cv.stoi = xs.map some) {i : Nat} (hi : i < xs.length) :
    (rd toks i >>= fun t => get (cv.stoi t)) = .ok xs[i] := by
  have hl : toks.length = xs.length := by simpa using congrArg List.length h
  rw [rd_of_lt (by omega), Out.bind_ok]
  have := congrArg (fun l => l[i]?) h
  simp only [List.getElem?_map] at this
  rw [List.getElem?_eq_getElem (by omega), List.getElem?_eq_getElem hi] at this
  simp only [Option.map_some, Option.some.injEq] at this
  rw [this]; rfl

theorem elemRow_ok {R : Type} (cv : Conv R) (s : List (List Int) × List (List Int)) (e : Elem) (toks : List Str)
    (h : toks.map cv.stoi = e.row.map some) (ht : e.typed) : elemRow cv s toks = .ok (addElem s e) := by
  have hl : toks.length = e.row.length := by simpa using congrArg List.length h
  have hrl : e.row.length = 3 + e.tags.length + e.verts.length := by simp [Elem.row]; omega
  have h1 := rd_get cv h (i := 1) (by omega)
  have h2 := rd_get cv h (i := 2) (by omega)
  have e1 : e.row[1]'(by omega) = e.ty := by simp [Elem.row]
  have e2 : e.row[2]'(by omega) = e.tags.length := by simp [Elem.row]
  unfold elemRow
  rw [h1, Out.bind_ok, h2, Out.bind_ok, e1, e2]
  have hnl : ((toks.length : Int) - (e.tags.length : Int) - 3) = e.verts.length := by omega
  simp only [hnl]
  obtain ⟨t1, t2, t3, t4⟩ := ht
  unfold addElem
  by_cases c1 : e.verts.length = 1
  · have h3 := rd_get cv h (i := 3) (by omega)
    rw [if_pos (by omega), if_neg (by simp [t1 c1]), h3, Out.bind_ok, if_neg (by omega), if_neg (by omega)]
    rfl
  by_cases c2 : e.verts.length = 2
  · rw [if_neg (by omega), if_pos (by omega), if_neg (by simp [t2 c2]), parseElem_ok cv _ _ h, Out.bind_ok, if_neg (by omega), if_neg (by omega)]
    rfl
  by_cases c3 : e.verts.length = 3
  · rw [if_neg (by omega), if_neg (by omega), if_pos (by omega), if_neg (by simp [t3 c3]), parseElem_ok cv _ _ h, Out.bind_ok, if_pos c3]
    rfl
  by_cases c4 : e.verts.length = 4
  · rw [if_neg (by omega), if_neg (by omega), if_neg (by omega), if_pos (by omega), if_neg (by simp [t4 c4]), parseElem_ok cv _ _ h,
      Out.bind_ok, if_neg c3, if_pos c4]
    rfl
  · rw [if_neg (by omega), if_neg (by omega), if_neg (by omega), if_neg (by omega), if_neg c3, if_neg c4]
    rfl

theorem elems_ok {R : Type} {cv : Conv R} (es : List Elem) : ∀ (lines done rem : List Str) (r : Reader) (s : List (List Int) × List (List Int)) (line : Str) (i : Nat),
    List.Forall₂ (ElemLine cv) es lines → Rel done (lines ++ rem) r → r.delims = ['\t', ' '] → (∀ e ∈ es, e.typed) →
    ∃ r', loopM (elemStep cv) (s, line, r) (List.range' i es.length) = .ok (es.foldl addElem s, (line :: lines).getLastD [], r') ∧
      Rel (done ++ lines) rem r' ∧ Same r r' ∧ (r.failed = false ∨ es ≠ [] → r'.failed = false) := by
  induction es with
  | nil => intro lines done rem r s line i hf h _ _; cases hf; exact ⟨r, rfl, by simpa using h, Same.refl r, by simp⟩
  | cons e es ih =>
    intro lines done rem r s line i hf h hd ht
    cases hf with
    | @cons _ l _ ls hel hf =>
      obtain ⟨toks, j1, j2, j3⟩ := hel
      obtain ⟨r1, er, h1, hs, hff⟩ := readLine_cons (show Rel done (l :: (ls ++ rem)) r from h)
      have htok : tokenizeLine r.delims l = toks := by
        rw [hd]; exact tokenizeLine_eq (j1.isSplit j2 true)
      have hstep : elemStep cv (s, line, r) i = .ok (addElem s e, l, r1) := by
        unfold elemStep readLineVar
        simp only [er]
        rw [htok, elemRow_ok cv s e toks j3 (ht e (by simp)), Out.bind_ok]
        rfl
      obtain ⟨r', e', h', hs', hf'⟩ := ih ls (done ++ [l]) rem r1 (addElem s e) l (i + 1) hf h1 (by rw [hs.delims, hd]) (fun a ha => ht a (by simp [ha]))
      refine ⟨r', ?_, by simpa using h', hs.trans hs', fun _ => hf' (Or.inl hff)⟩
      rw [List.length_cons, List.range'_succ, loopM_cons, hstep, Out.bind_ok, e', List.foldl_cons]
      simp

/-- The elements of one kind, in file order. -/
def kind (n : Nat) (es : List Elem) : List Elem := es.filter fun e => e.verts.length = n

theorem foldl_addElem (es : List Elem) (s : List (List Int) × List (List Int)) :
    es.foldl addElem s = (s.1 ++ (kind 3 es).map Elem.row, s.2 ++ (kind 4 es).map Elem.row) := by
  induction es generalizing s with
  | nil => simp [kind]
  | cons e es ih =>
    rw [List.foldl_cons, ih]
    unfold addElem
    by_cases c3 : e.verts.length = 3
    · have c4 : ¬ e.verts.length = 4 := by omega
      simp [kind, c3]
    · by_cases c4 : e.verts.length = 4
      · simp [kind, c4]
      · simp [kind, c3, c4]

theorem elemVerts_ok (e : Elem) (nf : Nat) (ht : e.tags.length = 2) (hv : e.verts.length = nf) :
    elemVerts nf e.row = .ok (e.verts.map (· - 1)) := by
  have gen : ∀ n ≤ nf, loopM (fun acc i => do let v ← rd e.row (5 + i); pure (acc ++ [v - 1])) [] (List.range n)
      = .ok ((e.verts.take n).map (· - 1)) := by
    intro n hn
    induction n with
    | zero => rfl
    | succ n ih =>
      have hlen : e.row.length = 5 + nf := by simp [Elem.row, ht, hv]; omega
      have hget : e.row[5 + n]'(by omega) = e.verts[n]'(by omega) := by
        simp only [Elem.row]
        rw [List.getElem_append_right (by simp [ht])]
        congr 1
        simp [ht]
      rw [List.range_succ, loopM_append, ih (by omega), Out.bind_ok, loopM_cons, rd_of_lt (by omega), hget]
      simp only [Out.bind_ok, Out.pure_eq, loopM_nil]
      rw [List.take_succ_eq_append_getElem (by omega : n < e.verts.length)]
      simp only [List.map_append, List.map_cons, List.map_nil]
  have := gen nf (le_refl _)
  rw [List.take_of_length_le (by omega)] at this
  exact this

theorem elemRows_ok (nf : Nat) : ∀ (rows : List Elem) (acc : List Int), (∀ e ∈ rows, e.tags.length = 2 ∧ e.verts.length = nf) →
    loopM (fun acc row => do let v ← elemVerts nf row; pure (acc ++ v)) acc (rows.map Elem.row)
      = .ok (acc ++ rows.flatMap fun e => e.verts.map (· - 1)) := by
  intro rows
  induction rows with
  | nil => intro acc _; simp
  | cons e rows ih =>
    intro acc h
    obtain ⟨h1, h2⟩ := h e (by simp)
    rw [List.map_cons, loopM_cons, elemVerts_ok e nf h1 h2, Out.bind_ok, Out.pure_eq, Out.bind_ok, ih _ (fun x hx => h x (by simp [hx]))]
    simp

end Blitzdg.Mesh
