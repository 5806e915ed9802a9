import Verif.Csv.Model
import Verif.Mesh.ReadModel
import Verif.Mesh.ReadProps
import Verif.Mesh.EdgesProps
import Verif.Conform.Helpers

/-!
The unit tests of the readers, run on the model: src/test/CSVFileReaderTests.cpp and src/test/MeshManagerTests.cpp.

As in `Verif.Conform.Helpers` these are tests of the model against the expected values of the authors; they prove no property.  The input
files (input/csvtest1.csv … csvtest4.csv, 2box.V, 2box.E2V, coarse_box.msh) are quoted in full.
-/

namespace Blitzdg.Conform

open Blitzdg.Csv Blitzdg.Mesh

/-- A text as the list of its characters, written out when the file is read; `"…".toList` is slow in the kernel. -/
macro "chars!" s:str : term => do
  let cs : Array (Lean.TSyntax `term) := (s.getString.toList.map fun c => (⟨Lean.Syntax.mkCharLit c⟩ : Lean.TSyntax `term)).toArray
  `([$cs,*])

/-! ### Conversion of texts to numbers -/

/-- An optional sign. -/
def sign : Str → Int × Str
  | '-' :: s => (-1, s)
  | '+' :: s => (1, s)
  | s => (1, s)

/-- `StrCast<int>`, for texts that are a whole number and nothing else. -/
def asInt (s : Str) : Option Int := (natConv (sign s).2).map fun n => (sign s).1 * (n : Int)

/-- `StrCast<double>`, for texts with an optional fraction and an optional exponent and nothing else; the exact value. -/
def asReal (s : Str) : Option ℚ :=
  let (sg, s) := sign s
  let mant := s.takeWhile (· != 'e')
  let whole := mant.takeWhile (· != '.')
  let frac := (mant.dropWhile (· != '.')).drop 1
  let ex := (s.dropWhile (· != 'e')).drop 1
  match natConv (whole ++ frac), (if s.contains 'e' then asInt ex else some 0) with
  | some n, some e => some ((sg : ℚ) * n * (10 : ℚ) ^ (e - frac.length))
  | _, _ => none

/-- The conversions of the tests. -/
def conv : Conv ℚ :=
  { int := asInt, real := asReal, stoi := asInt, version := fun s => (asReal s).map fun v => decide (2 ≤ v ∧ v < 3) }

/-! ### CSVFileReaderTests.cpp -/

/-- input/csvtest1.csv -/
def csvtest1 : Str := (chars! "\n\n0.00000   0.00000\n0.50000   0.00000\n1.00000   0.00000\n\n1.00000   1.00000\n\n0.50000   1.00000\n0.00000   1.00000")

/-- input/csvtest2.csv -/
def csvtest2 : Str := (chars! "name      price    number\npencil     1.00        20\nscissors   2.00        10\nbooklets   1.50        20\n") ++
  (chars! "erasers    0.75        20\ncrayons    3.75        15     ")

/-- input/csvtest3.csv -/
def csvtest3 : Str := (chars! "1.0 3.0 5.0\n1.2 3.2 4.5\n1.4 4.5\n1.9 2.0 3.0")

/-- input/csvtest4.csv -/
def csvtest4 : Str := (chars! "1.0 3.0 5.0\n1.2 3.2 4.5\n1.4 4.5 4.8a\n1.9 2.0 3.0")

/-- The default delimiters, include/CSVFileReader.hpp line 185. -/
def delims : Str := ['\t', ' ']

/-- `while (reader.readLine(line));` -/
def readOn : Nat → Reader → Reader
  | 0, r => r
  | n + 1, r => match readLine r with
    | (some _, r') => readOn n r'
    | (none, r') => r'

/-- Lines 68-82, Reads_A_CSV_File. -/
example : Out.map' (fun r => ((getNumRows r).1, r.ncols, (readOn 100 (getNumRows r).2).lineno)) (openReader (some csvtest1) 0 delims) =
    .ok (6, 2, 10) := by decide +kernel

/-- The numbers of csvtest1.csv, as the tests expect them. -/
def boxRows : List ℚ := [0.0, 0.0, 0.5, 0.0, 1.0, 0.0, 1.0, 1.0, 0.5, 1.0, 0.0, 1.0]

/-- Lines 84-113, Reads_A_CSV_File_To_A_Matrix and Reads_A_CSV_File_To_A_Vector. -/
example : csvread asReal (some csvtest1) 0 delims = .ok (6, 2, boxRows) := by decide +kernel

/-- Lines 115-126, Skips_The_First_Few_Lines. -/
example : csvread asReal (some csvtest1) 4 delims = .ok (4, 2, [1.0, 0.0, 1.0, 1.0, 0.5, 1.0, 0.0, 1.0]) := by decide +kernel

/-- Lines 128-161, Reads_Different_Field_Types: a text, a real and a whole number from each row. -/
def readRows : Nat → Reader → List (Str × Option ℚ × Option Int)
  | 0, _ => []
  | n + 1, r => match parseRowValues (fun t => some t) 3 r with
    | (.row, [a, b, c], r') => (a, asReal b, asInt c) :: readRows n r'
    | _ => []

example : Out.map' (readRows 100) (openReader (some csvtest2) 1 delims) = .ok
    [(chars! "pencil", some 1.0, some 20), (chars! "scissors", some 2.0, some 10), (chars! "booklets", some 1.5, some 20),
     (chars! "erasers", some 0.75, some 20), (chars! "crayons", some 3.75, some 15)] := by decide +kernel

/-- Lines 182-194, Detects_A_Missing_Field. -/
example : csvread asReal (some csvtest3) 0 delims = .throws := by decide +kernel

/-- Lines 196-207, Detects_An_Invalid_Field. -/
example : csvread asReal (some csvtest4) 0 delims = .throws := by decide +kernel

/-- Lines 209-231, Detects_Too_Many_Skipped_Lines: 11 lines are too many for the constructor and for `openFile`; ten are not. -/
example : openReader (some csvtest1) 11 delims = .throws ∧ Out.map' (fun r => r.lineno) (openReader (some csvtest1) 10 delims) = .ok 10 := by decide +kernel

/-- Lines 233-245, Detects_Invalid_Delimiter_Sequence. -/
example : openReader (some csvtest1) 0 (chars! "~$#@*|^8x,") = .throws := by decide +kernel

/-- Lines 247-258, Detects_Invalid_File. -/
example : openReader none 0 delims = .throws := by decide +kernel

/-! ### MeshManagerTests.cpp -/

/-- input/2box.V -/
def boxV : Str := (chars! "   0.00000   0.00000\n   0.50000   0.00000\n   1.00000   0.00000\n   1.00000   1.00000\n   0.50000   1.00000\n") ++
  (chars! "   0.00000   1.00000")

/-- input/2box.E2V -/
def boxE2V : Str := (chars! "   0   1   4   5\n   1   2   3   4\n")

/-- Lines 94-126, Reads_Vertex_Files. -/
example : Out.map' (fun s => (s.nv, s.dim, s.vert)) (readVertices conv MM.new (some boxV)) = .ok (6, 2, boxRows) := by decide +kernel

/-- Lines 128-153, Reads_Element_Files. -/
example : Out.map' (fun s => (s.k, s.nf, s.e2v)) (readElements conv false MM.new (some boxE2V)) = .ok (2, 4, [0, 1, 4, 5, 1, 2, 3, 4]) := by
  decide +kernel

/-! ### Certificates for files

`readMesh` is not run on the text of a whole mesh file: that is too much for the kernel.  Instead each line is checked on its own and the theorems about
`readMesh` and `buildConnectivity`, which hold for all files and all meshes, give the result. -/

/-- The words of a line. -/
def words (l : Str) : List Str := tokenizeLine ['\t', ' '] l

/-- The line is these words with single blanks between them. -/
def rowB (ts : List Str) (l : Str) : Bool :=
  decide (ts ≠ []) && decide (joinBlank ts = l) && (ts.all fun t => !t.isEmpty && t.all fun c => !msep c) &&
  ((joinBlank ts).head?.all fun c => !isSpace c) && ((joinBlank ts).getLast?.all fun c => !isSpace c)

theorem rowB_ok {ts : List Str} {l : Str} (h : rowB ts l = true) :
    RowLine msep ts l ∧ Joined msep ts l ∧ ∀ t ∈ ts, t ≠ [] ∧ ∀ c ∈ t, msep c = false := by
  simp only [rowB, Bool.and_eq_true, decide_eq_true_eq] at h
  obtain ⟨⟨⟨⟨h1, h2⟩, h3⟩, h4⟩, h5⟩ := h
  have h3' : ∀ t ∈ ts, t ≠ [] ∧ ∀ c ∈ t, msep c = false := by
    intro t ht
    have := List.all_eq_true.1 h3 t ht
    simp only [Bool.and_eq_true, Bool.not_eq_true', List.all_eq_true] at this
    exact ⟨by simpa using this.1, this.2⟩
  subst h2
  exact ⟨exRow ts h1 h3' h4 h5, joinBlank_joined ts h1, h3'⟩

/-- The line shows the node. -/
def nodeB (cv : Conv ℚ) (p : (Int × ℚ × ℚ × ℚ) × Str) : Bool :=
  match words p.2 with
  | [n, x, y, z] => rowB [n, x, y, z] p.2 && decide (cv.int n = some p.1.1) && decide (cv.real x = some p.1.2.1) &&
      decide (cv.real y = some p.1.2.2.1) && decide (cv.real z = some p.1.2.2.2)
  | _ => false

theorem nodeB_ok {cv : Conv ℚ} {nd : Int × ℚ × ℚ × ℚ} {l : Str} (h : nodeB cv (nd, l) = true) : NodeLine cv nd l := by
  unfold nodeB at h
  split at h
  · simp only [Bool.and_eq_true, decide_eq_true_eq] at h
    obtain ⟨⟨⟨⟨h1, h2⟩, h3⟩, h4⟩, h5⟩ := h
    exact ⟨_, _, _, _, (rowB_ok h1).1, h2, h3, h4, h5⟩
  · cases h

/-- The line shows the element. -/
def elemB (cv : Conv ℚ) (p : Elem × Str) : Bool := rowB (words p.2) p.2 && decide ((words p.2).map cv.stoi = p.1.row.map some)

theorem elemB_ok {cv : Conv ℚ} {e : Elem} {l : Str} (h : elemB cv (e, l) = true) : ElemLine cv e l := by
  simp only [elemB, Bool.and_eq_true, decide_eq_true_eq] at h
  exact ⟨_, (rowB_ok h.1).2.1, (rowB_ok h.1).2.2, h.2⟩

/-- The whole file: format, nodes, elements. -/
theorem mshFile_ok {cv : Conv ℚ} {nodes : List (Int × ℚ × ℚ × ℚ)} {es : List Elem} {fmt cnt ecnt e1 e2 v t s a b : Str} {nls els tail : List Str}
    (hf : rowB [v, t, s] fmt = true) (hv : cv.version v = some true) (ht : cv.int t = some 0) (hs : cv.int s = some 8)
    (hc : rowB [a] cnt = true) (ha : cv.int a = some (nodes.length : Int)) (hn : nodes.length = nls.length) (hnn : (nodes.zip nls).all (nodeB cv) = true)
    (hd : rowB [b] ecnt = true) (hb : cv.int b = some (es.length : Int)) (he : es.length = els.length) (hee : (es.zip els).all (elemB cv) = true) :
    MshFile cv nodes es (["$MeshFormat".toList, fmt, e1, "$Nodes".toList, cnt] ++ nls ++ [e2, "$Elements".toList, ecnt] ++ els ++ tail) where
  lines := ⟨fmt, e1, cnt, nls, e2, ecnt, els, tail, rfl, ⟨v, t, s, (rowB_ok hf).1, hv, ht, hs⟩, ⟨a, (rowB_ok hc).1, ha⟩,
    List.forall₂_iff_zip.2 ⟨hn, fun {_ _} h => nodeB_ok (List.all_eq_true.1 hnn _ h)⟩, ⟨b, (rowB_ok hd).1, hb⟩,
    List.forall₂_iff_zip.2 ⟨he, fun {_ _} h => elemB_ok (List.all_eq_true.1 hee _ h)⟩⟩

/-! ### Certificates for connectivity -/

/-- The faces of the table, as pairs of end vertices, each with its number. -/
def faces (nf k : Nat) (e2v : List Int) : List ((Int × Int) × Nat) := (List.range (nf * k)).map fun g => (ends nf e2v g, g)

/-- Do the two faces have the same ends? -/
def sameB (p q : Int × Int) : Bool := decide (p = q) || decide (p = q.swap)

/-- Every face has two different ends; the face that the tables give for it has the same ends, and no third face has; a face without another one
is given itself. -/
def connB (nf : Nat) (fs : List ((Int × Int) × Nat)) (E F : List Nat) : Bool :=
  (List.zip fs (List.zip E F)).all fun t =>
    decide (t.1.1.1 ≠ t.1.1.2) && decide (t.2.2 < nf) &&
    decide (t.2.1 * nf + t.2.2 < fs.length) &&
    fs.all fun q => decide (q.2 = t.1.2) || (sameB t.1.1 q.1 == decide (q.2 = t.2.1 * nf + t.2.2))

theorem conn_ok {nv nf k : Nat} {e2v : List Int} {E F : List Nat} (wrap : Bool) (hnf : nf = 3 ∨ nf = 4) (hlen : e2v.length = nf * k)
    (hv : (e2v.all fun v => decide (0 ≤ v ∧ v < (nv : Int))) = true) (hov : nv * (nf * k) ≤ intMax) (hE : E.length = nf * k) (hF : F.length = nf * k)
    (hb : connB nf (faces nf k e2v) E F = true) (a b : List Nat) (ha : a.length = nf * k)
    (hb' : b.length = nf * k) : buildConnectivity wrap nv nf k e2v a b = .ok (E, F) := by
  have hv' : ∀ v ∈ e2v, 0 ≤ v ∧ v < (nv : Int) := fun v h => by simpa using List.all_eq_true.1 hv v h
  have key : ∀ g < nf * k, (ends nf e2v g).1 ≠ (ends nf e2v g).2 ∧ F.getD g 0 < nf ∧ E.getD g 0 * nf + F.getD g 0 < nf * k ∧
      ∀ g' < nf * k, g' ≠ g → (SameEdge nf e2v g g' ↔ g' = E.getD g 0 * nf + F.getD g 0) := by
    intro g hg
    have hm : ((ends nf e2v g, g), (E.getD g 0, F.getD g 0)) ∈ List.zip (faces nf k e2v) (List.zip E F) := by
      rw [List.mem_iff_getElem]
      refine ⟨g, by simp [faces, hE, hF, hg], ?_⟩
      simp [faces, List.getElem_zip, List.getD_eq_getElem?_getD, hE, hF, hg]
    have h1 := List.all_eq_true.1 hb _ hm
    simp only [Bool.and_eq_true, decide_eq_true_eq] at h1
    refine ⟨h1.1.1.1, h1.1.1.2, by simpa [faces] using h1.1.2, fun g' hg' hne => ?_⟩
    have h2 := List.all_eq_true.1 h1.2 (ends nf e2v g', g') (by simp only [faces, List.mem_map, List.mem_range]; exact ⟨g', hg', rfl⟩)
    simp only [Bool.or_eq_true, decide_eq_true_eq, hne, false_or, beq_iff_eq] at h2
    unfold SameEdge
    rw [← decide_eq_true_iff (p := g' = E.getD g 0 * nf + F.getD g 0), ← h2]
    simp [sameB]
  obtain ⟨E', F', e, l1, l2, hh⟩ := C21_connectivity wrap nv nf k e2v a b hnf hlen hv' (fun g hg => (key g hg).1) (Or.inl hov) ha hb'
  have hnf0 : 0 < nf := by omega
  have same : ∀ g < nf * k, E'.getD g 0 = E.getD g 0 ∧ F'.getD g 0 = F.getD g 0 := by
    intro g hg
    obtain ⟨-, kf, kl, ks⟩ := key g hg
    obtain ⟨h, hl, e1, e2, h3⟩ := hh g hg
    have hh' : h = E.getD g 0 * nf + F.getD g 0 := by
      rcases h3 with ⟨rfl, hn⟩ | ⟨hne, hs⟩
      · by_contra hc
        exact hn _ kl (fun c => hc c.symm) ((ks _ kl (fun c => hc c.symm)).2 rfl)
      · exact (ks h hl hne).1 hs
    rw [e1, e2, hh', Nat.mul_comm, Nat.mul_add_div hnf0, Nat.mul_add_mod, Nat.div_eq_of_lt kf, Nat.mod_eq_of_lt kf, Nat.add_zero]
    exact ⟨rfl, rfl⟩
  have ext : ∀ l l' : List Nat, l.length = nf * k → l'.length = nf * k → (∀ g < nf * k, l.getD g 0 = l'.getD g 0) → l = l' := by
    intro l l' h1 h2 h
    refine List.ext_getElem (by omega) fun i p q => ?_
    have := h i (by omega)
    rwa [List.getD_eq_getElem?_getD, List.getD_eq_getElem?_getD, List.getElem?_eq_getElem p, List.getElem?_eq_getElem q] at this
  rw [e, ext E' E l1 hE fun g hg => (same g hg).1, ext F' F l2 hF fun g hg => (same g hg).2]

/-! ### The mesh of the test -/

/-- The node lines of input/coarse_box.msh. -/
def coarseNodeLines : List Str :=
  [chars! "1 -1 -1 0", chars! "2 1 -1 0", chars! "3 1 1 0", chars! "4 -1 1 0", chars! "5 -0.5000000000013871 1 0", chars! "6 -2.752797989558076e-12 1 0",
   chars! "7 0.4999999999986129 1 0", chars! "8 1 0.5000000000013871 0", chars! "9 1 2.752797989558076e-12 0",
   chars! "10 1 -0.4999999999986129 0", chars! "11 0.5000000000013871 -1 0", chars! "12 2.752797989558076e-12 -1 0",
   chars! "13 -0.4999999999986129 -1 0", chars! "14 -1 -0.5000000000013871 0", chars! "15 -1 -2.752797989558076e-12 0",
   chars! "16 -1 0.4999999999986129 0", chars! "17 -5.418753048657249e-18 -1.806251016219083e-18 0",
   chars! "18 0.4166666666668979 0.4166666666664354 0", chars! "19 0.4166666666664354 -0.4166666666668979 0",
   chars! "20 -0.4166666666668979 -0.4166666666664354 0", chars! "21 -0.4166666666664355 0.4166666666668978 -0",
   chars! "22 3.105515844481487e-13 0.5595238095238095 0", chars! "23 0.5595238095238094 -3.105515844481488e-13 0",
   chars! "24 -3.105515844481488e-13 -0.5595238095238094 0", chars! "25 -0.5595238095238095 3.104373900799017e-13 -0",
   chars! "26 -0.6770833333338246 0.6770833333328421 -0", chars! "27 0.677083333332842 0.6770833333338245 0",
   chars! "28 0.6770833333338245 -0.677083333332842 0", chars! "29 -0.677083333332842 -0.6770833333338245 0"]

/-- The element lines of input/coarse_box.msh. -/
def coarseElemLines : List Str :=
  [chars! "1 15 2 0 1 1", chars! "2 15 2 0 2 2", chars! "3 15 2 0 3 3", chars! "4 15 2 0 4 4", chars! "5 1 2 0 1 4 5", chars! "6 1 2 0 1 5 6",
   chars! "7 1 2 0 1 6 7", chars! "8 1 2 0 1 7 3", chars! "9 1 2 0 2 3 8", chars! "10 1 2 0 2 8 9", chars! "11 1 2 0 2 9 10", chars! "12 1 2 0 2 10 2",
   chars! "13 1 2 0 3 2 11", chars! "14 1 2 0 3 11 12", chars! "15 1 2 0 3 12 13", chars! "16 1 2 0 3 13 1", chars! "17 1 2 0 4 1 14",
   chars! "18 1 2 0 4 14 15", chars! "19 1 2 0 4 15 16", chars! "20 1 2 0 4 16 4", chars! "21 2 2 0 1 8 23 18", chars! "22 2 2 0 1 11 24 19",
   chars! "23 2 2 0 1 5 22 21", chars! "24 2 2 0 1 14 25 20", chars! "25 2 2 0 1 16 21 25", chars! "26 2 2 0 1 10 19 23",
   chars! "27 2 2 0 1 13 20 24", chars! "28 2 2 0 1 7 18 22", chars! "29 2 2 0 1 5 6 22", chars! "30 2 2 0 1 8 9 23", chars! "31 2 2 0 1 11 12 24",
   chars! "32 2 2 0 1 14 15 25", chars! "33 2 2 0 1 6 7 22", chars! "34 2 2 0 1 9 10 23", chars! "35 2 2 0 1 12 13 24", chars! "36 2 2 0 1 15 16 25",
   chars! "37 2 2 0 1 17 22 18", chars! "38 2 2 0 1 17 21 22", chars! "39 2 2 0 1 17 18 23", chars! "40 2 2 0 1 17 19 24",
   chars! "41 2 2 0 1 17 20 25", chars! "42 2 2 0 1 17 23 19", chars! "43 2 2 0 1 17 24 20", chars! "44 2 2 0 1 17 25 21",
   chars! "45 2 2 0 1 8 18 27", chars! "46 2 2 0 1 11 19 28", chars! "47 2 2 0 1 14 20 29", chars! "48 2 2 0 1 5 21 26", chars! "49 2 2 0 1 7 27 18",
   chars! "50 2 2 0 1 10 28 19", chars! "51 2 2 0 1 13 29 20", chars! "52 2 2 0 1 16 26 21", chars! "53 2 2 0 1 1 29 13",
   chars! "54 2 2 0 1 2 28 10", chars! "55 2 2 0 1 3 27 7", chars! "56 2 2 0 1 4 26 16", chars! "57 2 2 0 1 1 14 29", chars! "58 2 2 0 1 2 11 28",
   chars! "59 2 2 0 1 3 8 27", chars! "60 2 2 0 1 4 5 26"]

/-- The lines of input/coarse_box.msh. -/
def coarseLines : List Str :=
  [chars! "$MeshFormat", chars! "2.2 0 8", chars! "$EndMeshFormat", chars! "$Nodes", chars! "29"] ++ coarseNodeLines ++
    [chars! "$EndNodes", chars! "$Elements", chars! "60"] ++ coarseElemLines ++ [chars! "$EndElements"]

/-- input/coarse_box.msh -/
def coarseBox : Str := coarseLines.flatMap fun l => l ++ ['\n']

/-- What the node lines say. -/
def coarseNodes : List (Int × ℚ × ℚ × ℚ) :=
  [(1, -1, -1, 0), (2, 1, -1, 0),
   (3, 1, 1, 0), (4, -1, 1, 0),
   (5, -0.5000000000013871, 1, 0), (6, -2.752797989558076e-12, 1, 0),
   (7, 0.4999999999986129, 1, 0), (8, 1, 0.5000000000013871, 0),
   (9, 1, 2.752797989558076e-12, 0), (10, 1, -0.4999999999986129, 0),
   (11, 0.5000000000013871, -1, 0), (12, 2.752797989558076e-12, -1, 0),
   (13, -0.4999999999986129, -1, 0), (14, -1, -0.5000000000013871, 0),
   (15, -1, -2.752797989558076e-12, 0), (16, -1, 0.4999999999986129, 0),
   (17, -5.418753048657249e-18, -1.806251016219083e-18, 0), (18, 0.4166666666668979, 0.4166666666664354, 0),
   (19, 0.4166666666664354, -0.4166666666668979, 0), (20, -0.4166666666668979, -0.4166666666664354, 0),
   (21, -0.4166666666664355, 0.4166666666668978, 0), (22, 3.105515844481487e-13, 0.5595238095238095, 0),
   (23, 0.5595238095238094, -3.105515844481488e-13, 0), (24, -3.105515844481488e-13, -0.5595238095238094, 0),
   (25, -0.5595238095238095, 3.104373900799017e-13, 0), (26, -0.6770833333338246, 0.6770833333328421, 0),
   (27, 0.677083333332842, 0.6770833333338245, 0), (28, 0.6770833333338245, -0.677083333332842, 0),
   (29, -0.677083333332842, -0.6770833333338245, 0)]

/-- What the element lines say: four corners, sixteen boundary edges, forty triangles. -/
def coarseElems : List Elem :=
  [⟨1, 15, [0, 1], [1]⟩, ⟨2, 15, [0, 2], [2]⟩, ⟨3, 15, [0, 3], [3]⟩, ⟨4, 15, [0, 4], [4]⟩,
   ⟨5, 1, [0, 1], [4, 5]⟩, ⟨6, 1, [0, 1], [5, 6]⟩, ⟨7, 1, [0, 1], [6, 7]⟩, ⟨8, 1, [0, 1], [7, 3]⟩,
   ⟨9, 1, [0, 2], [3, 8]⟩, ⟨10, 1, [0, 2], [8, 9]⟩, ⟨11, 1, [0, 2], [9, 10]⟩, ⟨12, 1, [0, 2], [10, 2]⟩,
   ⟨13, 1, [0, 3], [2, 11]⟩, ⟨14, 1, [0, 3], [11, 12]⟩, ⟨15, 1, [0, 3], [12, 13]⟩, ⟨16, 1, [0, 3], [13, 1]⟩,
   ⟨17, 1, [0, 4], [1, 14]⟩, ⟨18, 1, [0, 4], [14, 15]⟩, ⟨19, 1, [0, 4], [15, 16]⟩, ⟨20, 1, [0, 4], [16, 4]⟩,
   ⟨21, 2, [0, 1], [8, 23, 18]⟩, ⟨22, 2, [0, 1], [11, 24, 19]⟩, ⟨23, 2, [0, 1], [5, 22, 21]⟩, ⟨24, 2, [0, 1], [14, 25, 20]⟩,
   ⟨25, 2, [0, 1], [16, 21, 25]⟩, ⟨26, 2, [0, 1], [10, 19, 23]⟩, ⟨27, 2, [0, 1], [13, 20, 24]⟩, ⟨28, 2, [0, 1], [7, 18, 22]⟩,
   ⟨29, 2, [0, 1], [5, 6, 22]⟩, ⟨30, 2, [0, 1], [8, 9, 23]⟩, ⟨31, 2, [0, 1], [11, 12, 24]⟩, ⟨32, 2, [0, 1], [14, 15, 25]⟩,
   ⟨33, 2, [0, 1], [6, 7, 22]⟩, ⟨34, 2, [0, 1], [9, 10, 23]⟩, ⟨35, 2, [0, 1], [12, 13, 24]⟩, ⟨36, 2, [0, 1], [15, 16, 25]⟩,
   ⟨37, 2, [0, 1], [17, 22, 18]⟩, ⟨38, 2, [0, 1], [17, 21, 22]⟩, ⟨39, 2, [0, 1], [17, 18, 23]⟩, ⟨40, 2, [0, 1], [17, 19, 24]⟩,
   ⟨41, 2, [0, 1], [17, 20, 25]⟩, ⟨42, 2, [0, 1], [17, 23, 19]⟩, ⟨43, 2, [0, 1], [17, 24, 20]⟩, ⟨44, 2, [0, 1], [17, 25, 21]⟩,
   ⟨45, 2, [0, 1], [8, 18, 27]⟩, ⟨46, 2, [0, 1], [11, 19, 28]⟩, ⟨47, 2, [0, 1], [14, 20, 29]⟩, ⟨48, 2, [0, 1], [5, 21, 26]⟩,
   ⟨49, 2, [0, 1], [7, 27, 18]⟩, ⟨50, 2, [0, 1], [10, 28, 19]⟩, ⟨51, 2, [0, 1], [13, 29, 20]⟩, ⟨52, 2, [0, 1], [16, 26, 21]⟩,
   ⟨53, 2, [0, 1], [1, 29, 13]⟩, ⟨54, 2, [0, 1], [2, 28, 10]⟩, ⟨55, 2, [0, 1], [3, 27, 7]⟩, ⟨56, 2, [0, 1], [4, 26, 16]⟩,
   ⟨57, 2, [0, 1], [1, 14, 29]⟩, ⟨58, 2, [0, 1], [2, 11, 28]⟩, ⟨59, 2, [0, 1], [3, 8, 27]⟩, ⟨60, 2, [0, 1], [4, 5, 26]⟩]

/-- Line 204, `expectedVerts`. -/
def expectedVerts : List ℚ :=
  [-1, -1, 0, 1, -1, 0, 1, 1, 0, -1, 1, 0, -0.5, 1, 0,
   -2.7528e-12, 1, 0, 0.5, 1, 0, 1, 0.5, 0, 1, 2.7528e-12, 0, 1, -0.5, 0,
   0.5, -1, 0, 2.7528e-12, -1, 0, -0.5, -1, 0, -1, -0.5, 0, -1, -2.7528e-12, 0,
   -1, 0.5, 0, -5.41875e-18, -1.80625e-18, 0, 0.416667, 0.416667, 0, 0.416667, -0.416667, 0, -0.416667, -0.416667, 0,
   -0.416667, 0.416667, 0, 3.10552e-13, 0.559524, 0, 0.559524, -3.10552e-13, 0, -3.10552e-13, -0.559524, 0, -0.559524, 3.10437e-13, 0,
   -0.677083, 0.677083, 0, 0.677083, 0.677083, 0, 0.677083, -0.677083, 0, -0.677083, -0.677083, 0]

/-- Line 205, `expectedBcTable`. -/
def expectedBc : List Nat :=
  [0, 0, 0, 0, 0, 0, 0, 0, 0, 0, 0, 0, 0, 0, 0, 0, 0, 0, 0, 0, 0, 0, 0, 0, 0, 0, 3, 0, 0, 3, 0, 0, 3, 0, 0, 3, 0, 0, 3, 0,
   0, 3, 0, 0, 3, 0, 0, 3, 0, 0, 0, 0, 0, 0, 0, 0, 0, 0, 0, 0, 0, 0, 0, 0, 0, 0, 0, 0, 0, 0, 0, 0, 0, 0, 0, 0, 0, 0, 0, 0,
   0, 0, 0, 0, 0, 0, 0, 0, 0, 0, 0, 0, 0, 0, 0, 0, 3, 0, 0, 3, 0, 0, 3, 0, 0, 3, 0, 0, 0, 0, 3, 0, 0, 3, 0, 0, 3, 0, 0, 3]

/-- Line 206, `expectedElements`. -/
def expectedElements : List Int :=
  [7, 17, 22, 10, 18, 23, 4, 20, 21, 13, 19, 24, 15, 24, 20, 9, 22, 18, 12, 23, 19, 6, 21, 17, 4, 21, 5, 7, 22, 8, 10, 23, 11, 13, 24, 14, 5, 21, 6, 8,
   22, 9, 11, 23, 12, 14, 24, 15, 16, 17, 21, 16, 21, 20, 16, 22, 17, 16, 23, 18, 16, 24, 19, 16, 18, 22, 16, 19, 23, 16, 20, 24, 7, 26, 17, 10, 27, 18, 13, 28,
   19, 4, 25, 20, 6, 17, 26, 9, 18, 27, 12, 19, 28, 15, 20, 25, 0, 12, 28, 1, 9, 27, 2, 6, 26, 3, 15, 25, 0, 28, 13, 1, 27, 10, 2, 26, 7, 3, 25, 4]

/-- Line 207, `expectedEToE`. -/
def expectedEToE : List Nat :=
  [24, 18, 9, 25, 19, 10, 27, 17, 8, 26, 20, 11, 15, 23, 31, 13, 21, 29, 14, 22, 30, 12, 16, 28, 2, 12, 8, 0, 13, 9, 1, 14, 10, 3, 15, 11, 8, 7, 12, 9,
   5, 13, 10, 6, 14, 11, 4, 15, 18, 7, 17, 16, 2, 23, 21, 0, 16, 22, 1, 21, 23, 3, 22, 19, 5, 18, 20, 6, 19, 17, 4, 20, 38, 28, 0, 37, 29, 1, 36, 30,
   3, 39, 31, 2, 7, 24, 34, 5, 25, 33, 6, 26, 32, 4, 27, 35, 32, 30, 36, 33, 29, 37, 34, 28, 38, 35, 31, 39, 32, 26, 36, 33, 25, 37, 34, 24, 38, 35, 27, 39]

/-- Line 208, `expectedEToF`. -/
def expectedEToF : List Nat :=
  [2, 1, 0, 2, 1, 0, 2, 1, 0, 2, 1, 0, 1, 1, 0, 1, 1, 0, 1, 1, 0, 1, 1, 0, 2, 0, 2, 2, 0, 2, 2, 0, 2, 2, 0, 2, 1, 0, 2, 1,
   0, 2, 1, 0, 2, 1, 0, 2, 2, 1, 0, 2, 1, 0, 2, 1, 0, 2, 1, 0, 2, 1, 0, 2, 1, 0, 2, 1, 0, 2, 1, 0, 1, 1, 0, 1, 1, 0, 1, 1,
   0, 1, 1, 0, 2, 1, 1, 2, 1, 1, 2, 1, 1, 2, 1, 1, 0, 2, 0, 0, 2, 0, 0, 2, 0, 0, 2, 0, 2, 0, 2, 2, 0, 2, 2, 0, 2, 2, 0, 2]



/-- The coordinates in the file, as exact decimals. -/
def fileVerts : List ℚ :=
  [-1, -1, 0, 1, -1, 0, 1, 1, 0,
   -1, 1, 0, -0.5000000000013871, 1, 0, -2.752797989558076e-12, 1, 0,
   0.4999999999986129, 1, 0, 1, 0.5000000000013871, 0, 1, 2.752797989558076e-12, 0,
   1, -0.4999999999986129, 0, 0.5000000000013871, -1, 0, 2.752797989558076e-12, -1, 0,
   -0.4999999999986129, -1, 0, -1, -0.5000000000013871, 0, -1, -2.752797989558076e-12, 0,
   -1, 0.4999999999986129, 0, -5.418753048657249e-18, -1.806251016219083e-18, 0, 0.4166666666668979, 0.4166666666664354, 0,
   0.4166666666664354, -0.4166666666668979, 0, -0.4166666666668979, -0.4166666666664354, 0, -0.4166666666664355, 0.4166666666668978, 0,
   3.105515844481487e-13, 0.5595238095238095, 0, 0.5595238095238094, -3.105515844481488e-13, 0, -3.105515844481488e-13, -0.5595238095238094, 0,
   -0.5595238095238095, 3.104373900799017e-13, 0, -0.6770833333338246, 0.6770833333328421, 0, 0.677083333332842, 0.6770833333338245, 0,
   0.6770833333338245, -0.677083333332842, 0, -0.677083333332842, -0.6770833333338245, 0]

/-- The triangles in the file, numbered from 0: all of them are clockwise there. -/
def fileElements : List Int :=
  [7, 22, 17, 10, 23, 18, 4, 21, 20, 13, 24, 19, 15, 20, 24, 9, 18, 22, 12, 19, 23, 6, 17, 21, 4, 5, 21, 7, 8, 22, 10, 11, 23, 13, 14, 24, 5, 6, 21, 8,
   9, 22, 11, 12, 23, 14, 15, 24, 16, 21, 17, 16, 20, 21, 16, 17, 22, 16, 18, 23, 16, 19, 24, 16, 22, 18, 16, 23, 19, 16, 24, 20, 7, 17, 26, 10, 18, 27, 13, 19,
   28, 4, 20, 25, 6, 26, 17, 9, 27, 18, 12, 28, 19, 15, 25, 20, 0, 28, 12, 1, 27, 9, 2, 26, 6, 3, 25, 15, 0, 13, 28, 1, 10, 27, 2, 7, 26, 3, 4, 25]

theorem coarse_file : MshFile conv coarseNodes coarseElems coarseLines :=
  mshFile_ok (v := (chars! "2.2")) (t := (chars! "0")) (s := (chars! "8")) (a := (chars! "29")) (b := (chars! "60")) (by decide +kernel) (by decide +kernel) (by decide +kernel)
    (by decide +kernel) (by decide +kernel) (by decide +kernel) (by decide +kernel) (by decide +kernel) (by decide +kernel) (by decide +kernel) (by decide +kernel)
    (by decide +kernel)

theorem coarse_lines : Lines coarseBox coarseLines := lines_flat coarseLines (by decide +kernel)

theorem coarse_turned : ccw fileVerts 3 3 40 fileElements = .ok expectedElements := by decide +kernel

theorem coarse_bc : buildBCTable wall 3 40 expectedEToE (List.replicate (40 * 3) 0) = .ok expectedBc := by decide +kernel

theorem coarse_conn : connB 3 (faces 3 40 expectedElements) expectedEToE expectedEToF = true := by decide +kernel

theorem coarse_typed : ∀ e ∈ coarseElems, e.typed := by
  have h : (coarseElems.all fun e => decide (e.verts.length = 1 → e.ty = 15) && decide (e.verts.length = 2 → e.ty = 1) &&
      decide (e.verts.length = 3 → e.ty = 2) && decide (e.verts.length = 4 → e.ty = 3)) = true := by decide +kernel
  intro e he
  have := List.all_eq_true.1 h e he
  simp only [Bool.and_eq_true, decide_eq_true_eq] at this
  exact ⟨this.1.1.1, this.1.1.2, this.1.2, this.2⟩

theorem coarse_table : elemTable ((kind 3 coarseElems).map Elem.row) ((kind 4 coarseElems).map Elem.row) = .ok (3, 40, fileElements) := by decide +kernel

theorem coarse_verts : coarseNodes.foldl putNode (List.replicate (coarseNodes.length * 3) 77) = fileVerts := by decide +kernel

/-- Lines 180-227, Can_Read_Gmsh_Mesh: the shipped file is read to the tables that the test expects. -/
theorem coarse_read : readMesh conv false 77 MM.new (some coarseBox) = .ok
    { dim := 3, nv := 29, nf := 3, k := 40, vert := fileVerts, e2v := expectedElements, e2e := expectedEToE, e2f := expectedEToF, bc := expectedBc } := by
  rw [readMesh_eq conv false 77 MM.new coarseBox coarseLines coarse_lines coarseNodes coarseElems coarse_file (by decide +kernel) coarse_typed,
    coarse_table, Out.bind_ok]
  show finish false 3 29 3 40 _ fileElements = _
  rw [coarse_verts, finish, coarse_turned, Out.bind_ok,
    conn_ok false (Or.inl rfl) (by decide +kernel) (by decide +kernel) (by decide) (by decide +kernel) (by decide +kernel) coarse_conn _ _ (by simp) (by simp), Out.bind_ok]
  show (buildBCTable wall 3 40 expectedEToE _ >>= _) = _
  rw [coarse_bc, Out.bind_ok]
  rfl

/-- `normInf(verts - expectedVerts) < 3.4e-7` (line 222). -/
example : fileVerts.length = expectedVerts.length ∧ ((fileVerts.zip expectedVerts).all fun p => decide (|p.1 - p.2| < 3.4e-7)) = true := by
  decide +kernel

end Blitzdg.Conform
