import Verif.Py.Model
import Verif.Blitz.ReshapeProps
import Verif.Sparse.CscLemmas
import Verif.Ctx.GaussProps

/-! C59: arrays handed to Python have the shape and the entries of the C++ arrays. -/

namespace Blitzdg.Py

open Blitzdg.Sparse (DMat rowMajor Csc readCol WF colVal cooVal)
open Blitzdg.Ctx
open Blitzdg.SW (Grid Mesh)

variable {α : Type}

/-! ### Specification -/

/-- What Python sees as `a[i]`, `a[i, j]`, `a[i, j, k]` of a contiguous array. -/
def NdArray.at1 (a : NdArray α) (i : ℕ) : Option α :=
  match a.shape with
  | [n] => if i < n then a.data[i]? else none
  | _ => none
def NdArray.at2 (a : NdArray α) (i j : ℕ) : Option α :=
  match a.shape with
  | [m, n] => if i < m ∧ j < n then a.data[i * n + j]? else none
  | _ => none
def NdArray.at3 (a : NdArray α) (i j k : ℕ) : Option α :=
  match a.shape with
  | [l, m, n] => if i < l ∧ j < m ∧ k < n then a.data[(i * m + j) * n + k]? else none
  | _ => none

/-- The array is the matrix. -/
def SameMat (a : NdArray α) (m : DMat α) : Prop := a.shape = [m.rows, m.cols] ∧ ∀ i < m.rows, ∀ j < m.cols, a.at2 i j = some (m.at' i j)

/-- The array is the vector. -/
def SameVec (a : NdArray α) (l : List α) : Prop := a.shape = [l.length] ∧ ∀ i (h : i < l.length), a.at1 i = some l[i]

/-- The array is a vector written row by row. -/
def SameRows (a : NdArray α) (m n : ℕ) (l : List α) : Prop := a.shape = [m, n] ∧ ∀ i < m, ∀ j < n, ∃ x, l[i * n + j]? = some x ∧ a.at2 i j = some x

/-! ### Lemmas -/

theorem copyLoop (src dst : List α) (k : ℕ) (h : k + src.length ≤ dst.length) :
    loopM (fun (s : List α × ℕ) x => do
      let d ← wr s.1 s.2 x
      pure (d, s.2 + 1)) (dst, k) src = .ok (dst.take k ++ src ++ dst.drop (k + src.length), k + src.length) := by
  induction src generalizing dst k with
  | nil => simp
  | cons x src ih =>
    simp only [List.length_cons] at h
    have hk : k < dst.length := by omega
    rw [loopM_cons]
    simp only [wr_of_lt hk, Out.bind_ok, Out.pure_eq]
    have := ih (dst.set k x) (k + 1) (by simp; omega)
    simp only [Out.pure_eq] at this
    rw [this]
    congr 2
    · have h1 : (dst.set k x).take (k + 1) = dst.take k ++ [x] := by
        rw [List.take_succ_eq_append_getElem (by simp; omega)]
        simp [List.take_set_of_le]
      rw [h1, List.drop_set_of_lt (by omega)]
      simp [Nat.add_comm, Nat.add_left_comm]
    · simp; omega

theorem copyInto_ok (dst src : List α) (h : src.length ≤ dst.length) : copyInto dst src = .ok (src ++ dst.drop src.length) := by
  unfold copyInto
  rw [copyLoop src dst 0 (by omega)]
  simp

theorem copyLoop_ub (src dst : List α) (k : ℕ) (h : dst.length < k + src.length) (hk : k ≤ dst.length) :
    loopM (fun (s : List α × ℕ) x => do
      let d ← wr s.1 s.2 x
      pure (d, s.2 + 1)) (dst, k) src = .ub := by
  induction src generalizing dst k with
  | nil => simp at h; omega
  | cons x src ih =>
    simp only [List.length_cons] at h
    rw [loopM_cons]
    by_cases hlt : k < dst.length
    · simp only [wr_of_lt hlt, Out.bind_ok, Out.pure_eq]
      have := ih (dst.set k x) (k + 1) (by simp; omega) (by simp; omega)
      simp only [Out.pure_eq] at this
      exact this
    · simp only [wr, hlt, if_false, Out.bind_ub]

theorem copyInto_ub (dst src : List α) (h : dst.length < src.length) : copyInto dst src = .ub := by
  unfold copyInto
  rw [copyLoop_ub src dst 0 (by omega) (by omega)]
  rfl

theorem storage_length (m : DMat α) : (storage m).length = m.rows * m.cols := by
  simp [storage, Blitz.rowMajor_length]

theorem storage_get (m : DMat α) {i j : ℕ} (hi : i < m.rows) (hj : j < m.cols) : (storage m)[i * m.cols + j]? = some (m.at' i j) := by
  simp [storage, Blitz.rowMajor_get _ _ i j hi hj]

theorem exportTo_eq [Zero α] (shape : List ℕ) (src : List α) (h : src.length = shape.prod) : exportTo shape src = .ok ⟨shape, src⟩ := by
  unfold exportTo
  rw [copyInto_ok _ _ (by simp [npZeros, h])]
  simp [npZeros, h]

theorem exportTo_ub [Zero α] (shape : List ℕ) (src : List α) (h : shape.prod < src.length) : exportTo shape src = .ub := by
  unfold exportTo
  rw [copyInto_ub _ _ (by simp [npZeros, h])]
  rfl

theorem export_mat [Zero α] (m : DMat α) : ∃ a, exportTo [m.rows, m.cols] (storage m) = .ok a ∧ SameMat a m := by
  refine ⟨_, exportTo_eq _ _ (by simp [storage_length]), rfl, fun i hi j hj => ?_⟩
  simp [NdArray.at2, hi, hj, storage_get m hi hj]

theorem export_vec [Zero α] (l : List α) (n : ℕ) (h : l.length = n) : ∃ a, exportTo [n] l = .ok a ∧ SameVec a l := by
  subst h
  exact ⟨_, exportTo_eq _ _ (by simp), rfl, fun i hi => by simp [NdArray.at1, hi]⟩

theorem export_rows [Zero α] (l : List α) (m n : ℕ) (h : l.length = m * n) : ∃ a, exportTo [m, n] l = .ok a ∧ SameRows a m n l := by
  refine ⟨_, exportTo_eq _ _ (by simp [h]), rfl, fun i hi j hj => ?_⟩
  have hp : i * n + j < l.length := by
    rw [h]
    calc i * n + j < i * n + n := by omega
      _ = (i + 1) * n := by ring
      _ ≤ m * n := Nat.mul_le_mul_right _ hi
  exact ⟨l[i * n + j], by simp [hp], by simp [NdArray.at2, hi, hj, hp]⟩

theorem flatMap_get {β γ : Type} (l : List β) (f : β → List γ) (n : ℕ) (hn : ∀ x ∈ l, (f x).length = n) (p k : ℕ) (hp : p < l.length) (hk : k < n) :
    (l.flatMap f)[p * n + k]? = (f l[p])[k]? := by
  induction l generalizing p with
  | nil => simp at hp
  | cons x l ih =>
    rw [List.flatMap_cons]
    have hx := hn x (by simp)
    cases p with
    | zero => rw [List.getElem?_append_left (by simp [hx]; omega)]; simp
    | succ p =>
      rw [List.getElem?_append_right (by rw [hx]; nlinarith), hx]
      have := ih (fun y hy => hn y (by simp [hy])) p (by simpa using hp)
      rw [show (p + 1) * n + k - n = p * n + k by rw [Nat.succ_mul]; omega]
      simpa using this

theorem storage3_length (n0 n1 n2 : ℕ) (t : ℕ → DMat α) : (storage3 n0 n1 n2 t).length = n0 * n1 * n2 := by
  simp [storage3, List.length_flatMap, Blitz.rowMajor_length]

theorem storage3_get (n0 n1 n2 : ℕ) (t : ℕ → DMat α) {i j k : ℕ} (hi : i < n0) (hj : j < n1) (hk : k < n2) :
    (storage3 n0 n1 n2 t)[(i * n1 + j) * n2 + k]? = some ((t k).at' i j) := by
  have hg := Blitz.rowMajor_get n0 n1 i j hi hj
  obtain ⟨hp, he⟩ := List.getElem?_eq_some_iff.1 hg
  unfold storage3
  rw [flatMap_get _ _ n2 (by simp) _ _ hp hk, he]
  simp [hk]

/-! ### C59 -/

/-- **C59, Gauss face context.** Every getter except `sx` returns the matrix. -/
theorem C59_gauss_partial (c : GaussFace) (f : GField) (hf : f ≠ .sx) : ∃ a, gaussNumpy (some c) f = .ok a ∧ SameMat a (f.mat c) := by
  have h := export_mat (f.mat c)
  cases f <;> first | exact absurd rfl hf | exact h

theorem gauss_dims {la : Nodes1D.Lapack} {eps : ℝ} {g : Grid} {m : Mesh} {NG : ℕ} {c : GaussFace} (h : buildGauss la eps g m NG = .ok c) :
    c.sx.rows = 3 * NG ∧ c.sx.cols = g.K := by
  unfold buildGauss at h
  obtain ⟨⟨z, w⟩, -, h⟩ := Out.bind_eq_ok.1 h
  obtain ⟨⟨mapM, r⟩, -, h⟩ := Out.bind_eq_ok.1 h
  simp only [Out.pure_eq, Out.ok.injEq] at h
  rw [← h]
  exact ⟨rfl, rfl⟩

/-- **C59, the getter `sx` of the Gauss face context.** On a mesh with more elements than there are Gauss points around an element (`3*NGauss`) it writes past the end of the new array;
with fewer elements it returns an array of the wrong shape. It is right only for exactly `3*NGauss` elements. -/
theorem C59_gauss_sx {la : Nodes1D.Lapack} {eps : ℝ} {g : Grid} {m : Mesh} {NG : ℕ} {c : GaussFace} (hc : buildGauss la eps g m NG = .ok c) (hNG : 1 ≤ NG) :
    (3 * NG < g.K → gaussNumpy (some c) .sx = .ub) ∧
    (g.K < 3 * NG → ∃ a, gaussNumpy (some c) .sx = .ok a ∧ a.shape = [3 * NG, 3 * NG] ∧ ¬ SameMat a c.sx) ∧
    (g.K = 3 * NG → ∃ a, gaussNumpy (some c) .sx = .ok a ∧ SameMat a c.sx) := by
  obtain ⟨hr, hk⟩ := gauss_dims hc
  have hl : (storage c.sx).length = 3 * NG * g.K := by rw [storage_length, hr, hk]
  refine ⟨fun h => ?_, fun h => ?_, fun h => ?_⟩
  · apply exportTo_ub
    show [c.sx.rows, c.sx.rows].prod < (storage c.sx).length
    rw [hl, hr]
    simp only [List.prod_cons, List.prod_nil, mul_one]
    exact Nat.mul_lt_mul_of_pos_left h (by omega)
  · have he : gaussNumpy (some c) .sx = .ok ⟨[c.sx.rows, c.sx.rows], storage c.sx ++ (npZeros (α := ℝ) [c.sx.rows, c.sx.rows]).data.drop (storage c.sx).length⟩ := by
      unfold gaussNumpy exportTo
      show (copyInto (npZeros (α := ℝ) [c.sx.rows, c.sx.rows]).data (storage c.sx) >>= _) = _
      rw [copyInto_ok _ _ (by rw [hl, hr]; simp only [npZeros, List.length_replicate, List.prod_cons, List.prod_nil, mul_one]; exact Nat.mul_le_mul_left _ h.le)]
      rfl
    refine ⟨_, he, by rw [hr], fun hs => ?_⟩
    have := hs.1
    rw [hr, hk] at this
    simp at this
    omega
  · have := export_mat c.sx
    have e : [c.sx.rows, c.sx.cols] = [c.sx.rows, c.sx.rows] := by rw [hr, hk, h]
    rw [e] at this
    exact this

/-- **C59, Gauss face maps.** -/
theorem C59_index (l : List ℕ) : ∃ a, indexNumpy l = .ok a ∧ SameVec a l := export_vec l _ rfl

/-- **C59, cubature context.** All matrix getters. -/
theorem C59_cubature (c : Cubature) (f : CField) : ∃ a, cubNumpy (some c) f = .ok a ∧ SameMat a (f.mat c) := export_mat (f.mat c)

/-- **C59, cubature context.** Reference coordinates and weights. -/
theorem C59_vector (l : List ℝ) : ∃ a, vecNumpy l = .ok a ∧ SameVec a l := export_vec l _ rfl

/-- **C59, cubature context.** Mass matrices and Cholesky factors: entry `(i, j, k)` is entry `(i, j)` of the matrix of element `k`. -/
theorem C59_tensor (n0 n1 n2 : ℕ) (t : ℕ → DMat ℝ) : ∃ a, tensorNumpy n0 n1 n2 t = .ok a ∧ a.shape = [n0, n1, n2] ∧
    ∀ i < n0, ∀ j < n1, ∀ k < n2, a.at3 i j k = some ((t k).at' i j) := by
  refine ⟨_, exportTo_eq _ _ (by simp [storage3_length, mul_assoc]), rfl, fun i hi j hj k hk => ?_⟩
  simp [NdArray.at3, hi, hj, hk, storage3_get n0 n1 n2 t hi hj hk]

/-- **C59, DG context of a triangle provisioner.** The shapes given by the getters are those allocated by the constructor, for every order and number of elements. -/
theorem C59_triangle [Zero α] (N K : ℕ) (f : DField) (m : DMat α) (hm : (m.rows, m.cols) = triAlloc N K f) :
    ∃ a, dgNumpy (triSizes N K) f m = .ok a ∧ SameMat a m := by
  obtain ⟨h1, h2⟩ := Prod.mk.inj hm
  have : f.shape (triSizes N K) = [m.rows, m.cols] := by
    rw [h1, h2]
    cases f <;> simp [DField.shape, triSizes, Nat.mul_comm]
  unfold dgNumpy
  rw [this]
  exact export_mat m

/-- **C59, DG context of a quadrilateral provisioner.** -/
theorem C59_quadrilateral [Zero α] (N K : ℕ) (f : DField) (m : DMat α) (hm : (m.rows, m.cols) = quadAlloc N K f) :
    ∃ a, dgNumpy (quadSizes N K) f m = .ok a ∧ SameMat a m := by
  obtain ⟨h1, h2⟩ := Prod.mk.inj hm
  have : f.shape (quadSizes N K) = [m.rows, m.cols] := by
    rw [h1, h2]
    cases f <;> simp [DField.shape, quadSizes, Nat.mul_comm]
  unfold dgNumpy
  rw [this]
  exact export_mat m

/-- **C59, DG context.** Reference nodes and the maps of a built triangle grid. -/
theorem C59_grid {la : Nodes1D.Lapack} {eps ztol tol : ℝ} {N : ℕ} {m : Mesh} {P : ℕ → ℕ} {g : Grid} (h : SW.Provisioned la eps ztol tol N m P g) :
    (∃ a, dgVecNumpy (triSizes g.N g.K) g.n.r = .ok a ∧ SameVec a g.n.r) ∧
    (∃ a, dgMapNumpy (triSizes g.N g.K) g.maps.vmapM = .ok a ∧ SameVec a g.maps.vmapM) ∧
    (∃ a, dgMapNumpy (triSizes g.N g.K) g.maps.vmapP = .ok a ∧ SameVec a g.maps.vmapP) := by
  obtain ⟨x, hg, -⟩ := h.spec
  refine ⟨export_vec _ _ ?_, export_vec _ _ ?_, export_vec _ _ ?_⟩
  · rw [hg.nodes]; simp [Grid.np, triSizes, Nat.mul_comm]
  · rw [hg.lenM]; simp [Grid.nf, triSizes]
  · rw [hg.lenP]; simp [Grid.nf, triSizes]

/-- **C59, mesh.** The element, vertex and boundary tables, for a mesh object with tables of the sizes that the readers and builders allocate. -/
theorem C59_mesh {R : Type} [Zero R] (M : Mesh.MM R) (h1 : M.e2v.length = M.k * M.nf) (h2 : M.vert.length = M.nv * M.dim) (h3 : M.bc.length = M.k * M.nf) :
    (∃ a, elementsNumpy (some M) = .ok a ∧ SameRows a M.k M.nf M.e2v) ∧ (∃ a, verticesNumpy (some M) = .ok a ∧ SameRows a M.nv M.dim M.vert) ∧
    (∃ a, bcTypeNumpy (some M) = .ok a ∧ SameRows a M.k M.nf M.bc) :=
  ⟨export_rows _ _ _ h1, export_rows _ _ _ h2, export_rows _ _ _ h3⟩

/-- **C59, default-constructed objects.** `GaussFaceContext2D()`, `CubatureContext2D()` and `MeshManager()` can be made from Python; reading any array of them dereferences a null pointer. -/
theorem C59_null {R : Type} [Zero R] (f : GField) (f' : CField) : gaussNumpy none f = .ub ∧ cubNumpy none f' = .ub ∧ elementsNumpy (none : Option (Mesh.MM R)) = .ub ∧
    verticesNumpy (none : Option (Mesh.MM R)) = .ub ∧ bcTypeNumpy (none : Option (Mesh.MM R)) = .ub := ⟨rfl, rfl, rfl, rfl, rfl⟩

/-- The square of two triangles: one point per face gives a 3 x 3 array for the 3 x 2 matrix `sx`. -/
example : ∃ g c a, g.K = 2 ∧ buildGauss Nodes1D.exactLapack (1 / 2 ^ 52) g SW.square 1 = .ok c ∧ gaussNumpy (some c) .sx = .ok a ∧ a.shape = [3, 3] ∧ ¬ SameMat a c.sx := by
  obtain ⟨g, hg, -⟩ := SW.square_grid
  obtain ⟨x, -, -, hK, -⟩ := hg.spec
  obtain ⟨c, h1, -⟩ := C94_one hg
  obtain ⟨a, h2, h3, h4⟩ := (C59_gauss_sx h1 (le_refl 1)).2.1 (by rw [hK]; decide)
  exact ⟨g, c, a, hK, h1, h2, h3, h4⟩

/-- A 2 x 3 matrix of a cubature context arrives with entry (1, 2) in place. -/
example (c : Cubature) : ∃ a, cubNumpy (some { c with W := ⟨2, 3, fun i j => 10 * i + j⟩ }) .W = .ok a ∧ a.shape = [2, 3] ∧ a.at2 1 2 = some 12 := by
  obtain ⟨a, h1, h2, h3⟩ := C59_cubature { c with W := ⟨2, 3, fun i j => 10 * i + j⟩ } .W
  refine ⟨a, h1, h2, ?_⟩
  rw [h3 1 (show 1 < 2 by decide) 2 (show 2 < 3 by decide)]
  norm_num [CField.mat]

/-! ### Boundary lists -/

theorem appendAll (l acc : List ℕ) : l.foldl (fun l n => l ++ [n]) acc = acc ++ l := by
  induction l generalizing acc with
  | nil => simp
  | cons a l ih => rw [List.foldl_cons, ih]; simp

theorem dictSet_new (d : List (ℕ × List ℕ)) (k : ℕ) (v : List ℕ) (h : k ∉ d.map Prod.fst) : dictSet d k v = d ++ [(k, v)] := by
  unfold dictSet
  rw [if_neg]
  simp only [List.any_eq_true, beq_iff_eq, not_exists, not_and]
  intro t ht hk
  exact h (List.mem_map.2 ⟨t, ht, hk⟩)

theorem dictFold (entries d : List (ℕ × List ℕ)) (h : ((d ++ entries).map Prod.fst).Nodup) :
    entries.foldl (fun d t => dictSet d t.1 (t.2.foldl (fun l n => l ++ [n]) [])) d = d ++ entries := by
  induction entries generalizing d with
  | nil => simp
  | cons t es ih =>
    rw [List.foldl_cons, appendAll, List.nil_append, dictSet_new]
    · rw [ih]
      · simp
      · simpa using h
    · intro hm
      rw [List.map_append, List.map_cons, List.nodup_append] at h
      exact h.2.2 _ hm _ (List.mem_cons_self ..) rfl

/-- **C59, boundary lists.** The dictionary has for every tag exactly the list the library holds for it, and no entry for tags it does not hold; this does not depend on the order in which
the hash map is traversed. -/
theorem C59_dict (bc : DG2D.TagMap) (entries : List (ℕ × List ℕ)) (hnd : (entries.map Prod.fst).Nodup) (hbc : ∀ t l, (t, l) ∈ entries ↔ bc t = some l) :
    ((exportDict entries).map Prod.fst).Nodup ∧ ∀ t l, (t, l) ∈ exportDict entries ↔ bc t = some l := by
  have : exportDict entries = entries := by
    unfold exportDict
    rw [dictFold entries [] (by simpa using hnd), List.nil_append]
  rw [this]
  exact ⟨hnd, hbc⟩

/-- The lists of a map with walls and an outlet, in either order of traversal. -/
example : exportDict [(3, [0, 1, 5]), (2, [7])] = [(3, [0, 1, 5]), (2, [7])] ∧ exportDict [(2, [7]), (3, [0, 1, 5])] = [(2, [7]), (3, [0, 1, 5])] := by decide

end Blitzdg.Py
