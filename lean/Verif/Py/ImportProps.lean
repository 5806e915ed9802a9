import Verif.Py.ExportProps

/-! C95: arrays taken from Python, and C96: the sparse matrices handed to Python. -/

namespace Blitzdg.Py

open Blitzdg.Sparse (DMat rowMajor Csc readCol WF colVal cooVal Represents)

variable {α : Type}

/-- A C-contiguous array inside its buffer. -/
structure View.Contiguous (v : View α) : Prop where
  row : v.st0 = v.s1
  col : v.st1 = 1
  fits : v.off + v.s0 * v.s1 ≤ v.mem.length

/-- The matrix is the array: same shape, same entries. -/
def SameView (m : DMat α) (v : View α) : Prop := m.rows = v.s0 ∧ m.cols = v.s1 ∧ ∀ i < v.s0, ∀ j < v.s1, v.at' i j = some (m.at' i j)

theorem rawLoop (mem : List α) (off n : ℕ) (acc : List α) (h : off + n ≤ mem.length) :
    loopM (fun l k => do
      let x ← rd mem (off + k)
      pure (l ++ [x])) acc (List.range n) = .ok (acc ++ (mem.drop off).take n) := by
  induction n generalizing acc with
  | zero => simp
  | succ n ih =>
    rw [List.range_succ, loopM_append, ih acc (by omega)]
    have hlt : off + n < mem.length := by omega
    simp only [Out.bind_ok, loopM_cons, rd_of_lt hlt, Out.pure_eq, loopM_nil]
    rw [List.append_assoc, List.take_add_one]
    simp [List.getElem?_drop, hlt]

theorem rawLoop_ub (mem : List α) (off n : ℕ) (acc : List α) (h : mem.length < off + n) (ho : off ≤ mem.length) :
    loopM (fun l k => do
      let x ← rd mem (off + k)
      pure (l ++ [x])) acc (List.range n) = .ub := by
  have hs : List.range n = List.range (mem.length - off) ++ (mem.length - off) :: (List.range' (mem.length - off + 1) (n - (mem.length - off) - 1)) := by
    rw [List.range_eq_range', List.range_eq_range', ← List.range'_succ]
    have := @List.range'_append 0 (mem.length - off) (n - (mem.length - off) - 1 + 1) 1
    simp only [Nat.zero_add, Nat.one_mul] at this
    rw [this]
    congr 1
    omega
  rw [hs, loopM_append, rawLoop mem off _ acc (by omega)]
  rw [Out.bind_ok, loopM_cons]
  have : mem[off + (mem.length - off)]? = none := List.getElem?_eq_none (by omega)
  simp [rd, this]

theorem raw_ok (v : View α) (h : v.off + v.s0 * v.s1 ≤ v.mem.length) : v.raw = .ok ((v.mem.drop v.off).take (v.s0 * v.s1)) := by
  unfold View.raw
  rw [rawLoop _ _ _ _ h, List.nil_append]

theorem idx_lt {m n i j : ℕ} (hi : i < m) (hj : j < n) : i * n + j < m * n := by
  calc i * n + j < i * n + n := by omega
    _ = (i + 1) * n := by ring
    _ ≤ m * n := Nat.mul_le_mul_right _ hi

theorem View.Contiguous.at_eq {v : View α} (h : v.Contiguous) {i j : ℕ} (hi : i < v.s0) (hj : j < v.s1) :
    v.at' i j = ((v.mem.drop v.off).take (v.s0 * v.s1))[i * v.s1 + j]? := by
  have hp := idx_lt hi hj
  unfold View.at'
  rw [h.row, h.col]
  have e : (v.off : Int) + i * v.s1 + j * 1 = ((v.off + (i * v.s1 + j) : ℕ) : Int) := by push_cast; ring
  rw [if_pos (by rw [e]; exact Int.natCast_nonneg _), e, Int.toNat_natCast, List.getElem?_take, if_pos hp, List.getElem?_drop]

theorem take_len {v : View α} (h : v.off + v.s0 * v.s1 ≤ v.mem.length) : ((v.mem.drop v.off).take (v.s0 * v.s1)).length = v.s0 * v.s1 := by
  simp; omega

theorem getD_of_lt [Zero α] {l : List α} {k : ℕ} (h : k < l.length) : l[k]? = some (l.getD k 0) := by
  simp [h]

/-- **C95, arguments.** A C-contiguous array of doubles becomes the matrix with the same entries. -/
theorem C95_contiguous_partial [Zero α] (v : View α) (h : v.Contiguous) : ∃ m, fromNumpy v = .ok m ∧ SameView m v := by
  have hl := take_len h.fits
  unfold fromNumpy
  rw [raw_ok v h.fits, Out.bind_ok, copyInto_ok _ _ (by simp), Out.bind_ok]
  refine ⟨_, rfl, rfl, rfl, fun i hi j hj => ?_⟩
  have hp := idx_lt hi hj
  rw [h.at_eq hi hj]
  simp only []
  rw [← getD_of_lt (by rw [List.length_append]; omega), List.getElem?_append_left (by omega)]

/-- **C95, counterexample.** The transpose of an array is a view with exchanged strides; it arrives untransposed, so for `[[1,2],[3,4]].T` the entry in row 0, column 1 is 2 instead of 3. -/
theorem C95_transposed : ∃ v : View Int, (∀ i < 2, ∀ j < 2, v.at' i j = some ([[1, 3], [2, 4]].getD i [] |>.getD j 0)) ∧
    ∃ m, fromNumpy v = .ok m ∧ m.rows = 2 ∧ m.cols = 2 ∧ m.at' 0 1 = 2 ∧ v.at' 0 1 = some 3 := by
  refine ⟨⟨[1, 2, 3, 4], 0, 2, 2, 1, 2⟩, by decide, _, rfl, rfl, rfl, by decide, by decide⟩

/-- **C95, counterexample.** An array reversed with `[::-1]` starts at the last element of its buffer; the call reads past the end. -/
theorem C95_reversed : ∃ v : View Int, (∀ i < 2, v.at' i 0 = some ([2, 1].getD i 0)) ∧ fromNumpy v = .ub := by
  refine ⟨⟨[1, 2], 1, 2, 1, -1, 1⟩, by decide, rfl⟩

/-- **C95, round trip.** An exported matrix handed back is the same matrix. -/
theorem C95_roundtrip [Zero α] (m : DMat α) : ∃ a, exportTo [m.rows, m.cols] (storage m) = .ok a ∧
    ∃ m', fromNumpy ⟨a.data, 0, m.rows, m.cols, m.cols, 1⟩ = .ok m' ∧ m'.rows = m.rows ∧ m'.cols = m.cols ∧ ∀ i < m.rows, ∀ j < m.cols, m'.at' i j = m.at' i j := by
  refine ⟨_, exportTo_eq _ _ (by simp [storage_length]), ?_⟩
  have hc : (⟨storage m, 0, m.rows, m.cols, m.cols, 1⟩ : View α).Contiguous := ⟨rfl, rfl, by simp [storage_length]⟩
  obtain ⟨m', h1, h2, h3, h4⟩ := C95_contiguous_partial _ hc
  refine ⟨m', h1, h2, h3, fun i hi j hj => ?_⟩
  have e := h4 i hi j hj
  rw [hc.at_eq hi hj] at e
  simp only [List.drop_zero] at e
  rw [← storage_length m, List.take_length] at e
  have := storage_get m hi hj
  exact Option.some.inj (e.symm.trans this)

/-- **C95, setCoordinates.** For a C-contiguous array of the shape of the grid the new grid is the array. -/
theorem C95_coordinates_partial [Zero α] (grid : DMat α) (v : View α) (h : v.Contiguous) (h0 : v.s0 = grid.rows) (h1 : v.s1 = grid.cols) :
    ∃ m, setGrid grid v = .ok m ∧ SameView m v := by
  have hl := take_len h.fits
  unfold setGrid
  rw [raw_ok v h.fits, Out.bind_ok, copyInto_ok _ _ (by rw [hl, storage_length, h0, h1]), Out.bind_ok]
  refine ⟨_, rfl, h0.symm, h1.symm, fun i hi j hj => ?_⟩
  have hp := idx_lt hi hj
  rw [h.at_eq hi hj]
  simp only []
  rw [← h1, ← getD_of_lt (by rw [List.length_append]; omega), List.getElem?_append_left (by omega)]

/-- **C95, setCoordinates does not look at the shape.** A larger array overwrites memory behind the grid. -/
theorem C95_coordinates_large [Zero α] (grid : DMat α) (v : View α) (h : v.Contiguous) (hs : grid.rows * grid.cols < v.s0 * v.s1) : setGrid grid v = .ub := by
  unfold setGrid
  rw [raw_ok v h.fits, Out.bind_ok, copyInto_ub _ _ (by rw [take_len h.fits, storage_length]; exact hs)]
  rfl

/-- **C95, setCoordinates does not look at the shape.** An array with the two dimensions exchanged is accepted and its entries are distributed row by row. -/
theorem C95_coordinates_shape : ∃ (grid : DMat Int) (v : View Int), grid.rows = 2 ∧ grid.cols = 3 ∧ v.Contiguous ∧ v.s0 = 3 ∧ v.s1 = 2 ∧
    ∃ m, setGrid grid v = .ok m ∧ m.at' 1 0 = 4 ∧ v.at' 1 0 = some 3 ∧ v.at' 0 1 = some 2 :=
  ⟨⟨2, 3, fun _ _ => 0⟩, ⟨[1, 2, 3, 4, 5, 6], 0, 3, 2, 2, 1⟩, rfl, rfl, ⟨rfl, rfl, by decide⟩, rfl, rfl, _, rfl, by decide, by decide, by decide⟩

/-! ### setBCType -/

theorem toInt32_word (x : Int) (h1 : -2147483648 ≤ x) (h2 : x < 2147483648) : toInt32 (x % 4294967296).toNat = x := by
  unfold toInt32
  split <;> omega

theorem toInt32_words (l : List Int) (h : ∀ x ∈ l, -2147483648 ≤ x ∧ x < 2147483648) : (words32 l).map toInt32 = l := by
  unfold words32
  rw [List.map_map]
  conv_rhs => rw [← List.map_id l]
  exact List.map_congr_left fun x hx => toInt32_word x (h x hx).1 (h x hx).2

theorem setBC_eq (t : List Int) (n : ℕ) (mem : List ℕ) (hm : n ≤ mem.length) : setBCType (some t) n mem = copyInto t ((mem.take n).map toInt32) := by
  have := raw_ok (⟨mem, 0, n, 1, 1, 1⟩ : View ℕ) (by simpa using hm)
  unfold setBCType
  simp only [this, Out.bind_ok, Nat.mul_one, List.drop_zero]

/-- **C95, setBCType.** A contiguous array of 32-bit integers with as many entries as the table replaces the table. -/
theorem C95_bcType_partial (t new : List Int) (hl : new.length = t.length) (h : ∀ x ∈ new, -2147483648 ≤ x ∧ x < 2147483648) :
    setBCType (some t) new.length (words32 new) = .ok new := by
  rw [setBC_eq _ _ _ (by simp [words32]), List.take_of_length_le (by simp [words32]), toInt32_words new h, copyInto_ok _ _ hl.le]
  simp [hl]

/-- **C95, setBCType does not look at the element type.** With numpy's default 64-bit integers the table receives low and high words alternately: for non-negative tags below 2^32 every other entry
becomes 0 and the second half of the array is lost. -/
theorem C95_bcType_int64 (t new : List Int) (hl : new.length = t.length) (h : ∀ x ∈ new, 0 ≤ x ∧ x < 2147483648) :
    ∃ r, setBCType (some t) new.length (words64 new) = .ok r ∧ r.length = t.length ∧ ∀ i < t.length, r[i]? = if i % 2 = 0 then new[i / 2]? else some 0 := by
  have hlen : (words64 new).length = 2 * new.length := by simp [words64, List.length_flatMap]; omega
  have hget : ∀ i < 2 * new.length, (words64 new)[i]? = if i % 2 = 0 then (new[i / 2]?).map Int.toNat else some 0 := by
    intro i hi
    have hq : i / 2 < new.length := by omega
    have := flatMap_get new (fun v => [(v % 4294967296).toNat, (v / 4294967296 % 4294967296).toNat]) 2 (by simp) (i / 2) (i % 2) hq (Nat.mod_lt _ (by decide))
    rw [show i / 2 * 2 + i % 2 = i by omega] at this
    unfold words64
    rw [this]
    obtain ⟨h1, h2⟩ := h new[i / 2] (List.getElem_mem hq)
    rcases Nat.mod_two_eq_zero_or_one i with e | e
    · rw [if_pos e, e]
      simp only [List.getElem?_cons_zero, List.getElem?_eq_getElem hq, Option.map_some, Option.some.injEq]
      omega
    · rw [if_neg (by omega), e]
      simp only [List.getElem?_cons_succ, List.getElem?_cons_zero, Option.some.injEq]
      omega
  have hl2 : (((words64 new).take new.length).map toInt32).length = t.length := by simp [hlen]; omega
  refine ⟨_, (setBC_eq t _ _ (by omega)).trans ((copyInto_ok _ _ hl2.le).trans rfl), by simp [hlen]; omega, fun i hi => ?_⟩
  rw [List.getElem?_append_left (by omega), List.getElem?_map, List.getElem?_take, if_pos (by omega), hget i (by omega)]
  split
  · have hq : i / 2 < new.length := by omega
    obtain ⟨h1, h2⟩ := h new[i / 2] (List.getElem_mem hq)
    simp only [List.getElem?_eq_getElem hq, Option.map_some, Option.some.injEq, toInt32]
    split <;> omega
  · simp [toInt32]

/-- **C95, setBCType does not look at the shape.** A larger array overwrites memory behind the table; before a mesh is read a null pointer is dereferenced. -/
theorem C95_bcType_large (t new : List Int) (hl : t.length < new.length) : setBCType (some t) new.length (words32 new) = .ub ∧ setBCType none new.length (words32 new) = .ub := by
  refine ⟨?_, rfl⟩
  rw [setBC_eq _ _ _ (by simp [words32])]
  exact copyInto_ub _ _ (by simp [words32]; omega)

/-- Tags of four faces, given as 32-bit and as 64-bit integers. -/
example : setBCType (some [3, 0, 3, 3]) 4 (words32 [6, 0, 7, 6]) = .ok [6, 0, 7, 6] ∧ setBCType (some [3, 0, 3, 3]) 4 (words64 [6, 0, 7, 6]) = .ok [6, 0, 0, 0] := by decide

/-- A C-contiguous 2 x 3 view in the middle of a buffer. -/
example : (⟨[9, 1, 2, 3, 4, 5, 6, 9], 1, 2, 3, 3, 1⟩ : View Int).Contiguous ∧ (⟨[9, 1, 2, 3, 4, 5, 6, 9], 1, 2, 3, 3, 1⟩ : View Int).at' 1 2 = some 6 := ⟨⟨rfl, rfl, by decide⟩, by decide⟩

/-! ### C96 -/

/-- The entries of the columns `j0, j0 + 1, ...` with their column number. -/
def tagged : ℕ → List (List (ℕ × α)) → List (ℕ × ℕ × α)
  | _, [] => []
  | j, col :: cols => col.map (fun e => (e.1, j, e.2)) ++ tagged (j + 1) cols

theorem tagged_length (j : ℕ) (cols : List (List (ℕ × α))) : (tagged j cols).length = cols.flatten.length := by
  induction cols generalizing j with
  | nil => rfl
  | cons c cols ih => simp [tagged, ih]

theorem sparseInner (j : ℕ) (col : List (ℕ × α)) (d : List (ℕ × ℕ × α)) (k : ℕ) (h : k + col.length ≤ d.length) :
    loopM (fun (s : List (ℕ × ℕ × α) × ℕ) e => do
      let d ← wr s.1 s.2 (e.1, j, e.2)
      pure (d, s.2 + 1)) (d, k) col = .ok (d.take k ++ col.map (fun e => (e.1, j, e.2)) ++ d.drop (k + col.length), k + col.length) := by
  have := copyLoop (col.map fun e => (e.1, j, e.2)) d k (by simpa using h)
  rw [List.length_map] at this
  rw [← this]
  clear this h
  induction col generalizing d k with
  | nil => rfl
  | cons e col ih =>
    simp only [List.map_cons, loopM_cons]
    cases wr d k (e.1, j, e.2) with
    | ok d' => exact ih d' (k + 1)
    | throws => rfl
    | ub => rfl

theorem sparseLoop {c : Csc α} (cols : List (List (ℕ × α))) (j : ℕ) (hr : ∀ i (h : i < cols.length), readCol c (j + i) = some cols[i]) (d : List (ℕ × ℕ × α)) (k : ℕ)
    (h : k + cols.flatten.length ≤ d.length) :
    loopM (fun (s : List (ℕ × ℕ × α) × ℕ) j =>
      match readCol c j with
      | none => .ub
      | some col => loopM (fun (s : List (ℕ × ℕ × α) × ℕ) e => do
          let d ← wr s.1 s.2 (e.1, j, e.2)
          pure (d, s.2 + 1)) s col) (d, k) (List.range' j cols.length)
      = .ok (d.take k ++ tagged j cols ++ d.drop (k + cols.flatten.length), k + cols.flatten.length) := by
  induction cols generalizing j d k with
  | nil => simp [tagged]
  | cons col cols ih =>
    rw [List.length_cons, List.range'_succ, loopM_cons]
    have h0 := hr 0 (by simp)
    simp only [Nat.add_zero, List.getElem_cons_zero] at h0
    simp only [List.flatten_cons, List.length_append] at h
    simp only [h0]
    have hin := sparseInner j col d k (by omega)
    simp only [Out.pure_eq] at hin ⊢
    rw [hin, Out.bind_ok]
    have hih := ih (j + 1) (fun i hi => by
      have := hr (i + 1) (by simpa using hi)
      rw [show j + (i + 1) = j + 1 + i by omega] at this
      simpa using this) (d.take k ++ col.map (fun e => (e.1, j, e.2)) ++ d.drop (k + col.length)) (k + col.length) (by simp only [List.length_append, List.length_take, List.length_map, List.length_drop]; omega)
    simp only [Out.pure_eq] at hih
    refine hih.trans ?_
    have hk : k ≤ d.length := by omega
    have e1 : (d.take k ++ col.map (fun e => (e.1, j, e.2)) ++ d.drop (k + col.length)).take (k + col.length) = d.take k ++ col.map (fun e => (e.1, j, e.2)) := by
      rw [List.take_left' (by simp; omega)]
    have e2 : (d.take k ++ col.map (fun e => (e.1, j, e.2)) ++ d.drop (k + col.length)).drop (k + col.length + cols.flatten.length) = d.drop (k + (col ++ cols.flatten).length) := by
      rw [List.drop_append, List.drop_of_length_le (by simp; omega)]
      simp only [List.nil_append, List.length_append, List.length_take, List.length_map, List.drop_drop]
      congr 1
      omega
    rw [e1, e2]
    simp [tagged, List.append_assoc, Nat.add_assoc]

theorem cooVal_append [AddMonoid α] (a b : List (ℕ × ℕ × α)) (i j : ℕ) : cooVal (a ++ b) i j = cooVal a i j + cooVal b i j := by
  simp [cooVal]

theorem cooVal_tag [AddMonoid α] (j j' : ℕ) (col : List (ℕ × α)) (i : ℕ) : cooVal (col.map fun e => (e.1, j, e.2)) i j' = if j = j' then colVal col i else 0 := by
  unfold cooVal colVal
  rw [List.filter_map, List.map_map]
  by_cases h : j = j'
  · subst h
    rw [if_pos rfl]
    congr 1
    simp [Function.comp_def]
  · rw [if_neg h]
    simp [Function.comp_def, h]

theorem cooVal_tagged [AddMonoid α] (cols : List (List (ℕ × α))) (j0 i j : ℕ) : cooVal (tagged j0 cols) i (j0 + j) = colVal (cols.getD j []) i := by
  induction cols generalizing j0 j with
  | nil => simp [tagged, cooVal, colVal]
  | cons col cols ih =>
    rw [tagged, cooVal_append, cooVal_tag]
    cases j with
    | zero =>
      have : ∀ (cols : List (List (ℕ × α))) (a b : ℕ), b < a → cooVal (tagged a cols) i b = 0 := by
        intro cols
        induction cols with
        | nil => intro a b _; simp [tagged, cooVal]
        | cons c cs ih2 =>
          intro a b hab
          rw [tagged, cooVal_append, cooVal_tag, if_neg (by omega), ih2 _ _ (by omega), add_zero]
      rw [if_pos (by omega), Nat.add_zero, this _ _ _ (by omega), add_zero]
      rfl
    | succ j =>
      rw [if_neg (by omega), zero_add, show j0 + (j + 1) = j0 + 1 + j by omega, ih]
      rfl

theorem cooVal_zeros [AddMonoid α] (n i j : ℕ) : cooVal (List.replicate n ((0, 0, 0) : ℕ × ℕ × α)) i j = 0 := by
  unfold cooVal
  induction n with
  | zero => rfl
  | succ n ih =>
    rw [List.replicate_succ, List.filter_cons]
    split
    · rw [List.map_cons, List.sum_cons, ih]; exact add_zero _
    · exact ih

/-- **C96.** The rows `(row, column, value)` exported by `getOP` and `getMM` are, in column order, the stored entries of the matrix, followed by rows `(0, 0, 0)` if the storage is
larger than the number of entries; in particular the coordinate matrix built from them has the entries of the sparse matrix. -/
theorem C96_sparse [AddMonoid α] (c : Csc α) (f : ℕ → ℕ → α) (h : Represents c f) :
    ∃ rows cols, sparseNumpy c = .ok rows ∧ WF c cols ∧ rows.length = c.nnz ∧ rows.take cols.flatten.length = tagged 0 cols ∧
      (∀ r ∈ rows.drop cols.flatten.length, r = (0, 0, 0)) ∧ ∀ i j, j < c.n → cooVal rows i j = f i j := by
  obtain ⟨cols, hwf, hv⟩ := h
  have hle : cols.flatten.length ≤ c.nnz := hwf.len_le
  have hrun := sparseLoop (c := c) cols 0 (fun i hi => by rw [Nat.zero_add]; exact hwf.readCol hi) (List.replicate c.nnz (0, 0, 0)) 0 (by simpa using hle)
  rw [hwf.ncols, ← List.range_eq_range'] at hrun
  have hrun2 : sparseNumpy c = .ok (tagged 0 cols ++ List.replicate (c.nnz - cols.flatten.length) (0, 0, 0)) := by
    unfold sparseNumpy
    refine (congrArg (· >>= _) hrun).trans ?_
    simp
  have htl := tagged_length 0 cols
  refine ⟨_, cols, hrun2, hwf, by rw [List.length_append, htl, List.length_replicate]; omega, by rw [← htl, List.take_left], fun r hr => ?_, fun i j hj => ?_⟩
  · rw [← htl, List.drop_left] at hr
    exact List.eq_of_mem_replicate hr
  · rw [cooVal_append, cooVal_zeros, add_zero]
    have := cooVal_tagged cols 0 i j
    rw [Nat.zero_add] at this
    have hj' : j < cols.length := by rw [hwf.ncols]; exact hj
    rw [this, List.getD_eq_getElem _ _ hj']
    exact hv i j hj'

/-- A 2 x 2 matrix with three entries in storage for four. -/
example : sparseNumpy (Sparse.layout 2 4 [[(0, 5), (1, 6)], [(1, 7)]] : Csc Int) = .ok [(0, 0, 5), (1, 0, 6), (1, 1, 7), (0, 0, 0)] ∧
    Represents (Sparse.layout 2 4 [[(0, 5), (1, 6)], [(1, 7)]] : Csc Int) (fun i j => if j = 0 then colVal [(0, 5), (1, 6)] i else colVal [(1, 7)] i) := by
  refine ⟨by decide, [[(0, 5), (1, 6)], [(1, 7)]], Sparse.wf_layout (by decide), fun i j hj => ?_⟩
  match j, hj with
  | 0, _ => rfl
  | 1, _ => rfl

end Blitzdg.Py
