import Verif.Sparse.Arrays
import Verif.Sparse.CscProps

/-!
C149: sparse triplets built from arrays.
-/

namespace Blitzdg.Sparse

variable {α : Type}

/-- The first `nnz` entries described by three arrays. -/
def firstEntries (nnz : Nat) (rs cs : List Int) (xs : List α) : List (Int × Int × α) := (rs.take nnz).zip ((cs.take nnz).zip (xs.take nnz))

/-- `d` is the smallest size that has room for the first `n` indices of `l`. -/
def LeastSize (l : List Int) (n : Nat) (d : Int) : Prop := (∀ i ∈ l.take n, i < d) ∧ ∃ i ∈ l.take n, i + 1 = d

/-- What a caller owes: arrays with at least `nnz` elements, `nnz` at least one, indices that are not negative and have a successor. -/
structure ArraysOk (nnz : Nat) (rs cs : List Int) (xs : List α) : Prop where
  some : 1 ≤ nnz
  rlen : nnz ≤ rs.length
  clen : nnz ≤ cs.length
  xlen : nnz ≤ xs.length
  rin : ∀ i ∈ rs.take nnz, 0 ≤ i ∧ i < intMax
  cin : ∀ i ∈ cs.take nnz, 0 ≤ i ∧ i < intMax

theorem maxElement_ok (l : List Int) (n : Nat) (hn : 1 ≤ n) (hl : n ≤ l.length) :
    ∃ m, maxElement l n = .ok m ∧ m ∈ l.take n ∧ ∀ i ∈ l.take n, i ≤ m := by
  have key : ∀ k, k + 1 ≤ l.length → ∃ m, (do
      let a ← rd l 0
      loopM (fun m k => do let b ← rd l (k + 1); pure (if m < b then b else m)) a (List.range k)) = .ok m ∧
      m ∈ l.take (k + 1) ∧ ∀ i ∈ l.take (k + 1), i ≤ m := by
    intro k
    induction k with
    | zero =>
      intro hk
      match l, hk with
      | a :: l, _ => exact ⟨a, rfl, by simp, by simp⟩
    | succ k ih =>
      intro hk
      obtain ⟨m, e, hm, hle⟩ := ih (by omega)
      rw [rd_of_lt (by omega), Out.bind_ok] at e ⊢
      have hb : k + 1 < l.length := by omega
      refine ⟨if m < l[k + 1] then l[k + 1] else m, ?_, ?_, ?_⟩
      · rw [List.range_succ, loopM_append, e, Out.bind_ok, loopM_cons, rd_of_lt hb]; rfl
      · rw [List.take_add_one, List.getElem?_eq_getElem hb, List.mem_append]
        split
        · right; simp
        · left; exact hm
      · intro i hi
        rw [List.take_add_one, List.getElem?_eq_getElem hb, List.mem_append] at hi
        rcases hi with hi | hi
        · have := hle i hi; split <;> omega
        · have : i = l[k + 1] := by simpa using hi
          subst this; split <;> omega
  obtain ⟨k, rfl⟩ : ∃ k, n = k + 1 := ⟨n - 1, by omega⟩
  exact key k hl

theorem holds_sized {nnz : Nat} {rs cs : List Int} {xs : List α} (hr : nnz ≤ rs.length) (hc : nnz ≤ cs.length) (hx : nnz ≤ xs.length) (rows cols : Int) :
    ∃ t, ofSized rows cols nnz rs cs xs = .ok t ∧ t.rows = rows.toNat ∧ t.cols = cols.toNat ∧ t.nzmax = nnz ∧ Holds t (firstEntries nnz rs cs xs) := by
  refine ⟨_, by rw [ofSized, if_neg (by omega)], rfl, rfl, rfl, ?_⟩
  have hlen : (firstEntries nnz rs cs xs).length = nnz := by simp [firstEntries]; omega
  constructor
  · exact hlen.symm
  · exact le_refl nnz
  · simp only [List.length_take]; omega
  · simp only [List.length_take]; omega
  · simp only [List.length_take]; omega
  · intro k hk
    rw [entry_ok]
    rw [hlen] at hk
    have h1 : k < rs.length := by omega
    have h2 : k < cs.length := by omega
    have h3 : k < xs.length := by omega
    simp [firstEntries, hk, h1, h2, h3]

/-- **C149, construction.** For all arrays that keep the documented condition, with at least one entry: the constructor succeeds, the object holds the
first `nnz` entries in their order, its size is the smallest one with room for them, and its capacity is exactly used. -/
theorem C149_arrays (nnz : Nat) (rs cs : List Int) (xs : List α) (h : ArraysOk nnz rs cs xs) :
    ∃ t, ofArrays nnz rs cs xs = .ok t ∧ LeastSize rs nnz t.rows ∧ LeastSize cs nnz t.cols ∧ t.nnz = nnz ∧ t.nzmax = nnz ∧
      ∀ k < nnz, ∃ r c x, rs[k]? = some r ∧ cs[k]? = some c ∧ xs[k]? = some x ∧ entry t k = .ok (r, c, x) := by
  obtain ⟨m, e1, m1, m2⟩ := maxElement_ok rs nnz h.some h.rlen
  obtain ⟨n, e2, n1, n2⟩ := maxElement_ok cs nnz h.some h.clen
  have hm := h.rin m m1
  have hn := h.cin n n1
  obtain ⟨t, e3, t1, t2, t3, t4⟩ := holds_sized h.rlen h.clen h.xlen (m + 1) (n + 1)
  have hlen : (firstEntries nnz rs cs xs).length = nnz := by
    have := h.rlen; have := h.clen; have := h.xlen; simp [firstEntries]; omega
  refine ⟨t, ?_, ⟨fun i hi => ?_, m, m1, ?_⟩, ⟨fun i hi => ?_, n, n1, ?_⟩, ?_, t3, fun k hk => ?_⟩
  · rw [ofArrays, e1, Out.bind_ok, plusOne, if_pos hm.2, Out.bind_ok, e2, Out.bind_ok, plusOne, if_pos hn.2, Out.bind_ok, e3]
  · have := m2 i hi; rw [t1]; omega
  · rw [t1]; omega
  · have := n2 i hi; rw [t2]; omega
  · rw [t2]; omega
  · rw [t4.nnz, hlen]
  · have h1 : k < rs.length := by have := h.rlen; omega
    have h2 : k < cs.length := by have := h.clen; omega
    have h3 : k < xs.length := by have := h.xlen; omega
    refine ⟨rs[k], cs[k], xs[k], by simp [h1], by simp [h2], by simp [h3], ?_⟩
    have := t4.entries k (by omega)
    rw [this]
    simp [firstEntries]

/-- The object built is one to which every statement about histories applies. -/
theorem arrays_holds {nnz : Nat} {rs cs : List Int} {xs : List α} (h : ArraysOk nnz rs cs xs) {t : Triplet α} (ht : ofArrays nnz rs cs xs = .ok t) :
    Holds t (firstEntries nnz rs cs xs) := by
  simp only [ofArrays, Out.bind_eq_ok] at ht
  obtain ⟨m, _, rows, _, n, _, cols, _, e⟩ := ht
  obtain ⟨t', e3, _, _, _, t4⟩ := holds_sized h.rlen h.clen h.xlen rows cols
  rw [e3, Out.ok.injEq] at e
  exact e ▸ t4

/-- **C149, afterwards.** Any history of `insert`, `expand` and `clear` on an object built from arrays runs without undefined behaviour; the object
then holds the entries of the arrays followed by the inserted ones, or only the ones inserted after the last `clear`. -/
theorem C149_history (zero : α) (nnz : Nat) (rs cs : List Int) (xs : List α) (h : ArraysOk nnz rs cs xs) (ops : List (Op α)) :
    ∃ t t' thrown, ofArrays nnz rs cs xs = .ok t ∧ run zero t ops = some (t', thrown) ∧ thrown.length = ops.length ∧
      t'.nnz = (inserted (ops.zip thrown) (firstEntries nnz rs cs xs)).length ∧ t'.nnz ≤ t'.nzmax ∧
      ∀ k (hk : k < (inserted (ops.zip thrown) (firstEntries nnz rs cs xs)).length),
        entry t' k = .ok (inserted (ops.zip thrown) (firstEntries nnz rs cs xs))[k] := by
  obtain ⟨t, e, _⟩ := C149_arrays nnz rs cs xs h
  obtain ⟨t', bs, e2, l, hh⟩ := run_holds zero ops t _ (arrays_holds h e)
  exact ⟨t, t', bs, e, e2, l, hh.nnz, hh.cap, hh.entries⟩

/-- **C149, conversion.** The compressed matrix of such an object has the size of the object and represents the sums of the entries of the arrays at
equal positions. -/
theorem C149_csc [AddMonoid α] (es : List (Nat × Nat × α)) (hne : es ≠ []) (hin : ∀ e ∈ es, e.1 < intMax ∧ e.2.1 < intMax) :
    ∃ t c, ofArrays es.length (es.map fun e => (e.1 : Int)) (es.map fun e => (e.2.1 : Int)) (es.map fun e => e.2.2) = .ok t ∧
      cscOfTriplet t = .ok c ∧ c.m = t.rows ∧ c.n = t.cols ∧ Represents c (cooVal es) := by
  have hz : firstEntries es.length (es.map fun e => (e.1 : Int)) (es.map fun e => (e.2.1 : Int)) (es.map fun e => e.2.2) = asInt es := by
    rw [firstEntries, List.take_of_length_le (by simp), List.take_of_length_le (by simp), List.take_of_length_le (by simp)]
    apply List.ext_getElem
    · simp [asInt]
    · intro k h1 h2; simp [asInt]
  have hok : ArraysOk es.length (es.map fun e => (e.1 : Int)) (es.map fun e => (e.2.1 : Int)) (es.map fun e => e.2.2) := by
    refine ⟨List.length_pos_iff.2 hne, by simp, by simp, by simp, ?_, ?_⟩
    · rw [List.take_of_length_le (by simp)]
      intro i hi; obtain ⟨e, he, rfl⟩ := List.mem_map.1 hi
      exact ⟨by omega, by have := (hin e he).1; omega⟩
    · rw [List.take_of_length_le (by simp)]
      intro i hi; obtain ⟨e, he, rfl⟩ := List.mem_map.1 hi
      exact ⟨by omega, by have := (hin e he).2; omega⟩
  obtain ⟨t, e, l1, l2, _⟩ := C149_arrays _ _ _ _ hok
  have hh := arrays_holds hok e
  rw [hz] at hh
  have hb : ∀ q ∈ es, q.1 < t.rows ∧ q.2.1 < t.cols := by
    intro q hq
    have a := l1.1 (q.1 : Int) (by rw [List.take_of_length_le (by simp)]; exact List.mem_map_of_mem hq)
    have b := l2.1 (q.2.1 : Int) (by rw [List.take_of_length_le (by simp)]; exact List.mem_map_of_mem hq)
    omega
  obtain ⟨c, c1, c2, c3⟩ := C04_triplet_size t es hh hb
  obtain ⟨c', cols, d1, _, _, _, _, _, d2⟩ := C04_triplet t es hh
  rw [c1, Out.ok.injEq] at d1
  exact ⟨t, c, e, c1, c2, c3, d1 ▸ d2⟩

/-- **C149, trailing zeros.** The size is that of the entries and not that of the matrix they came from: zero rows and columns at the end are lost. -/
theorem C149_trailing : ∃ (A : DMat Int) (t t' : Triplet Int), A.rows = 3 ∧ A.cols = 2 ∧
    ofDense 0 (fun x => decide (x ≠ 0)) (rowMajor 3 2) A = .ok t ∧ t.rows = 3 ∧ t.cols = 2 ∧
    ofArrays t.nnz t.row t.col t.elems = .ok t' ∧ t'.rows = 2 ∧ t'.cols = 1 ∧ t'.nnz = t.nnz :=
  ⟨⟨3, 2, fun i j => if j = 0 ∧ i < 2 then 5 else 0⟩, _, _, rfl, rfl, rfl, rfl, rfl, rfl, rfl, rfl, rfl⟩

/-- **C149, no entries.** With `nnz = 0` the constructor reads an element that is not part of the input: undefined when either array has no
element, and otherwise a size that depends on the first elements although none of them belongs to the matrix. -/
theorem C149_no_entries (rs cs : List Int) (xs : List α) :
    ((rs = [] ∨ cs = []) → (∀ i : Int, rs[0]? = some i → i < intMax) → ofArrays 0 rs cs xs = .ub) ∧
      ∀ r c : Nat, r < intMax → c < intMax → rs[0]? = some (r : Int) → cs[0]? = some (c : Int) →
        ∃ t, ofArrays 0 rs cs xs = .ok t ∧ t.nnz = 0 ∧ t.rows = r + 1 ∧ t.cols = c + 1 := by
  constructor
  · intro h hr
    rcases h with rfl | rfl
    · rfl
    · cases rs with
      | nil => rfl
      | cons a rs =>
        have ha : a < intMax := hr a rfl
        show (plusOne a >>= _) = _
        rw [plusOne, if_pos ha]
        rfl
  · intro r c hr hc e1 e2
    refine ⟨⟨r + 1, c + 1, 0, 0, [], [], []⟩, ?_, rfl, rfl, rfl⟩
    have d1 : rd rs 0 = .ok (r : Int) := rd_eq_ok.2 e1
    have d2 : rd cs 0 = .ok (c : Int) := rd_eq_ok.2 e2
    have f1 : maxElement rs 0 = .ok (r : Int) := by rw [maxElement, d1]; rfl
    have f2 : maxElement cs 0 = .ok (c : Int) := by rw [maxElement, d2]; rfl
    rw [ofArrays, f1, Out.bind_ok, plusOne, if_pos (by omega), Out.bind_ok, f2, Out.bind_ok, plusOne, if_pos (by omega), Out.bind_ok, ofSized,
      if_neg (by omega)]
    simp

/-- **C149, given sizes.** With the sizes given the indices are not checked: the object reports the given size, whatever the entries. -/
theorem C149_sized (rows cols nnz : Nat) (rs cs : List Int) (xs : List α) (hr : nnz ≤ rs.length) (hc : nnz ≤ cs.length) (hx : nnz ≤ xs.length) :
    ∃ t, ofSized rows cols nnz rs cs xs = .ok t ∧ t.rows = rows ∧ t.cols = cols ∧ t.nnz = nnz ∧
      ∀ k < nnz, ∃ r c x, rs[k]? = some r ∧ cs[k]? = some c ∧ xs[k]? = some x ∧ entry t k = .ok (r, c, x) := by
  obtain ⟨t, e, t1, t2, t3, t4⟩ := holds_sized hr hc hx rows cols
  have hlen : (firstEntries nnz rs cs xs).length = nnz := by simp [firstEntries]; omega
  refine ⟨t, e, by rw [t1]; omega, by rw [t2]; omega, by rw [t4.nnz, hlen], fun k hk => ?_⟩
  refine ⟨rs[k], cs[k], xs[k], by simp, by simp, by simp, ?_⟩
  rw [t4.entries k (by omega)]
  simp [firstEntries]

/-- A matrix said to be 1 by 1 may hold an entry in row 5; the compressed matrix made of it has six rows. -/
theorem C149_sized_grows : ∃ (t : Triplet Int) (c : Csc Int), ofSized 1 1 1 [5] [0] [7] = .ok t ∧ t.rows = 1 ∧ cscOfTriplet t = .ok c ∧ c.m = 6 ∧ c.n = 1 :=
  ⟨_, _, rfl, rfl, rfl, rfl, rfl⟩

/-- A size of zero with entries is not made empty, as it is by the constructor without arrays. -/
theorem C149_sized_zero : ∃ t : Triplet Int, ofSized 0 3 1 [5] [0] [7] = .ok t ∧ t.rows = 0 ∧ t.nnz = 1 ∧ (mk0 (0 : Int) 0 3 1).nnz = 0 ∧
    (mk0 (0 : Int) 0 3 1).cols = 0 ∧ t.cols = 3 := ⟨_, rfl, rfl, rfl, rfl, rfl, rfl⟩

/-- **C149, swap.** The two objects exchange everything they hold. -/
theorem C149_swap (l r : Triplet α) : swap l r = (r, l) := rfl

/-- The conditions hold for the arrays of src/test/SparseTripletTests.cpp lines 89-92, and the result is the one of lines 98-101. -/
example : ArraysOk 11 [0, 0, 0, 1, 1, 2, 3, 3, 4, 4, 4] [0, 3, 4, 2, 3, 1, 1, 4, 0, 1, 2] [1, 3, 2, 1, 1, 5, 2, 4, 1, 1, (1 : Int)] :=
  ⟨by decide, by decide, by decide, by decide, by decide, by decide⟩

example : (ofArrays 11 [0, 0, 0, 1, 1, 2, 3, 3, 4, 4, 4] [0, 3, 4, 2, 3, 1, 1, 4, 0, 1, 2] [1, 3, 2, 1, 1, 5, 2, 4, 1, 1, (1 : Int)] >>=
    fun t => .ok (t.rows, t.cols, t.nnz, t.nzmax)) = .ok (5, 5, 11, 11) := by decide +kernel

/-- An array longer than `nnz` whose remainder would need a larger matrix: only the first entries count. -/
example : (ofArrays 2 [1, 0, 9] [0, 2, 9] [4, 5, (6 : Int)] >>= fun t => .ok (t.rows, t.cols, t.elems)) = .ok (2, 3, [4, 5]) := by decide +kernel

end Blitzdg.Sparse
