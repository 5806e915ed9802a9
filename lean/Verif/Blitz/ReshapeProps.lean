import Verif.Blitz.Model
import Verif.Sparse.TripletProps
import Mathlib.Tactic.Linarith
import Mathlib.Tactic.Ring

/-! Properties C10, C11, C12. -/

namespace Blitzdg.Blitz

open Blitzdg.Sparse (DMat rowMajor colMajor mem_rowMajor)

variable {α : Type}

/-! ### C10 -/

/-- Where element `(i, j)` of an `m` by `n` matrix lies in the flattened array. -/
def pos (byRows : Bool) (m n i j : Nat) : Nat := if byRows then i * n + j else j * m + i

theorem rowMajor_length (m n : Nat) : (rowMajor m n).length = m * n := by
  induction m with
  | zero => simp [rowMajor]
  | succ m ih =>
    have : rowMajor (m + 1) n = rowMajor m n ++ (List.range n).map fun j => (m, j) := by
      simp [rowMajor, List.range_succ]
    rw [this, List.length_append, ih]; simp; ring

theorem rowMajor_get (m n i j : Nat) (hi : i < m) (hj : j < n) : (rowMajor m n)[i * n + j]? = some (i, j) := by
  induction m with
  | zero => omega
  | succ m ih =>
    have h : rowMajor (m + 1) n = rowMajor m n ++ (List.range n).map fun j => (m, j) := by
      simp [rowMajor, List.range_succ]
    rw [h]
    by_cases him : i < m
    · rw [List.getElem?_append_left]
      · exact ih him
      · rw [rowMajor_length]
        calc i * n + j < i * n + n := by omega
          _ = (i + 1) * n := by ring
          _ ≤ m * n := Nat.mul_le_mul_right _ him
    · have : i = m := by omega
      subst this
      rw [List.getElem?_append_right (by rw [rowMajor_length]; omega), rowMajor_length, Nat.add_sub_cancel_left]
      simp [hj]

theorem colMajor_eq (m n : Nat) : colMajor m n = (rowMajor n m).map fun p => (p.2, p.1) := by
  simp [colMajor, rowMajor, List.map_flatMap, Function.comp_def]

theorem order_length (b : Bool) (m n : Nat) : (order b m n).length = m * n := by
  cases b
  · simp [order, colMajor_eq, rowMajor_length, Nat.mul_comm]
  · simp [order, rowMajor_length]

theorem order_get (b : Bool) (m n i j : Nat) (hi : i < m) (hj : j < n) : (order b m n)[pos b m n i j]? = some (i, j) := by
  cases b
  · simp [order, pos, colMajor_eq, rowMajor_get n m j i hj hi]
  · simp [order, pos, rowMajor_get m n i j hi hj]

theorem mem_order {b : Bool} {m n i j : Nat} : (i, j) ∈ order b m n ↔ i < m ∧ j < n := by
  cases b
  · simp [order, Sparse.mem_colMajor]
  · simp [order, mem_rowMajor]

theorem pos_lt (b : Bool) (m n i j : Nat) (hi : i < m) (hj : j < n) : pos b m n i j < m * n := by
  rw [← order_length b m n]
  have := order_get b m n i j hi hj
  rw [List.getElem?_eq_some_iff] at this
  exact this.1

theorem writeLoop (a : DMat α) (l : List (Nat × Nat)) (dst : List α) (k : Nat) (h : k + l.length ≤ dst.length) :
    loopM (fun (s : List α × Nat) ij => do
      let d' ← wr s.1 s.2 (a.at' ij.1 ij.2)
      pure (d', s.2 + 1)) (dst, k) l =
    .ok (dst.take k ++ (l.map fun ij => a.at' ij.1 ij.2) ++ dst.drop (k + l.length), k + l.length) := by
  induction l generalizing dst k with
  | nil => simp
  | cons x l ih =>
    simp only [List.length_cons] at h
    rw [loopM_cons]
    simp only
    rw [wr_of_lt (by omega), Out.bind_ok, Out.pure_eq, Out.bind_ok, ih _ _ (by simp; omega)]
    congr 1
    refine Prod.ext ?_ (by simp; omega)
    simp only [List.length_cons, List.map_cons]
    have h1 : (dst.set k (a.at' x.1 x.2)).take (k + 1) = dst.take k ++ [a.at' x.1 x.2] := by
      rw [List.take_succ_eq_append_getElem (by simp; omega)]
      simp [List.take_set_of_le]
    rw [h1, List.drop_set_of_lt (by omega)]
    simp [Nat.add_comm, Nat.add_left_comm]

/-- **C10, flattening.** If the array has room for the `m*n` elements, `reshapeMatTo1D` stores element `(i, j)` at position
`i*n+j` (by rows) or `j*m+i` (by columns) and touches nothing beyond position `m*n`. -/
theorem C10_flatten (a : DMat α) (dst : List α) (byRows : Bool) (h : a.rows * a.cols ≤ dst.length) :
    ∃ d, reshapeMatTo1D a dst byRows = .ok d ∧ d.length = dst.length ∧
      (∀ i j, i < a.rows → j < a.cols → d[pos byRows a.rows a.cols i j]? = some (a.at' i j)) ∧
      ∀ k, a.rows * a.cols ≤ k → d[k]? = dst[k]? := by
  have hl := order_length byRows a.rows a.cols
  have hw := writeLoop a (order byRows a.rows a.cols) dst 0 (by omega)
  refine ⟨dst.take 0 ++ ((order byRows a.rows a.cols).map fun ij => a.at' ij.1 ij.2) ++
    dst.drop (0 + (order byRows a.rows a.cols).length), ?_, ?_, ?_, ?_⟩
  · unfold reshapeMatTo1D
    rw [hw, Out.bind_ok]
    rfl
  · simp; omega
  · intro i j hi hj
    have hp := pos_lt byRows a.rows a.cols i j hi hj
    have hg := order_get byRows a.rows a.cols i j hi hj
    rw [List.take_zero, List.nil_append, List.getElem?_append_left (by rw [List.length_map]; omega), List.getElem?_map, hg]
    rfl
  · intro k hk
    rw [List.take_zero, List.nil_append, List.getElem?_append_right (by rw [List.length_map]; omega), List.getElem?_drop]
    congr 1
    rw [List.length_map]; omega

theorem writeLoop_ub (a : DMat α) (l : List (Nat × Nat)) (dst : List α) (k : Nat) (h : dst.length < k + l.length) (hk : k ≤ dst.length) :
    loopM (fun (s : List α × Nat) ij => do
      let d' ← wr s.1 s.2 (a.at' ij.1 ij.2)
      pure (d', s.2 + 1)) (dst, k) l = .ub := by
  induction l generalizing dst k with
  | nil => simp at h; omega
  | cons x l ih =>
    simp only [List.length_cons] at h
    rw [loopM_cons]
    simp only
    by_cases hlt : k < dst.length
    · rw [wr_of_lt hlt, Out.bind_ok, Out.pure_eq, Out.bind_ok]
      exact ih _ _ (by simp; omega) (by simp; omega)
    · have : wr dst k (a.at' x.1 x.2) = .ub := by simp [wr, hlt]
      rw [this]; rfl

/-- **C10, precondition is sharp.** With a shorter array the call is undefined. -/
theorem C10_flatten_ub (a : DMat α) (dst : List α) (byRows : Bool) (h : dst.length < a.rows * a.cols) :
    reshapeMatTo1D a dst byRows = .ub := by
  unfold reshapeMatTo1D
  rw [writeLoop_ub a _ dst 0 (by rw [order_length]; omega) (by omega)]
  rfl

theorem readLoop (src : List α) (l : List (Nat × Nat)) (hnd : l.Nodup) (a : DMat α) (k : Nat) (h : k + l.length ≤ src.length) :
    ∃ a', loopM (fun (s : DMat α × Nat) ij => do
      let x ← rd src s.2
      pure (mset s.1 ij.1 ij.2 x, s.2 + 1)) (a, k) l = .ok (a', k + l.length) ∧ a'.rows = a.rows ∧ a'.cols = a.cols ∧
      (∀ q i j, l[q]? = some (i, j) → some (a'.at' i j) = src[k + q]?) ∧
      ∀ i j, (i, j) ∉ l → a'.at' i j = a.at' i j := by
  induction l generalizing a k with
  | nil => exact ⟨a, by simp, rfl, rfl, by simp, by simp⟩
  | cons x l ih =>
    simp only [List.length_cons] at h
    rw [List.nodup_cons] at hnd
    obtain ⟨a', h1, h2, h3, h4, h5⟩ := ih hnd.2 (mset a x.1 x.2 src[k]) (k + 1) (by omega)
    refine ⟨a', ?_, h2, h3, ?_, ?_⟩
    · rw [loopM_cons]
      simp only
      rw [rd_of_lt (by omega), Out.bind_ok, Out.pure_eq, Out.bind_ok, h1]
      simp [Nat.add_comm, Nat.add_left_comm]
    · intro q i j hq
      cases q with
      | zero =>
        simp only [List.getElem?_cons_zero, Option.some.injEq] at hq
        subst hq
        rw [h5 i j hnd.1]
        simp [mset, show k < src.length by omega]
      | succ q =>
        rw [List.getElem?_cons_succ] at hq
        rw [h4 q i j hq]
        congr 1; omega
    · intro i j hij
      rw [List.mem_cons, not_or] at hij
      rw [h5 i j hij.2]
      simp only [mset]
      rw [if_neg]
      rintro ⟨rfl, rfl⟩; exact hij.1 rfl

theorem nodup_order (b : Bool) (m n : Nat) : (order b m n).Nodup := by
  cases b
  · simp only [order, Bool.false_eq_true, if_false, colMajor_eq]
    exact (Sparse.nodup_rowMajor n m).map (fun a b h => by
      obtain ⟨a1, a2⟩ := a; obtain ⟨b1, b2⟩ := b
      simp only [Prod.mk.injEq] at h ⊢; exact ⟨h.2, h.1⟩)
  · exact Sparse.nodup_rowMajor m n

/-- **C10, unflattening.** If the array has at least `m*n` elements, `reshape1DToMat` sets element `(i, j)` to the array element at
position `i*n+j` (by rows) or `j*m+i` (by columns). -/
theorem C10_unflatten (src : List α) (a : DMat α) (byRows : Bool) (h : a.rows * a.cols ≤ src.length) :
    ∃ a', reshape1DToMat src a byRows = .ok a' ∧ a'.rows = a.rows ∧ a'.cols = a.cols ∧
      ∀ i j, i < a.rows → j < a.cols → some (a'.at' i j) = src[pos byRows a.rows a.cols i j]? := by
  obtain ⟨a', h1, h2, h3, h4, _⟩ := readLoop src (order byRows a.rows a.cols) (nodup_order _ _ _) a 0
    (by rw [order_length]; omega)
  refine ⟨a', ?_, h2, h3, ?_⟩
  · unfold reshape1DToMat
    rw [h1]; rfl
  · intro i j hi hj
    rw [h4 _ i j (order_get byRows a.rows a.cols i j hi hj), Nat.zero_add]

/-- **C10, round trip matrix - array - matrix** with the same flag, whatever the previous contents of the targets. -/
theorem C10_roundtrip_matrix (a b : DMat α) (dst : List α) (byRows : Bool) (h : a.rows * a.cols ≤ dst.length)
    (hr : b.rows = a.rows) (hc : b.cols = a.cols) :
    ∃ d a', reshapeMatTo1D a dst byRows = .ok d ∧ reshape1DToMat d b byRows = .ok a' ∧
      a'.rows = a.rows ∧ a'.cols = a.cols ∧ ∀ i j, i < a.rows → j < a.cols → a'.at' i j = a.at' i j := by
  obtain ⟨d, h1, h2, h3, _⟩ := C10_flatten a dst byRows h
  obtain ⟨a', g1, g2, g3, g4⟩ := C10_unflatten d b byRows (by rw [hr, hc]; omega)
  refine ⟨d, a', h1, g1, by omega, by omega, fun i j hi hj => ?_⟩
  have := g4 i j (by omega) (by omega)
  rw [hr, hc, h3 i j hi hj] at this
  exact Option.some.inj this

theorem exists_pos (b : Bool) (m n k : Nat) (hk : k < m * n) : ∃ i j, i < m ∧ j < n ∧ pos b m n i j = k := by
  have hm : 0 < m := Nat.pos_of_ne_zero (by rintro rfl; simp at hk)
  have hn : 0 < n := Nat.pos_of_ne_zero (by rintro rfl; simp at hk)
  cases b
  · refine ⟨k % m, k / m, Nat.mod_lt _ hm, Nat.div_lt_of_lt_mul hk, ?_⟩
    simp only [pos, Bool.false_eq_true, if_false]
    rw [Nat.mul_comm]; exact Nat.div_add_mod k m
  · refine ⟨k / n, k % n, Nat.div_lt_of_lt_mul (by rw [Nat.mul_comm]; exact hk), Nat.mod_lt _ hn, ?_⟩
    simp only [pos, if_true]
    rw [Nat.mul_comm]; exact Nat.div_add_mod k n

/-- **C10, round trip array - matrix - array** with the same flag: the first `m*n` elements are recovered. -/
theorem C10_roundtrip_array (src dst : List α) (b : DMat α) (byRows : Bool) (h : b.rows * b.cols ≤ src.length)
    (h' : b.rows * b.cols ≤ dst.length) :
    ∃ a d, reshape1DToMat src b byRows = .ok a ∧ reshapeMatTo1D a dst byRows = .ok d ∧
      ∀ k, k < b.rows * b.cols → d[k]? = src[k]? := by
  obtain ⟨a, g1, g2, g3, g4⟩ := C10_unflatten src b byRows h
  obtain ⟨d, h1, h2, h3, _⟩ := C10_flatten a dst byRows (by rw [g2, g3]; exact h')
  refine ⟨a, d, g1, h1, fun k hk => ?_⟩
  obtain ⟨i, j, hi, hj, rfl⟩ := exists_pos byRows b.rows b.cols k hk
  rw [← g4 i j hi hj, ← g2, ← g3]
  exact h3 i j (by omega) (by omega)

example : reshapeMatTo1D { rows := 2, cols := 3, at' := fun i j => 10 * i + j } [0,0,0,0,0,0,7] false
    = .ok [0, 10, 1, 11, 2, 12, 7] := by decide

/-! ### C11 -/

theorem mapLoop (vec : List α) (map : List Int) (out : List α) (hmap : ∀ i ∈ map, 0 ≤ i ∧ i < vec.length)
    (hout : map.length ≤ out.length) (k : Nat) (hk : k ≤ map.length) :
    ∃ o, loopM (fun o k => do
      let i ← rd map k
      let x ← rdI vec i
      wr o k x) out (List.range k) = .ok o ∧ o.length = out.length ∧
      (∀ q (hq : q < k), o[q]? = vec[(map[q]'(by omega)).toNat]?) ∧ ∀ q, k ≤ q → o[q]? = out[q]? := by
  induction k with
  | zero => exact ⟨out, rfl, rfl, by simp, by simp⟩
  | succ k ih =>
    obtain ⟨o, h1, h2, h3, h4⟩ := ih (by omega)
    have hm := hmap (map[k]'(by omega)) (List.getElem_mem _)
    refine ⟨o.set k (vec[(map[k]'(by omega)).toNat]'(by omega)), ?_, by simp [h2], ?_, ?_⟩
    · rw [List.range_succ, loopM_append, h1, Out.bind_ok, loopM_cons, rd_of_lt (by omega), Out.bind_ok]
      simp only [rdI]
      rw [if_neg (by omega), rd_of_lt (by omega), Out.bind_ok, wr_of_lt (by omega)]
      rfl
    · intro q hq
      by_cases hqk : q = k
      · subst hqk
        rw [List.getElem?_set_self (by omega), List.getElem?_eq_getElem (by omega)]
      · rw [List.getElem?_set_ne (by omega)]
        exact h3 q (by omega)
    · intro q hq
      rw [List.getElem?_set_ne (by omega)]
      exact h4 q (by omega)

/-- **C11.** For a field `u` stored `Np` by `K` (nodes by elements) and a map whose entries lie in `0 .. Np*K-1`, flattening by
columns and applying the map gives `out(k) = u(map(k) mod Np, map(k) div Np)`, with no out-of-range access. -/
theorem C11_select (u : DMat α) (vec0 out : List α) (map : List Int)
    (hvec : vec0.length = u.rows * u.cols) (hout : map.length ≤ out.length)
    (hmap : ∀ i ∈ map, 0 ≤ i ∧ i < ((u.rows * u.cols : Nat) : Int)) :
    ∃ vec o, reshapeMatTo1D u vec0 false = .ok vec ∧ applyIndexMap vec map out = .ok o ∧
      ∀ k (hk : k < map.length), o[k]? = some (u.at' (map[k].toNat % u.rows) (map[k].toNat / u.rows)) := by
  obtain ⟨vec, h1, h2, h3, _⟩ := C10_flatten u vec0 false (by omega)
  have hmap' : ∀ i ∈ map, 0 ≤ i ∧ i < (vec.length : Int) := by
    intro i hi; rw [h2, hvec]; exact hmap i hi
  obtain ⟨o, g1, _, g3, _⟩ := mapLoop vec map out hmap' hout map.length (le_refl _)
  refine ⟨vec, o, h1, g1, fun k hk => ?_⟩
  rw [g3 k hk]
  have hm := hmap map[k] (List.getElem_mem hk)
  have hlt : map[k].toNat < u.rows * u.cols := by omega
  have hr : 0 < u.rows := Nat.pos_of_ne_zero (by intro h0; rw [h0] at hlt; simp at hlt)
  rw [← h3 _ _ (Nat.mod_lt _ hr) (Nat.div_lt_of_lt_mul hlt)]
  congr 1
  simp only [pos, Bool.false_eq_true, if_false]
  rw [Nat.mul_comm]; exact (Nat.div_add_mod _ _).symm

/-- **C11, precondition is sharp.** If some entry of the map is out of range, the call is undefined. -/
theorem C11_out_of_range (vec out : List α) (map : List Int) (h : ∃ i ∈ map, i < 0 ∨ (vec.length : Int) ≤ i) :
    applyIndexMap vec map out = .ub := by
  have key : ∀ (ks : List Nat) (o : List α), (∃ k, ∃ hk : k < map.length, k ∈ ks ∧ (map[k] < 0 ∨ (vec.length : Int) ≤ map[k])) →
      loopM (fun o k => do
        let i ← rd map k
        let x ← rdI vec i
        wr o k x) o ks = .ub := by
    intro ks
    induction ks with
    | nil => rintro o ⟨k, _, h, _⟩; simp at h
    | cons q ks ih =>
      rintro o ⟨k, hk, hm, hbad⟩
      rw [loopM_cons]
      by_cases hqm : q < map.length
      · rw [rd_of_lt hqm, Out.bind_ok]
        by_cases hq : map[q] < 0 ∨ (vec.length : Int) ≤ map[q]
        · have : rdI vec map[q] = .ub := by
            unfold rdI
            rcases hq with hq | hq
            · rw [if_pos hq]
            · rw [if_neg (by omega)]
              unfold rd
              rw [List.getElem?_eq_none (by omega)]
          rw [this]; rfl
        · have hkq : k ∈ ks := by
            rcases List.mem_cons.1 hm with rfl | hm'
            · exact absurd hbad hq
            · exact hm'
          cases hx : rdI vec map[q] with
          | ub => rfl
          | throws =>
            unfold rdI rd at hx
            rw [if_neg (by omega)] at hx
            split at hx <;> cases hx
          | ok x =>
            rw [Out.bind_ok]
            by_cases hw : q < o.length
            · rw [wr_of_lt hw, Out.bind_ok]
              exact ih _ ⟨k, hk, hkq, hbad⟩
            · have : wr o q x = .ub := by simp [wr, hw]
              rw [this]; rfl
      · have : rd map q = .ub := by unfold rd; rw [List.getElem?_eq_none (by omega)]
        rw [this]; rfl
  obtain ⟨i, hi, hbad⟩ := h
  obtain ⟨k, hk, rfl⟩ := List.mem_iff_getElem.1 hi
  exact key _ _ ⟨k, hk, List.mem_range.2 hk, hbad⟩

example : applyIndexMap [10, 11, 12, 13] [3, 0, 2] [0, 0, 0, 9] = .ok [13, 10, 12, 9] := by decide

/-! ### C12 -/

/-- `c` is the Kronecker product of `a` and `b`. -/
def IsKron [Mul α] (a b c : DMat α) : Prop :=
  c.rows = a.rows * b.rows ∧ c.cols = a.cols * b.cols ∧
  ∀ i j p q, i < a.rows → j < a.cols → p < b.rows → q < b.cols →
    c.at' (i * b.rows + p) (j * b.cols + q) = a.at' i j * b.at' p q

/-- The transpose of a dense matrix. -/
def dtrans (a : DMat α) : DMat α := { rows := a.cols, cols := a.rows, at' := fun i j => a.at' j i }

theorem block_unique {B i i' p p' : Nat} (hp : p < B) (hp' : p' < B) (h : i * B + p = i' * B + p') : i = i' ∧ p = p' := by
  have hB : 0 < B := by omega
  have h1 : (i * B + p) / B = i := by rw [Nat.mul_comm, Nat.mul_add_div hB, Nat.div_eq_of_lt hp, Nat.add_zero]
  have h2 : (i' * B + p') / B = i' := by rw [Nat.mul_comm, Nat.mul_add_div hB, Nat.div_eq_of_lt hp', Nat.add_zero]
  have : i = i' := by rw [← h1, h, h2]
  subst this
  exact ⟨rfl, by omega⟩

theorem kronLoop [Mul α] (a b : DMat α) (hr : 0 < b.rows) (hc : 0 < b.cols) (l : List (Nat × Nat)) (hnd : l.Nodup) (c : DMat α)
    (hfit : ∀ ij ∈ l, (ij.2 + 1) * b.rows ≤ c.rows ∧ (ij.1 + 1) * b.cols ≤ c.cols) :
    ∃ c', loopM (fun c ij => setBlock c (ij.2 * b.rows) (ij.1 * b.cols) (a.at' ij.1 ij.2) b) c l = .ok c' ∧
      c'.rows = c.rows ∧ c'.cols = c.cols ∧
      (∀ i j p q, p < b.rows → q < b.cols →
        c'.at' (j * b.rows + p) (i * b.cols + q) =
          if (i, j) ∈ l then a.at' i j * b.at' p q else c.at' (j * b.rows + p) (i * b.cols + q)) := by
  induction l generalizing c with
  | nil => exact ⟨c, rfl, rfl, rfl, by simp⟩
  | cons x l ih =>
    obtain ⟨x1, x2⟩ := x
    rw [List.nodup_cons] at hnd
    have hx := hfit _ List.mem_cons_self
    simp only at hx
    have e1 : (x2 + 1) * b.rows = x2 * b.rows + b.rows := by ring
    have e2 : (x1 + 1) * b.cols = x1 * b.cols + b.cols := by ring
    have hset : setBlock c (x2 * b.rows) (x1 * b.cols) (a.at' x1 x2) b = .ok
        { c with at' := blockAt c (x2 * b.rows) (x1 * b.cols) (a.at' x1 x2) b } := by
      unfold setBlock
      rw [if_neg (by omega), if_pos (by omega)]
    obtain ⟨c', h1, h2, h3, h4⟩ := ih hnd.2 { c with at' := blockAt c (x2 * b.rows) (x1 * b.cols) (a.at' x1 x2) b }
      (fun ij hij => hfit ij (List.mem_cons_of_mem _ hij))
    refine ⟨c', by rw [loopM_cons, hset, Out.bind_ok, h1], h2, h3, ?_⟩
    intro i j p q hp hq
    rw [h4 i j p q hp hq]
    by_cases hm : (i, j) ∈ l
    · rw [if_pos hm, if_pos (List.mem_cons_of_mem _ hm)]
    · rw [if_neg hm]
      simp only [blockAt]
      by_cases heq : (i, j) = (x1, x2)
      · obtain ⟨rfl, rfl⟩ := Prod.mk.inj heq
        rw [if_pos (by omega), if_pos List.mem_cons_self]
        congr 2 <;> omega
      · rw [if_neg (show ¬ (i, j) ∈ (x1, x2) :: l by
          rw [List.mem_cons, not_or]; exact ⟨heq, hm⟩)]
        rw [if_neg]
        rintro ⟨ha, hb, hc', hd⟩
        apply heq
        obtain ⟨p', hp'⟩ : ∃ p', j * b.rows + p = x2 * b.rows + p' := ⟨j * b.rows + p - x2 * b.rows, by omega⟩
        obtain ⟨q', hq'⟩ : ∃ q', i * b.cols + q = x1 * b.cols + q' := ⟨i * b.cols + q - x1 * b.cols, by omega⟩
        have u1 := block_unique hp (show p' < b.rows by omega) hp'
        have u2 := block_unique hq (show q' < b.cols by omega) hq'
        rw [u1.1, u2.1]

/-- **C12, what the code computes.** For square `A` and nonempty `B`, `kron(A, B)` returns the Kronecker product of the
*transpose* of `A` with `B`. -/
theorem C12_computes_transpose [Mul α] (junk : Nat → Nat → α) (a b : DMat α) (hsq : a.rows = a.cols) (hr : 0 < b.rows) (hc : 0 < b.cols) :
    ∃ c, kron junk a b = .ok c ∧ IsKron (dtrans a) b c := by
  obtain ⟨c', h1, h2, h3, h4⟩ := kronLoop a b hr hc (rowMajor a.rows a.cols) (Sparse.nodup_rowMajor _ _)
    { rows := a.rows * b.rows, cols := a.cols * b.cols, at' := junk } (by
      rintro ⟨i, j⟩ hij
      rw [mem_rowMajor] at hij
      exact ⟨Nat.mul_le_mul_right _ (by simp; omega), Nat.mul_le_mul_right _ (by simp; omega)⟩)
  refine ⟨c', h1, ?_, ?_, ?_⟩
  · simp only at h2; rw [h2, hsq]; rfl
  · simp only at h3; rw [h3, ← hsq]; rfl
  · intro j i p q hj hi hp hq
    rw [h4 i j p q hp hq, if_pos]
    · rfl
    · rw [mem_rowMajor]; exact ⟨hi, hj⟩

/-- **C12 (partial).** For symmetric `A` the result is the Kronecker product of `A` and `B`.
Missing: all other `A`; the claim is false for them, see the next two theorems. -/
theorem C12_kron_partial [Mul α] (junk : Nat → Nat → α) (a b : DMat α) (hsq : a.rows = a.cols)
    (hsym : ∀ i j, i < a.rows → j < a.cols → a.at' i j = a.at' j i) (hr : 0 < b.rows) (hc : 0 < b.cols) :
    ∃ c, kron junk a b = .ok c ∧ IsKron a b c := by
  obtain ⟨c, h1, h2, h3, h4⟩ := C12_computes_transpose junk a b hsq hr hc
  refine ⟨c, h1, ?_, ?_, ?_⟩
  · rw [h2, hsq]; rfl
  · rw [h3, ← hsq]; rfl
  · intro i j p q hi hj hp hq
    rw [h4 i j p q (by show i < a.cols; omega) (by show j < a.rows; omega) hp hq, hsym i j hi hj]
    rfl

/-- **C12 refuted (values).** For a non-symmetric square matrix the result is not the Kronecker product. -/
theorem C12_wrong_value : ∃ a b : DMat Int, ∀ junk, ∃ c, kron junk a b = .ok c ∧ ¬ IsKron a b c := by
  refine ⟨{ rows := 2, cols := 2, at' := fun i j => if i = 0 ∧ j = 1 then 1 else 0 },
    { rows := 1, cols := 1, at' := fun _ _ => 1 }, fun junk => ?_⟩
  obtain ⟨c, h1, h2⟩ := C12_computes_transpose junk
    { rows := 2, cols := 2, at' := fun i j => if i = 0 ∧ j = 1 then (1 : Int) else 0 }
    { rows := 1, cols := 1, at' := fun _ _ => 1 } rfl (by decide) (by decide)
  refine ⟨c, h1, fun h => ?_⟩
  have e1 := h.2.2 0 1 0 0 (by decide) (by decide) (by decide) (by decide)
  have e2 := h2.2.2 0 1 0 0 (by decide) (by decide) (by decide) (by decide)
  rw [e1] at e2
  simp [dtrans] at e2

/-- **C12 refuted (bounds).** For every non-square `A` with at least one row and column and nonempty `B`, `kron` writes
outside the result matrix. -/
theorem C12_nonsquare_ub [Mul α] (junk : Nat → Nat → α) (a b : DMat α) (h0 : 0 < a.rows) (h0' : 0 < a.cols)
    (hns : a.rows ≠ a.cols) (hr : 0 < b.rows) (hc : 0 < b.cols) : kron junk a b = .ub := by
  have key : ∀ (l : List (Nat × Nat)) (c : DMat α),
      (∃ ij ∈ l, c.rows < (ij.2 + 1) * b.rows ∨ c.cols < (ij.1 + 1) * b.cols) →
      loopM (fun c ij => setBlock c (ij.2 * b.rows) (ij.1 * b.cols) (a.at' ij.1 ij.2) b) c l = .ub := by
    intro l
    induction l with
    | nil => rintro c ⟨_, h, _⟩; simp at h
    | cons x l ih =>
      rintro c ⟨ij, hm, hbad⟩
      rw [loopM_cons]
      by_cases hx : c.rows < (x.2 + 1) * b.rows ∨ c.cols < (x.1 + 1) * b.cols
      · have : setBlock c (x.2 * b.rows) (x.1 * b.cols) (a.at' x.1 x.2) b = .ub := by
          unfold setBlock
          have e1 : (x.2 + 1) * b.rows = x.2 * b.rows + b.rows := by ring
          have e2 : (x.1 + 1) * b.cols = x.1 * b.cols + b.cols := by ring
          rw [if_neg (by omega), if_neg (by omega)]
        rw [this]; rfl
      · have hset : ∃ c1, setBlock c (x.2 * b.rows) (x.1 * b.cols) (a.at' x.1 x.2) b = .ok c1 ∧ c1.rows = c.rows ∧ c1.cols = c.cols := by
          have e1 : (x.2 + 1) * b.rows = x.2 * b.rows + b.rows := by ring
          have e2 : (x.1 + 1) * b.cols = x.1 * b.cols + b.cols := by ring
          unfold setBlock
          rw [if_neg (by omega), if_pos (by omega)]
          exact ⟨_, rfl, rfl, rfl⟩
        obtain ⟨c1, hs, hr1, hc1⟩ := hset
        rw [hs, Out.bind_ok]
        apply ih
        rcases List.mem_cons.1 hm with rfl | hm
        · exact absurd hbad hx
        · exact ⟨ij, hm, by rw [hr1, hc1]; exact hbad⟩
  apply key
  by_cases hlt : a.rows < a.cols
  · refine ⟨(0, a.cols - 1), by rw [mem_rowMajor]; omega, Or.inl ?_⟩
    simp only
    rw [show a.cols - 1 + 1 = a.cols by omega]
    exact Nat.mul_lt_mul_of_pos_right hlt hr
  · refine ⟨(a.rows - 1, 0), by rw [mem_rowMajor]; omega, Or.inr ?_⟩
    simp only
    rw [show a.rows - 1 + 1 = a.rows by omega]
    exact Nat.mul_lt_mul_of_pos_right (by omega) hc

/-- **C12 (empty factors).** If one of the matrices has no rows or no columns, `kron` returns without touching any memory, and the result has the
sizes of the Kronecker product (and hence no entry). -/
theorem C12_empty [Mul α] (junk : Nat → Nat → α) (a b : DMat α) (h : a.rows = 0 ∨ a.cols = 0 ∨ b.rows = 0 ∨ b.cols = 0) :
    ∃ c, kron junk a b = .ok c ∧ IsKron a b c := by
  have key : ∀ (l : List (Nat × Nat)) (c : DMat α), (l = [] ∨ b.rows = 0 ∨ b.cols = 0) →
      loopM (fun c ij => setBlock c (ij.2 * b.rows) (ij.1 * b.cols) (a.at' ij.1 ij.2) b) c l = .ok c := by
    intro l
    induction l with
    | nil => intro c _; rfl
    | cons x l ih =>
      intro c hc
      have hb : b.rows = 0 ∨ b.cols = 0 := by simpa using hc
      rw [loopM_cons, setBlock, if_pos hb, Out.bind_ok, ih c (Or.inr hb)]
  have hl : rowMajor a.rows a.cols = [] ∨ b.rows = 0 ∨ b.cols = 0 := by
    rcases h with h | h | h
    · left; rw [List.eq_nil_iff_forall_not_mem]; rintro ⟨i, j⟩ hm; rw [mem_rowMajor] at hm; omega
    · left; rw [List.eq_nil_iff_forall_not_mem]; rintro ⟨i, j⟩ hm; rw [mem_rowMajor] at hm; omega
    · exact Or.inr h
  refine ⟨_, key _ _ hl, rfl, rfl, ?_⟩
  intro i j p q hi hj hp hq
  omega

/-- A 2 x 3 matrix with a factor without rows. -/
example : ∃ c, kron (fun _ _ => 0) { rows := 2, cols := 3, at' := fun i j => (i + j : Int) }
    { rows := 0, cols := 2, at' := fun _ j => (j + 1 : Int) } = .ok c ∧ c.rows = 0 ∧ c.cols = 6 := ⟨_, rfl, rfl, rfl⟩

/-- The hypotheses of `C12_kron_partial` are met by a non-trivial case. -/
example : ∃ c, kron (fun _ _ => 0) { rows := 2, cols := 2, at' := fun i j => (i + j : Int) }
    { rows := 1, cols := 2, at' := fun _ j => (j + 1 : Int) } = .ok c ∧ c.at' 1 3 = 4 := by
  refine ⟨_, rfl, ?_⟩; decide

end Blitzdg.Blitz
