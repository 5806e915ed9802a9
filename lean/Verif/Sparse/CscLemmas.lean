import Verif.Sparse.Csc
import Verif.Sparse.TripletProps
import Mathlib.Data.List.Flatten
import Mathlib.Data.List.Basic
import Mathlib.Algebra.BigOperators.Group.List.Basic
import Mathlib.Algebra.BigOperators.Group.List.Lemmas
import Mathlib.Data.List.Induction
import Mathlib.Algebra.Ring.Defs
import Mathlib.Algebra.BigOperators.Ring.List

/-! Well-formedness of CSC objects and the matrix they represent, with helper lemmas. -/

namespace Blitzdg.Sparse

variable {α : Type}

/-! ### Specification -/

/-- `c` is a well-formed compressed-column object whose columns, read by any client, are `cols`:
the column pointers start at 0, are the running column lengths and end at the number of entries; the cells in use
are initialised; every row index is in range. -/
structure WF (c : Csc α) (cols : List (List (Nat × α))) : Prop where
  ncols : cols.length = c.n
  plen : c.p.length = c.n + 1
  ptr : ∀ j, j ≤ c.n → c.p[j]? = some (some ((cols.map List.length).take j).sum)
  cells : c.ix.take cols.flatten.length = cols.flatten.map some
  rows : ∀ col ∈ cols, ∀ e ∈ col, e.1 < c.m

/-- The value at row `i` of a column given as a list of (row, value): entries with equal row add up. -/
def colVal [AddMonoid α] (col : List (Nat × α)) (i : Nat) : α :=
  ((col.filter fun e => e.1 = i).map Prod.snd).sum

/-- The value at `(i, j)` of a list of coordinate entries. -/
def cooVal [AddMonoid α] (es : List (Nat × Nat × α)) (i j : Nat) : α :=
  ((es.filter fun e => e.1 = i ∧ e.2.1 = j).map fun e => e.2.2).sum

/-- The object represents the matrix `f`. -/
def Represents [AddMonoid α] (c : Csc α) (f : Nat → Nat → α) : Prop :=
  ∃ cols, WF c cols ∧ ∀ i j (h : j < cols.length), colVal cols[j] i = f i j

/-! ### Lemmas -/

theorem take_sum_mono (l : List Nat) {i j : Nat} (h : i ≤ j) : (l.take i).sum ≤ (l.take j).sum := by
  have : l.take i = (l.take j).take i := by rw [List.take_take, Nat.min_eq_left h]
  rw [this]
  conv_rhs => rw [← List.take_append_drop i (l.take j)]
  rw [List.sum_append]; omega

theorem WF.len_le {c : Csc α} {cols} (h : WF c cols) : cols.flatten.length ≤ c.ix.length := by
  have := congrArg List.length h.cells
  rw [List.length_map, List.length_take] at this
  omega

theorem WF.ix_eq {c : Csc α} {cols} (h : WF c cols) :
    c.ix = cols.flatten.map some ++ c.ix.drop cols.flatten.length := by
  conv_lhs => rw [← List.take_append_drop cols.flatten.length c.ix, h.cells]

theorem mapM_some_id {β : Type} (l : List β) : (l.map some).mapM id = some l := by
  induction l with
  | nil => rfl
  | cons x xs ih => simp [List.mapM_cons, ih]

theorem WF.readCol {c : Csc α} {cols} (h : WF c cols) {j : Nat} (hj : j < cols.length) :
    readCol c j = some cols[j] := by
  have hn := h.ncols
  have p1 := h.ptr j (by omega)
  have p2 := h.ptr (j + 1) (by omega)
  have hle : ((cols.map List.length).take (j + 1)).sum ≤ cols.flatten.length := by
    rw [List.length_flatten]
    conv_rhs => rw [← List.take_length (l := cols.map List.length)]
    exact take_sum_mono _ (by simp; omega)
  have hsl : (c.ix.take ((cols.map List.length).take (j + 1)).sum).drop ((cols.map List.length).take j).sum
      = (cols[j]).map some := by
    have h1 : c.ix.take ((cols.map List.length).take (j + 1)).sum
        = (cols.flatten.take ((cols.map List.length).take (j + 1)).sum).map some := by
      rw [List.map_take, ← h.cells, List.take_take, Nat.min_eq_left hle]
    rw [h1, ← List.map_drop, List.drop_take_succ_flatten_eq_getElem cols j hj]
  unfold Sparse.readCol
  rw [p1, p2]
  simp only [Option.bind_eq_bind, Option.bind_some]
  rw [if_pos (le_trans hle h.len_le), hsl, mapM_some_id]

theorem mapM_range_eq {β : Type} (f : Nat → Option β) (l : List β)
    (h : ∀ j (hj : j < l.length), f j = some l[j]) : (List.range l.length).mapM f = some l := by
  induction l using List.reverseRecOn with
  | nil => rfl
  | append_singleton l x ih =>
    have ih' := ih (by
      intro j hj
      have := h j (by simp; omega)
      rw [this, List.getElem_append_left hj])
    have hx := h l.length (by simp)
    rw [List.length_append, List.length_singleton, List.range_succ, List.mapM_append, ih']
    simp [hx]

theorem WF.readCols {c : Csc α} {cols} (h : WF c cols) : readCols c = some cols := by
  unfold Sparse.readCols
  rw [← h.ncols]
  exact mapM_range_eq _ _ fun j hj => h.readCol hj

theorem wf_layout {m nzmax : Nat} {cols : List (List (Nat × α))} (hr : ∀ col ∈ cols, ∀ e ∈ col, e.1 < m) :
    WF (layout m nzmax cols) cols := by
  constructor
  · rfl
  · simp [layout]
  · intro j hj
    have : j < cols.length + 1 := by simp only [layout] at hj; omega
    simp [layout, this]
  · have : cols.flatten.length = (cols.flatten.map some).length := by rw [List.length_map]
    rw [this]
    simp only [layout, List.take_left]
  · exact hr

theorem layout_nnz (m nzmax : Nat) (cols : List (List (Nat × α))) :
    (layout m nzmax cols).nnz = max cols.flatten.length nzmax := by
  unfold Csc.nnz layout
  simp only [List.length_append, List.length_map, List.length_replicate]
  omega

theorem compressCols_length (n : Nat) (es : List (Nat × Nat × α)) : (compressCols n es).length = n := by
  simp [compressCols]

theorem compressCols_get (n : Nat) (es : List (Nat × Nat × α)) {j : Nat} (h : j < (compressCols n es).length) :
    (compressCols n es)[j] = (es.filter fun e => e.2.1 = j).map fun e => (e.1, e.2.2) := by
  simp [compressCols]

theorem colVal_compress [AddMonoid α] (es : List (Nat × Nat × α)) (i j : Nat) :
    colVal ((es.filter fun e => e.2.1 = j).map fun e => (e.1, e.2.2)) i = cooVal es i j := by
  unfold colVal cooVal
  rw [List.filter_map, List.map_map, List.filter_filter]
  congr 1
  simp only [Function.comp_def, Bool.decide_and]

theorem sum_indicator {k n : Nat} (he : k < n) : ((List.range n).map fun j => if k = j then 1 else 0).sum = 1 := by
  induction n with
  | zero => omega
  | succ n ihn =>
    rw [List.range_succ, List.map_append, List.sum_append]
    by_cases hk : k = n
    · subst hk
      have : ((List.range k).map fun j => if k = j then 1 else 0).sum = 0 := by
        apply List.sum_eq_zero
        intro x hx
        simp only [List.mem_map, List.mem_range] at hx
        obtain ⟨a, ha, rfl⟩ := hx
        rw [if_neg (by omega)]
      simp [this]
    · rw [ihn (by omega)]
      simp [hk]

theorem compress_flatten_length (n : Nat) (es : List (Nat × Nat × α)) (h : ∀ e ∈ es, e.2.1 < n) :
    (compressCols n es).flatten.length = es.length := by
  unfold compressCols
  rw [List.length_flatten, List.map_map]
  induction es with
  | nil => simp [Function.comp_def]
  | cons e es ih =>
    have ih' := ih (fun e' h' => h e' (List.mem_cons_of_mem _ h'))
    have he := h e List.mem_cons_self
    have hs : ((List.range n).map (List.length ∘ fun j => ((e :: es).filter fun e => e.2.1 = j).map fun e => (e.1, e.2.2))).sum
        = ((List.range n).map fun j => (if e.2.1 = j then 1 else 0)
            + ((es.filter fun e => e.2.1 = j).map fun e => (e.1, e.2.2)).length).sum := by
      congr 1
      apply List.map_congr_left
      intro j _
      by_cases hj : e.2.1 = j
      · simp [hj]; omega
      · simp [hj]
    rw [hs, List.sum_map_add]
    rw [sum_indicator he]
    have : (List.map (fun j => ((es.filter fun e => e.2.1 = j).map fun e => (e.1, e.2.2)).length) (List.range n)).sum = es.length := ih'
    rw [this, List.length_cons]; omega

end Blitzdg.Sparse
