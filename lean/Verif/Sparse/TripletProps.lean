import Verif.Sparse.Triplet
import Mathlib.Tactic.Ring
import Mathlib.Tactic.Linarith
import Mathlib.Data.List.Nodup

/-! Properties C01, C02, C03 of `SparseTriplet`. -/

namespace Blitzdg.Sparse

variable {α : Type}

/-! ### Specification of C01 -/

/-- The entries inserted since the last `clear`, in call order; throwing calls insert nothing. -/
def inserted : List (Op α × Bool) → List (Int × Int × α) → List (Int × Int × α)
  | [], acc => acc
  | (.insert r c x, false) :: h, acc => inserted h (acc ++ [(r, c, x)])
  | (.insert _ _ _, true) :: h, acc => inserted h acc
  | (.expand _, _) :: h, acc => inserted h acc
  | (.clear, _) :: h, _ => inserted h []

/-- The triplet object holds exactly the entries `es`. -/
structure Holds (t : Triplet α) (es : List (Int × Int × α)) : Prop where
  nnz : t.nnz = es.length
  cap : t.nnz ≤ t.nzmax
  row_len : t.row.length = t.nzmax
  col_len : t.col.length = t.nzmax
  elems_len : t.elems.length = t.nzmax
  entries : ∀ k (h : k < es.length), entry t k = .ok es[k]

theorem holds_mk0 (zero : α) (m n c : Nat) : Holds (mk0 zero m n c) [] := by
  unfold mk0
  split <;> constructor <;> simp

theorem entry_ok {t : Triplet α} {k : Nat} {e : Int × Int × α} :
    entry t k = .ok e ↔ t.row[k]? = some e.1 ∧ t.col[k]? = some e.2.1 ∧ t.elems[k]? = some e.2.2 := by
  obtain ⟨r, c, x⟩ := e
  unfold entry
  simp only [Out.bind_eq_ok, rd_eq_ok, Out.pure_eq, Out.ok.injEq, Prod.mk.injEq]
  constructor
  · rintro ⟨r', h1, c', h2, x', h3, rfl, rfl, rfl⟩; exact ⟨h1, h2, h3⟩
  · rintro ⟨h1, h2, h3⟩; exact ⟨r, h1, c, h2, x, h3, rfl, rfl, rfl⟩

theorem holds_grow (zero : α) {t : Triplet α} {es} (h : Holds t es) (n : Int) :
    Holds (grow zero t n) es := by
  unfold grow
  split
  · exact h
  · rename_i hn
    have hk : t.nzmax ≤ n.toNat := by omega
    constructor
    · exact h.nnz
    · have := h.cap; simp; omega
    · have := h.row_len; simp; omega
    · have := h.col_len; simp; omega
    · have := h.elems_len; simp; omega
    · intro k hk'
      have he := h.entries k hk'
      rw [entry_ok] at he ⊢
      have h1 := h.nnz; have h2 := h.cap
      have h3 := h.row_len; have h4 := h.col_len; have h5 := h.elems_len
      refine ⟨?_, ?_, ?_⟩
      · simp only; rw [List.getElem?_append_left (by omega)]; exact he.1
      · simp only; rw [List.getElem?_append_left (by omega)]; exact he.2.1
      · simp only; rw [List.getElem?_append_left (by omega)]; exact he.2.2

theorem holds_push {t : Triplet α} {es} (h : Holds t es) (hlt : t.nnz < t.nzmax) (r c : Int) (x : α) :
    ∃ t', push t r c x = .ok t' ∧ Holds t' (es ++ [(r, c, x)]) ∧ t'.nzmax = t.nzmax := by
  have h3 := h.row_len; have h4 := h.col_len; have h5 := h.elems_len; have h1 := h.nnz
  unfold push
  rw [wr_of_lt (by omega), wr_of_lt (by omega), wr_of_lt (by omega)]
  refine ⟨_, rfl, ?_, rfl⟩
  constructor
  · simp [h1]
  · simp only; omega
  · simpa using h3
  · simpa using h4
  · simpa using h5
  · intro k hk
    rw [entry_ok]
    simp only [List.length_append, List.length_singleton] at hk
    by_cases hkk : k < es.length
    · have he := h.entries k hkk
      rw [entry_ok] at he
      simp only [List.getElem_append_left hkk]
      rw [List.getElem?_set_ne (by omega), List.getElem?_set_ne (by omega), List.getElem?_set_ne (by omega)]
      exact he
    · have : k = es.length := by omega
      subst this
      simp only [← h1]
      rw [List.getElem?_set_self (by omega), List.getElem?_set_self (by omega), List.getElem?_set_self (by omega)]
      simp [h1]

/-- The condition under which the growth policy gives up: the array is full and one and a half times its
capacity does not fit into an `int`. -/
def Exhausted (t : Triplet α) : Prop :=
  t.nnz = t.nzmax ∧ 2 * 2147483647 < 3 * t.nzmax

theorem insert_cases (zero : α) {t : Triplet α} {es} (h : Holds t es) (r c : Int) (x : α) :
    (∃ t', insert zero t r c x = .ok t' ∧ Holds t' (es ++ [(r, c, x)])) ∨
    (insert zero t r c x = .throws ∧ Exhausted t) := by
  unfold insert
  by_cases hfull : t.nzmax ≤ t.nnz
  · rw [if_pos hfull]
    by_cases h2 : t.nzmax < 2
    · left
      obtain ⟨t', he, hh, _⟩ := holds_push (holds_grow zero h 2) (by
        have h1 := h.cap
        unfold grow; rw [if_neg (by omega)]; simp; omega) r c x
      refine ⟨t', ?_, hh⟩
      simp only [newSize, if_pos h2, Out.bind_ok]; exact he
    · by_cases h3 : 3 * t.nzmax > 2 * intMax
      · right
        refine ⟨by simp [newSize, h2, h3], ?_, ?_⟩
        · exact Nat.le_antisymm h.cap hfull
        · unfold intMax at h3; omega
      · left
        obtain ⟨t', he, hh, _⟩ := holds_push (holds_grow zero h ((3 * t.nzmax / 2 : Nat) : Int)) (by
          have h1 := h.cap
          unfold grow; rw [if_neg (by omega)]; simp; omega) r c x
        refine ⟨t', ?_, hh⟩
        simp only [newSize, if_neg h2, if_neg h3, Out.bind_ok]; exact he
  · rw [if_neg hfull]
    left
    obtain ⟨t', he, hh, _⟩ := holds_push h (by omega) r c x
    exact ⟨t', he, hh⟩

theorem holds_clear (zero : α) {t : Triplet α} {es} (h : Holds t es) : Holds (clear zero t) [] := by
  have h3 := h.row_len; have h4 := h.col_len; have h5 := h.elems_len
  constructor <;> simp [clear, *]

theorem run_holds (zero : α) (ops : List (Op α)) : ∀ (t : Triplet α) (es), Holds t es →
    ∃ t' bs, run zero t ops = some (t', bs) ∧ bs.length = ops.length ∧
      Holds t' (inserted (ops.zip bs) es) := by
  induction ops with
  | nil => intro t es h; exact ⟨t, [], rfl, rfl, h⟩
  | cons o os ih =>
    intro t es h
    cases o with
    | insert r c x =>
      rcases insert_cases zero h r c x with ⟨t1, he, hh⟩ | ⟨he, _⟩
      · obtain ⟨t', bs, e, l, hr⟩ := ih t1 _ hh
        exact ⟨t', false :: bs, by simp [run, step, he, e], by simp [l], by simpa [inserted] using hr⟩
      · obtain ⟨t', bs, e, l, hr⟩ := ih t _ h
        exact ⟨t', true :: bs, by simp [run, step, he, e], by simp [l], by simpa [inserted] using hr⟩
    | expand n =>
      obtain ⟨t', bs, e, l, hr⟩ := ih _ _ (holds_grow zero h n)
      exact ⟨t', false :: bs, by simp [run, step, expand, e], by simp [l], by simpa [inserted] using hr⟩
    | clear =>
      obtain ⟨t', bs, e, l, hr⟩ := ih _ _ (holds_clear zero h)
      exact ⟨t', false :: bs, by simp [run, step, e], by simp [l], by simpa [inserted] using hr⟩

/-- **C01.** Any history of `insert`/`expand`/`clear` calls on a new triplet runs without undefined behaviour, and
afterwards the object holds exactly the entries inserted since the last `clear`: `nnz()` counts them, the `k`-th
read returns the `k`-th of them and the capacity suffices. -/
theorem C01_history (zero : α) (rows cols nzmax : Nat) (ops : List (Op α)) :
    ∃ t thrown, run zero (mk0 zero rows cols nzmax) ops = some (t, thrown) ∧
      thrown.length = ops.length ∧
      t.nnz = (inserted (ops.zip thrown) []).length ∧ t.nnz ≤ t.nzmax ∧
      ∀ k (h : k < (inserted (ops.zip thrown) []).length),
        entry t k = .ok (inserted (ops.zip thrown) [])[k] := by
  obtain ⟨t, bs, e, l, h⟩ := run_holds zero ops _ _ (holds_mk0 zero rows cols nzmax)
  exact ⟨t, bs, e, l, h.nnz, h.cap, h.entries⟩

/-- **C01, failures.** In any state reached by a history, `insert` either stores the entry or throws; it throws only when
the array is full and its capacity cannot be multiplied by 1.5 within an `int`; the object (hence every stored
entry) is unchanged by the throwing call.  `expand` and `clear` never throw. -/
theorem C01_throws_only_when_exhausted (zero : α) (rows cols nzmax : Nat) (ops : List (Op α))
    (t : Triplet α) (thrown : List Bool) (hr : run zero (mk0 zero rows cols nzmax) ops = some (t, thrown)) :
    (∀ (r c : Int) (x : α), ∃ t' b, step zero t (.insert r c x) = some (t', b) ∧
      (b = true → t' = t ∧ t.nnz = t.nzmax ∧ 2 * 2147483647 < 3 * t.nzmax)) ∧
    (∀ n, ∃ t', step zero t (.expand n) = some (t', false)) ∧
    (∃ t', step zero t .clear = some (t', false)) := by
  obtain ⟨t1, bs, e, l, h⟩ := run_holds zero ops _ _ (holds_mk0 zero rows cols nzmax)
  rw [hr] at e
  obtain ⟨rfl, rfl⟩ : t = t1 ∧ thrown = bs := by simpa using e
  refine ⟨fun r c x => ?_, fun n => ⟨_, rfl⟩, ⟨_, rfl⟩⟩
  rcases insert_cases zero h r c x with ⟨t1, he, hh⟩ | ⟨he, hx⟩
  · exact ⟨t1, false, by simp [step, he], by simp⟩
  · exact ⟨t, true, by simp [step, he], fun _ => ⟨rfl, hx.1, hx.2⟩⟩

theorem grow_nzmax (zero : α) (t : Triplet α) (n : Int) :
    (t.nzmax : Int) ≤ (grow zero t n).nzmax ∧ n ≤ (grow zero t n).nzmax ∧
      ((grow zero t n).nzmax : Int) = max n t.nzmax := by
  unfold grow
  split
  · omega
  · simp only; omega

/-- **C01, expand.** `expand(n)` makes room for at least `n` entries, never shrinks, and changes no stored entry. -/
theorem C01_expand (zero : α) (rows cols nzmax : Nat) (ops : List (Op α))
    (t : Triplet α) (thrown : List Bool) (hr : run zero (mk0 zero rows cols nzmax) ops = some (t, thrown)) (n : Int) :
    ((expand zero t n).nzmax : Int) = max n t.nzmax ∧ (expand zero t n).nnz = t.nnz ∧
      ∀ k, k < t.nnz → entry (expand zero t n) k = entry t k := by
  obtain ⟨t1, bs, e, l, h⟩ := run_holds zero ops _ _ (holds_mk0 zero rows cols nzmax)
  rw [hr] at e
  obtain ⟨rfl, rfl⟩ : t = t1 ∧ thrown = bs := by simpa using e
  refine ⟨(grow_nzmax zero t n).2.2, ?_, ?_⟩
  · unfold expand grow; split <;> rfl
  · intro k hk
    rw [h.nnz] at hk
    rw [h.entries k hk]
    exact (holds_grow zero h n).entries k hk

/-- A history that reallocates, clears and refills; its hypotheses are met and the entries are as claimed. -/
example : ∃ t, run (0 : Int) (mk0 0 2 2 1)
    [.insert 0 0 5, .insert 1 1 6, .insert 1 0 7, .clear, .insert 0 1 8, .expand 9, .insert 1 1 9] =
      some (t, [false, false, false, false, false, false, false]) ∧ t.nnz = 2 ∧ t.nzmax = 9 ∧
      entry t 0 = .ok (0, 1, 8) ∧ entry t 1 = .ok (1, 1, 9) := by
  refine ⟨_, rfl, ?_⟩; decide

/-- The exception is reachable in principle: the growth policy refuses capacity 1431655766. -/
example : newSize (α := Int) { rows := 1, cols := 1, nnz := 1431655766, nzmax := 1431655766, row := [], col := [], elems := [] }
    = .throws := by decide

/-! ### C02: amortised growth -/

theorem insert_ok_nzmax (zero : α) {t : Triplet α} {es} (h : Holds t es) {r c : Int} {x : α} {t' : Triplet α}
    (he : insert zero t r c x = .ok t') :
    Holds t' (es ++ [(r, c, x)]) ∧ t.nzmax ≤ t'.nzmax ∧ insertCost t ≤ 3 * (t'.nzmax - t.nzmax) ∧
      (t'.nzmax = t.nzmax ∨ t'.nzmax ≤ 2 ∨ 2 * t'.nzmax ≤ 3 * t'.nnz) := by
  have hcap := h.cap
  have hh : Holds t' (es ++ [(r, c, x)]) := by
    rcases insert_cases zero h r c x with ⟨t1, he1, hh⟩ | ⟨he1, _⟩
    · rw [he] at he1; cases he1; exact hh
    · rw [he] at he1; cases he1
  have hn : t'.nnz = t.nnz + 1 := by rw [hh.nnz, h.nnz]; simp
  refine ⟨hh, ?_⟩
  unfold insert at he
  unfold insertCost
  by_cases hfull : t.nzmax ≤ t.nnz
  · rw [if_pos hfull] at he ⊢
    rw [Out.bind_eq_ok] at he
    obtain ⟨n, hn1, hp⟩ := he
    have hg := grow_nzmax zero t n
    obtain ⟨t2, hp2, _, hz⟩ := holds_push (holds_grow zero h n) (by
      have : (grow zero t n).nnz = t.nnz := by unfold grow; split <;> rfl
      rw [this]
      unfold newSize at hn1
      split at hn1
      · cases hn1; omega
      · split at hn1
        · cases hn1
        · cases hn1; omega) r c x
    rw [hp] at hp2; cases hp2
    unfold newSize at hn1
    split at hn1
    · cases hn1; omega
    · split at hn1
      · cases hn1
      · cases hn1; omega
  · rw [if_neg hfull] at he ⊢
    obtain ⟨t2, hp2, _, hz⟩ := holds_push h (by omega) r c x
    rw [he] at hp2; cases hp2
    omega

theorem insertAll_cost (zero : α) (es : List (Int × Int × α)) :
    ∀ (t : Triplet α) (es0), Holds t es0 → ∀ t' c, insertAll zero t es = .ok (t', c) →
      Holds t' (es0 ++ es) ∧ c ≤ 3 * (t'.nzmax - t.nzmax) ∧ t.nzmax ≤ t'.nzmax ∧
      (t'.nzmax = t.nzmax ∨ (1 ≤ es.length ∧ (t'.nzmax ≤ 2 ∨ 2 * t'.nzmax ≤ 3 * t'.nnz))) := by
  induction es with
  | nil =>
    intro t es0 h t' c he
    simp only [insertAll, Out.ok.injEq, Prod.mk.injEq] at he
    obtain ⟨rfl, rfl⟩ := he
    simpa using h
  | cons e es ih =>
    obtain ⟨r, cc, x⟩ := e
    intro t es0 h t' c he
    simp only [insertAll, Out.bind_eq_ok, Out.pure_eq, Out.ok.injEq, Prod.mk.injEq, Prod.exists] at he
    obtain ⟨t1, h1, t2, n, h2, rfl, rfl⟩ := he
    obtain ⟨hh, i1, i2, i3⟩ := insert_ok_nzmax zero h h1
    obtain ⟨hh2, j1, j2, j3⟩ := ih t1 _ hh _ _ h2
    have a1 := hh.nnz; have a2 := hh2.nnz
    simp only [List.length_append, List.length_cons, List.length_nil] at a1 a2
    refine ⟨by simpa using hh2, by omega, by omega, ?_⟩
    simp only [List.length_cons]
    omega

/-- **C02.** Inserting `n` entries into a new triplet (no exception) relocates at most `6 n` elements per array in
total, and the final capacity is at most the largest of the initial capacity, 2 and one and a half times `n`. -/
theorem C02_amortised (zero : α) (rows cols nzmax : Nat) (es : List (Int × Int × α))
    (t : Triplet α) (cost : Nat) (h : insertAll zero (mk0 zero rows cols nzmax) es = .ok (t, cost)) :
    t.nnz = es.length ∧ cost ≤ 6 * es.length ∧ 2 * t.nzmax ≤ max (2 * nzmax) (max 4 (3 * es.length)) := by
  obtain ⟨hh, i1, i2, i3⟩ := insertAll_cost zero es _ _ (holds_mk0 zero rows cols nzmax) _ _ h
  have hm : (mk0 zero rows cols nzmax).nzmax ≤ nzmax := by unfold mk0; split <;> simp
  have hn := hh.nnz
  simp only [List.nil_append] at hn
  refine ⟨hn, ?_, ?_⟩ <;> omega

/-- **C02, no failure below the limit.** Fewer than 1431655765 insertions never throw when the initial capacity is below
that number. -/
theorem C02_no_failure (zero : α) (es : List (Int × Int × α)) :
    ∀ (t : Triplet α) (es0), Holds t es0 → t.nnz + es.length ≤ 1431655765 →
      ∃ t' c, insertAll zero t es = .ok (t', c) := by
  induction es with
  | nil => intro t es0 _ _; exact ⟨t, 0, rfl⟩
  | cons e es ih =>
    obtain ⟨r, cc, x⟩ := e
    intro t es0 h hlen
    simp only [List.length_cons] at hlen
    rcases insert_cases zero h r cc x with ⟨t1, he, hh⟩ | ⟨_, hx⟩
    · obtain ⟨t2, c, h2⟩ := ih t1 _ hh (by
        have a1 := hh.nnz; have a2 := h.nnz
        simp only [List.length_append, List.length_cons, List.length_nil] at a1; omega)
      exact ⟨t2, insertCost t + c, by simp [insertAll, he, h2]⟩
    · obtain ⟨hx1, hx2⟩ := hx; omega

/-- **C02, totality.** A new triplet accepts any list of up to 1431655765 entries. -/
theorem C02_accepts (zero : α) (rows cols nzmax : Nat) (es : List (Int × Int × α)) (hlen : es.length ≤ 1431655765) :
    ∃ t c, insertAll zero (mk0 zero rows cols nzmax) es = .ok (t, c) :=
  C02_no_failure zero es _ _ (holds_mk0 zero rows cols nzmax) (by
    have : (mk0 zero rows cols nzmax).nnz = 0 := by unfold mk0; split <;> rfl
    omega)

example : ∃ t, insertAll (0 : Int) (mk0 0 3 3 0) [(0,0,1),(0,1,2),(0,2,3),(1,0,4),(1,1,5)] = .ok (t, 9) ∧
    t.nzmax = 6 := by
  refine ⟨_, rfl, ?_⟩; decide

/-! ### C03: dense matrix to triplet -/

/-- The large entries of `a`, in the order `order` visits the positions. -/
def largeEntries (big : α → Bool) (a : DMat α) (order : List (Nat × Nat)) : List (Int × Int × α) :=
  (order.filter fun ij => big (a.at' ij.1 ij.2)).map fun ij => ((ij.1 : Int), (ij.2 : Int), a.at' ij.1 ij.2)

theorem mem_rowMajor {m n i j : Nat} : (i, j) ∈ rowMajor m n ↔ i < m ∧ j < n := by
  simp only [rowMajor, List.mem_flatMap, List.mem_range, List.mem_map, Prod.mk.injEq]
  constructor
  · rintro ⟨a, ha, b, hb, rfl, rfl⟩; exact ⟨ha, hb⟩
  · rintro ⟨h1, h2⟩; exact ⟨i, h1, j, h2, rfl, rfl⟩

theorem mem_colMajor {m n i j : Nat} : (i, j) ∈ colMajor m n ↔ i < m ∧ j < n := by
  simp only [colMajor, List.mem_flatMap, List.mem_range, List.mem_map, Prod.mk.injEq]
  constructor
  · rintro ⟨a, ha, b, hb, rfl, rfl⟩; exact ⟨hb, ha⟩
  · rintro ⟨h1, h2⟩; exact ⟨j, h2, i, h1, rfl, rfl⟩

theorem nodup_rowMajor (m n : Nat) : (rowMajor m n).Nodup := by
  unfold rowMajor
  rw [List.nodup_flatMap]
  refine ⟨fun i _ => ?_, ?_⟩
  · exact List.Nodup.map (fun a b h => by simpa using h) List.nodup_range
  · refine List.Pairwise.imp_of_mem ?_ (List.nodup_range (n := m))
    intro a b _ _ hab
    simp only [Function.onFun, List.Disjoint, List.mem_map]
    rintro p ⟨x, _, rfl⟩ ⟨y, _, h⟩
    exact hab (by simpa using (congrArg Prod.fst h).symm)

theorem count_fold (big : α → Bool) (a : DMat α) (l : List (Nat × Nat)) (n : Nat) :
    l.foldl (fun n ij => if big (a.at' ij.1 ij.2) then n + 1 else n) n =
      n + (l.filter fun ij => big (a.at' ij.1 ij.2)).length := by
  induction l generalizing n with
  | nil => simp
  | cons x xs ih =>
    simp only [List.foldl_cons, ih, List.filter_cons]
    by_cases h : big (a.at' x.1 x.2) = true
    · simp [h]; omega
    · simp [h]

theorem ofDense_loop (big : α → Bool) (a : DMat α) (l : List (Nat × Nat)) :
    ∀ (t : Triplet α) es, Holds t es → es.length + (largeEntries big a l).length ≤ t.nzmax →
    ∃ t', loopM (fun t ij => if big (a.at' ij.1 ij.2) then push t ij.1 ij.2 (a.at' ij.1 ij.2) else .ok t) t l = .ok t'
      ∧ Holds t' (es ++ largeEntries big a l) ∧ t'.nzmax = t.nzmax ∧ t'.rows = t.rows ∧ t'.cols = t.cols := by
  induction l with
  | nil => intro t es h _; exact ⟨t, rfl, by simpa [largeEntries] using h, rfl, rfl, rfl⟩
  | cons x xs ih =>
    intro t es h hlen
    by_cases hb : big (a.at' x.1 x.2) = true
    · have hl : largeEntries big a (x :: xs) =
          ((x.1 : Int), (x.2 : Int), a.at' x.1 x.2) :: largeEntries big a xs := by
        simp [largeEntries, hb]
      rw [hl] at hlen ⊢
      simp only [List.length_cons] at hlen
      have hn := h.nnz
      obtain ⟨t1, hp, hh, hz⟩ := holds_push h (by omega) x.1 x.2 (a.at' x.1 x.2)
      have hrc : t1.rows = t.rows ∧ t1.cols = t.cols := by
        simp only [push, Out.bind_eq_ok, Out.pure_eq, Out.ok.injEq] at hp
        obtain ⟨_, _, _, _, _, _, rfl⟩ := hp; exact ⟨rfl, rfl⟩
      obtain ⟨t2, h2, hh2, hz2, hr2, hc2⟩ := ih t1 _ hh (by simp; omega)
      exact ⟨t2, by simp [hb, hp, h2], by simpa using hh2, by omega, by rw [hr2, hrc.1], by rw [hc2, hrc.2]⟩
    · have hl : largeEntries big a (x :: xs) = largeEntries big a xs := by simp [largeEntries, hb]
      rw [hl] at hlen ⊢
      obtain ⟨t2, h2, hh2⟩ := ih t _ h hlen
      exact ⟨t2, by simp [hb, h2], hh2⟩

/-- **C03.** For a matrix with positive dimensions and at most INT_MAX large entries, construction succeeds and the
`k`-th stored entry is the `k`-th large entry in iteration order; nothing else is stored and the capacity equals
their number.  `big` is any test, so the theorem covers every tolerance and NaN. -/
theorem C03_dense (zero : α) (big : α → Bool) (a : DMat α) (order : List (Nat × Nat))
    (hr : 0 < a.rows) (hc : 0 < a.cols) (hmax : (largeEntries big a order).length ≤ 2147483647) :
    ∃ t, ofDense zero big order a = .ok t ∧ t.rows = a.rows ∧ t.cols = a.cols ∧
      t.nnz = (largeEntries big a order).length ∧ t.nzmax = t.nnz ∧
      ∀ k (h : k < (largeEntries big a order).length), entry t k = .ok (largeEntries big a order)[k] := by
  have hcount : (order.filter fun ij => big (a.at' ij.1 ij.2)).length = (largeEntries big a order).length := by
    simp [largeEntries]
  have hmk : mk0 zero a.rows a.cols (largeEntries big a order).length =
    { rows := a.rows, cols := a.cols, nnz := 0, nzmax := (largeEntries big a order).length,
      row := List.replicate (largeEntries big a order).length 0, col := List.replicate (largeEntries big a order).length 0,
      elems := List.replicate (largeEntries big a order).length zero } := by
    unfold mk0; rw [if_neg (by omega)]
  obtain ⟨t, ht, hh, hz, h1, h2⟩ := ofDense_loop big a order _ _
    (holds_mk0 zero a.rows a.cols (largeEntries big a order).length) (by rw [hmk]; simp)
  refine ⟨t, ?_, ?_, ?_, ?_, ?_, ?_⟩
  · simp only [ofDense, countNonzeros, count_fold, Nat.zero_add, hcount]
    rw [if_neg (by unfold intMax; omega)]
    simpa using ht
  · rw [h1, hmk]
  · rw [h2, hmk]
  · simpa using hh.nnz
  · rw [hz, hmk, hh.nnz]; simp
  · simpa using hh.entries

/-- **C03, content.** What the entries are: exactly the positions inside the matrix with a large value, each
position once (row-major iteration; the same holds for column-major). -/
theorem C03_positions (big : α → Bool) (a : DMat α) (i j : Int) (x : α) :
    ((i, j, x) ∈ largeEntries big a (rowMajor a.rows a.cols) ↔
      ∃ i' j' : Nat, i = i' ∧ j = j' ∧ i' < a.rows ∧ j' < a.cols ∧ x = a.at' i' j' ∧ big x = true) ∧
    ((largeEntries big a (rowMajor a.rows a.cols)).map fun e => (e.1, e.2.1)).Nodup := by
  constructor
  · simp only [largeEntries, List.mem_map, List.mem_filter, Prod.exists, mem_rowMajor, Prod.mk.injEq]
    constructor
    · rintro ⟨i', j', ⟨⟨h1, h2⟩, h3⟩, rfl, rfl, rfl⟩; exact ⟨i', j', rfl, rfl, h1, h2, rfl, h3⟩
    · rintro ⟨i', j', rfl, rfl, h1, h2, rfl, h3⟩; exact ⟨i', j', ⟨⟨h1, h2⟩, h3⟩, rfl, rfl, rfl⟩
  · simp only [largeEntries, List.map_map]
    refine List.Nodup.map_on ?_ ((nodup_rowMajor _ _).filter _)
    rintro ⟨a1, b1⟩ _ ⟨a2, b2⟩ _ h
    simp only [Function.comp, Prod.mk.injEq] at h ⊢
    omega

/-- **C03, empty matrices.** A matrix with a zero dimension gives an empty 0 by 0 triplet. -/
theorem C03_empty (zero : α) (big : α → Bool) (a : DMat α) (h : a.rows = 0 ∨ a.cols = 0) :
    ∃ t, ofDense zero big (rowMajor a.rows a.cols) a = .ok t ∧ t.rows = 0 ∧ t.cols = 0 ∧ t.nnz = 0 ∧ t.nzmax = 0 := by
  have hnil : rowMajor a.rows a.cols = [] := by
    rw [List.eq_nil_iff_forall_not_mem]
    rintro ⟨i, j⟩ hm
    rw [mem_rowMajor] at hm; omega
  rw [hnil]
  exact ⟨_, rfl, by simp [mk0, h], by simp [mk0, h], by simp [mk0, h], by simp [mk0, h]⟩

example : ∃ t, ofDense (0 : Int) (fun x => decide (x.natAbs > 1)) (rowMajor 2 2)
    { rows := 2, cols := 2, at' := fun i j => (i : Int) * 3 - j * 2 } = .ok t ∧ t.nnz = 2 ∧
      entry t 0 = .ok (0, 1, -2) ∧ entry t 1 = .ok (1, 0, 3) := by
  refine ⟨_, rfl, ?_⟩; decide

end Blitzdg.Sparse
