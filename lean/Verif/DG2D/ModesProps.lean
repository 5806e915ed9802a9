import Verif.DG2D.Modes
import Mathlib.Data.Set.Function
import Mathlib.Data.List.Nodup
import Mathlib.Tactic.Ring
import Mathlib.Tactic.Linarith
import Mathlib.Tactic.FieldSimp
import Mathlib.Tactic.Positivity

/-! Properties C38 (numbering of the modes) and C39 (spectral filter). -/

namespace Blitzdg.DG2D

variable {α : Type}

/-! ### The numbering -/

/-- Specification: number of the simplex mode `(i, j)` of an element of order `N`. -/
def triNum (N i j : Nat) : Nat := i * (2 * N + 3 - i) / 2 + j

/-- Specification: number of simplex modes. -/
def triNp (N : Nat) : Nat := (N + 1) * (N + 2) / 2

theorem modeLoop_aux (pairs : List (Nat × Nat)) (f : Nat → Nat → α) (c : Nat) (buf : List α) (h : c + pairs.length ≤ buf.length) :
    loopM (modeStep f) (c, buf) pairs
      = .ok (c + pairs.length, buf.take c ++ pairs.map (fun p => f p.1 p.2) ++ buf.drop (c + pairs.length)) := by
  induction pairs generalizing c buf with
  | nil => simp
  | cons p ps ih =>
    simp only [List.length_cons] at h
    have hc : c < buf.length := by omega
    rw [loopM_cons]
    simp only [modeStep, wr_of_lt hc, Out.bind_ok, Out.pure_eq]
    rw [ih (c + 1) _ (by simp; omega)]
    simp only [List.length_cons, List.map_cons]
    refine congrArg Out.ok (Prod.ext (by simp; omega) ?_)
    simp only
    have e1 : (buf.set c (f p.1 p.2)).take (c + 1) = buf.take c ++ [f p.1 p.2] := by
      rw [List.take_add_one]; simp [List.take_set_of_le, hc]
    have e2 : (buf.set c (f p.1 p.2)).drop (c + 1 + ps.length) = buf.drop (c + (ps.length + 1)) := by
      rw [List.drop_set_of_lt (by omega)]; congr 1; omega
    rw [e1, e2]; simp

theorem modeLoop_ok (pairs : List (Nat × Nat)) (f : Nat → Nat → α) (buf : List α) (h : pairs.length ≤ buf.length) :
    modeLoop pairs f buf = .ok (pairs.length, pairs.map (fun p => f p.1 p.2) ++ buf.drop pairs.length) := by
  have := modeLoop_aux pairs f 0 buf (by omega)
  simpa [modeLoop] using this

theorem modeLoop_short (pairs : List (Nat × Nat)) (f : Nat → Nat → α) (c : Nat) (buf : List α) (hc : c ≤ buf.length)
    (h : buf.length < c + pairs.length) : loopM (modeStep f) (c, buf) pairs = .ub := by
  induction pairs generalizing c buf with
  | nil => simp at h; omega
  | cons p ps ih =>
    rw [loopM_cons]
    by_cases hc' : c < buf.length
    · simp only [modeStep, wr_of_lt hc', Out.bind_ok, Out.pure_eq]
      exact ih (c + 1) _ (by simpa using hc') (by simp at h ⊢; omega)
    · simp [modeStep, wr, hc']

theorem tri_step {N i : Nat} (h : i ≤ N) : (i + 1) * (2 * N + 3 - (i + 1)) / 2 = i * (2 * N + 3 - i) / 2 + (N - i + 1) := by
  obtain ⟨d, rfl⟩ := Nat.exists_eq_add_of_le h
  have e1 : 2 * (i + d) + 3 - (i + 1) = i + 2 * d + 2 := by omega
  have e2 : 2 * (i + d) + 3 - i = i + 2 * d + 3 := by omega
  have e3 : (i + 1) * (i + 2 * d + 2) = i * (i + 2 * d + 3) + 2 * (d + 1) := by ring
  rw [e1, e2, e3]
  omega

theorem triPrefix_length (N i : Nat) (h : i ≤ N + 1) :
    ((List.range i).flatMap fun i => (List.range (N - i + 1)).map fun j => (i, j)).length = i * (2 * N + 3 - i) / 2 := by
  induction i with
  | zero => simp
  | succ i ih =>
    rw [List.range_succ, List.flatMap_append, List.length_append, ih (by omega), tri_step (by omega)]
    simp

theorem triPairs_length (N : Nat) : (triPairs N).length = triNp N := by
  rw [triPairs, triPrefix_length N (N + 1) (le_refl _), triNp]
  congr 2
  omega

theorem mem_triPairs {N : Nat} {p : Nat × Nat} : p ∈ triPairs N ↔ p.1 + p.2 ≤ N := by
  obtain ⟨i, j⟩ := p
  simp only [triPairs, List.mem_flatMap, List.mem_range, List.mem_map, Prod.mk.injEq]
  constructor
  · rintro ⟨a, ha, b, hb, rfl, rfl⟩; omega
  · intro h; exact ⟨i, by omega, j, by omega, rfl, rfl⟩

theorem flatMap_get {β : Type} (g : Nat → List β) (n i j : Nat) (hi : i < n) (hj : j < (g i).length) :
    ((List.range n).flatMap g)[((List.range i).flatMap g).length + j]? = (g i)[j]? := by
  have e : List.range n = List.range i ++ ([i] ++ (List.range (n - i - 1)).map (i + 1 + ·)) := by
    have h1 : n = i + 1 + (n - i - 1) := by omega
    conv => lhs; rw [h1]
    rw [List.range_add, List.range_succ]; simp
  rw [e, List.flatMap_append, List.getElem?_append_right (by omega), List.flatMap_append]
  simp only [List.flatMap_cons, List.flatMap_nil, List.append_nil]
  rw [List.getElem?_append_left (by omega)]
  congr 1; omega

theorem triPairs_get {N i j : Nat} (h : i + j ≤ N) : (triPairs N)[triNum N i j]? = some (i, j) := by
  rw [triPairs, triNum, ← triPrefix_length N i (by omega), flatMap_get _ _ _ _ (by omega) (by simp; omega)]
  rw [List.getElem?_map, List.getElem?_range (by omega)]; rfl

theorem triPairs_nodup (N : Nat) : (triPairs N).Nodup := by
  rw [triPairs, List.nodup_flatMap]
  refine ⟨fun i _ => List.nodup_range.map fun a b h => by simpa using h, ?_⟩
  refine List.Pairwise.imp_of_mem ?_ (List.nodup_range (n := N + 1))
  intro a b _ _ hab
  simp only [Function.onFun, List.disjoint_left, List.mem_map, List.mem_range]
  rintro p ⟨_, _, rfl⟩ ⟨_, _, h⟩
  exact hab (Prod.mk.inj h).1.symm

theorem triNum_lt {N i j : Nat} (h : i + j ≤ N) : triNum N i j < triNp N := by
  rw [← triPairs_length]
  exact (List.getElem?_eq_some_iff.1 (triPairs_get h)).1

theorem triNum_bij (N : Nat) : Set.BijOn (fun p : Nat × Nat => triNum N p.1 p.2) {p | p.1 + p.2 ≤ N} {c | c < triNp N} := by
  refine ⟨fun p hp => triNum_lt hp, ?_, ?_⟩
  · intro p hp q hq h
    have h1 := triPairs_get (N := N) (i := p.1) (j := p.2) hp
    have h2 := triPairs_get (N := N) (i := q.1) (j := q.2) hq
    simp only at h
    rw [h, h2] at h1
    exact (Option.some.inj h1).symm
  · intro c hc
    have hc' : c < (triPairs N).length := by rw [triPairs_length]; exact hc
    refine ⟨(triPairs N)[c], mem_triPairs.1 (List.getElem_mem hc'), ?_⟩
    have hp := mem_triPairs.1 (List.getElem_mem hc')
    have h1 := triPairs_get hp
    obtain ⟨hl, h1⟩ := List.getElem?_eq_some_iff.1 h1
    exact (List.Nodup.getElem_inj_iff (triPairs_nodup N)).1 h1

/-- C38.  For every order `N`, the modal loop run on `(N+1)(N+2)/2` columns stays in range, performs exactly as many writes
as there are columns, stores the mode `(i, j)` in column `triNum N i j`, and that numbering is a bijection between the pairs
with `i + j ≤ N` and the columns: every column is written, and (the number of writes being the number of columns) once. -/
theorem C38_modes (N : Nat) (f : Nat → Nat → α) (buf : List α) (hb : buf.length = (N + 1) * (N + 2) / 2) :
    ∃ cols, modeLoop (triPairs N) f buf = .ok ((N + 1) * (N + 2) / 2, cols) ∧ cols.length = (N + 1) * (N + 2) / 2 ∧
      (∀ i j, i + j ≤ N → cols[triNum N i j]? = some (f i j)) ∧
      Set.BijOn (fun p : Nat × Nat => triNum N p.1 p.2) {p | p.1 + p.2 ≤ N} {c | c < (N + 1) * (N + 2) / 2} := by
  have hl := triPairs_length N
  rw [triNp] at hl
  refine ⟨(triPairs N).map fun p => f p.1 p.2, ?_, by simp [hl], ?_, triNum_bij N⟩
  · rw [modeLoop_ok _ _ _ (by omega), hl, List.drop_of_length_le (by omega)]; simp
  · intro i j h
    rw [List.getElem?_map, triPairs_get h]; rfl

/-- The numbering follows the loop: consecutive `j` are consecutive columns and a new `i` starts after the last `j`. -/
theorem C38_successor (N i j : Nat) :
    triNum N 0 0 = 0 ∧ triNum N i (j + 1) = triNum N i j + 1 ∧ (i + 1 ≤ N → triNum N (i + 1) 0 = triNum N i (N - i) + 1) := by
  refine ⟨by simp [triNum], by simp [triNum]; omega, fun h => ?_⟩
  simp only [triNum, tri_step (N := N) (i := i) (by omega)]; omega

/-- An array with fewer columns than modes is overrun. -/
theorem C38_short (N : Nat) (f : Nat → Nat → α) (buf : List α) (hb : buf.length < (N + 1) * (N + 2) / 2) :
    modeLoop (triPairs N) f buf = .ub :=
  modeLoop_short _ _ _ _ (by omega) (by rw [triPairs_length, triNp]; omega)

example : modeLoop (triPairs 2) (fun i j => (i, j)) (List.replicate 6 (9, 9))
    = .ok (6, [(0, 0), (0, 1), (0, 2), (1, 0), (1, 1), (2, 0)]) := by decide

theorem quadPairs_length (N : Nat) : (quadPairs N).length = (N + 1) * (N + 1) := by
  simp [quadPairs, List.length_flatMap]

theorem quadPairs_get {N i j : Nat} (hi : i ≤ N) (hj : j ≤ N) : (quadPairs N)[i * (N + 1) + j]? = some (i, j) := by
  have hl : ∀ m, ((List.range m).flatMap fun i => (List.range (N + 1)).map fun j => (i, j)).length = m * (N + 1) := by
    intro m; simp [List.length_flatMap]
  rw [quadPairs, ← hl i, flatMap_get _ _ _ _ (by omega) (by simp; omega), List.getElem?_map, List.getElem?_range (by omega)]
  rfl

/-- C38 for quadrilaterals: the tensor product modes are numbered `i (N+1) + j`, bijectively onto `0 .. (N+1)²-1`. -/
theorem C38_quad (N : Nat) (f : Nat → Nat → α) (buf : List α) (hb : buf.length = (N + 1) * (N + 1)) :
    ∃ cols, modeLoop (quadPairs N) f buf = .ok ((N + 1) * (N + 1), cols) ∧ cols.length = (N + 1) * (N + 1) ∧
      (∀ i j, i ≤ N → j ≤ N → cols[i * (N + 1) + j]? = some (f i j)) ∧
      Set.BijOn (fun p : Nat × Nat => p.1 * (N + 1) + p.2) {p | p.1 ≤ N ∧ p.2 ≤ N} {c | c < (N + 1) * (N + 1)} := by
  have hl := quadPairs_length N
  refine ⟨(quadPairs N).map fun p => f p.1 p.2, ?_, by simp [hl], ?_, ?_, ?_, ?_⟩
  · rw [modeLoop_ok _ _ _ (by omega), hl, List.drop_of_length_le (by omega)]; simp
  · intro i j hi hj
    rw [List.getElem?_map, quadPairs_get hi hj]; rfl
  · rintro ⟨i, j⟩ ⟨hi, hj⟩
    have := (List.getElem?_eq_some_iff.1 (quadPairs_get hi hj)).1
    rw [hl] at this; exact this
  · rintro ⟨i, j⟩ ⟨hi, hj⟩ ⟨i', j'⟩ ⟨hi', hj'⟩ h
    have h1 := quadPairs_get hi hj
    simp only at h
    rw [h, quadPairs_get hi' hj'] at h1
    exact (Option.some.inj h1).symm
  · intro c hc
    refine ⟨(c / (N + 1), c % (N + 1)), ⟨?_, ?_⟩, ?_⟩
    · exact Nat.lt_succ_iff.1 (Nat.div_lt_of_lt_mul hc)
    · exact Nat.lt_succ_iff.1 (Nat.mod_lt _ (by omega))
    · simp only [Nat.mul_comm (c / (N + 1))]; exact Nat.div_add_mod c (N + 1)

/-! ### The filter -/

@[simp] theorem nmul_some (x y : ℝ) : nmul (some x) (some y) = some (x * y) := rfl
@[simp] theorem nmul_none_left (b : Option ℝ) : nmul none b = none := rfl
@[simp] theorem nmul_none_right (a : Option ℝ) : nmul a none = none := by cases a <;> rfl
@[simp] theorem nadd_some (x y : ℝ) : nadd (some x) (some y) = some (x + y) := rfl
@[simp] theorem nadd_none_left (b : Option ℝ) : nadd none b = none := rfl
@[simp] theorem nadd_none_right (a : Option ℝ) : nadd a none = none := by cases a <;> rfl

theorem nsum_some (l : List ℝ) : nsum (l.map some) = some l.sum := by
  induction l with
  | nil => rfl
  | cons a l ih => simp only [List.map_cons, nsum, List.foldr_cons, List.sum_cons] at *; rw [ih]; rfl

theorem nsum_none {l : List (Option ℝ)} (h : none ∈ l) : nsum l = none := by
  induction l with
  | nil => simp at h
  | cons a l ih =>
    rcases List.mem_cons.1 h with h | h
    · rw [nsum, List.foldr_cons, ← h]; rfl
    · rw [nsum, List.foldr_cons]
      have := ih h
      rw [nsum] at this
      rw [this]; simp

theorem nsum_fin {n : Nat} (g : Fin n → ℝ) : nsum ((List.finRange n).map fun k => some (g k)) = some (∑ k, g k) := by
  have : ((List.finRange n).map fun k => some (g k)) = ((List.finRange n).map g).map some := by simp
  rw [this, nsum_some, ← List.ofFn_eq_map, List.sum_ofFn]

/-- All diagonal entries finite: the filter matrix is the exact product. -/
theorem filterMat_some {n : Nat} (d : List (Option ℝ)) (c : Fin n → ℝ) (hd : ∀ i : Fin n, d.getD i (some 0) = some (c i))
    (V Vinv : Matrix (Fin n) (Fin n) ℝ) (i j : Fin n) :
    filterMat d V Vinv i j = some ((V * (Matrix.diagonal c * Vinv)) i j) := by
  have h1 : ∀ i j : Fin n, nsum ((List.finRange n).map fun (k : Fin n) => nmul (diagAt d i k) (some (Vinv k j)))
      = some ((Matrix.diagonal c * Vinv) i j) := by
    intro i j
    rw [Matrix.mul_apply, ← nsum_fin]
    congr 1
    refine List.map_congr_left fun k _ => ?_
    by_cases h : i = k
    · subst h; rw [diagAt, if_pos rfl, hd]; simp
    · have h' : (i : Nat) ≠ k := fun e => h (Fin.ext e)
      simp [diagAt, h', Matrix.diagonal_apply_ne _ h]
  simp only [filterMat, h1]
  rw [Matrix.mul_apply, ← nsum_fin]
  rfl

/-- One NaN coefficient makes every entry of the filter NaN. -/
theorem filterMat_none {n : Nat} (d : List (Option ℝ)) (m : Fin n) (hd : d.getD m (some 0) = none)
    (V Vinv : Matrix (Fin n) (Fin n) ℝ) (i j : Fin n) : filterMat d V Vinv i j = none := by
  have h1 : ∀ j : Fin n, nsum ((List.finRange n).map fun (k : Fin n) => nmul (diagAt d m k) (some (Vinv k j))) = none := by
    intro j
    refine nsum_none (List.mem_map.2 ⟨m, List.mem_finRange m, ?_⟩)
    rw [diagAt, if_pos rfl, hd]; rfl
  simp only [filterMat]
  refine nsum_none (List.mem_map.2 ⟨m, List.mem_finRange m, ?_⟩)
  rw [h1]; simp

theorem filterDiag_ok (np N : Nat) (Nc : ℝ) (s : Int) (h : triNp N ≤ np) :
    filterDiag np N Nc s
      = .ok ((triPairs N).map (fun p => filterCoef N Nc s (p.1 + p.2)) ++ List.replicate (np - triNp N) (some 0)) := by
  rw [filterDiag, modeLoop_ok _ _ _ (by simpa [triPairs_length] using h)]
  simp [triPairs_length]

theorem alpha_pos : 0 < filterAlpha := by
  unfold filterAlpha
  have : Real.log ((2 : ℝ) ^ (-52 : ℤ)) < 0 := by
    apply Real.log_neg (by positivity)
    norm_num
  linarith

/-- The factor applied to a mode of total degree `n` when it is finite and damping: `1` up to the cut-off, then decreasing. -/
theorem filterCoef_spec (N : Nat) (Nc : ℝ) (s : Int) (hs : 1 ≤ s) (hNc : Nc ≠ N) (n : Nat) (hn : n ≤ N) :
    ∃ c : ℝ, filterCoef N Nc s n = some c ∧ 0 < c ∧ c ≤ 1 ∧ ((n : ℝ) ≤ Nc → c = 1) ∧ (Nc < n → c < 1) := by
  have hN : (n : ℝ) ≤ N := by exact_mod_cast hn
  by_cases h : Nc ≤ (n : ℝ)
  · have hd : (N : ℝ) - Nc ≠ 0 := fun e => hNc (by linarith)
    have hpos : 0 < (N : ℝ) - Nc := lt_of_le_of_ne (by linarith) (Ne.symm hd)
    have h0 : ¬ (((n : ℝ) - Nc) / ((N : ℝ) - Nc) = 0 ∧ s < 0) := fun e => by omega
    have ha := alpha_pos
    refine ⟨Real.exp (-filterAlpha * (((n : ℝ) - Nc) / ((N : ℝ) - Nc)) ^ s), ?_, Real.exp_pos _, ?_, ?_, ?_⟩
    · unfold filterCoef damping; rw [if_pos h, if_neg hd, if_neg h0]
    · rw [Real.exp_le_one_iff]
      have : 0 ≤ (((n : ℝ) - Nc) / ((N : ℝ) - Nc)) ^ s := zpow_nonneg (div_nonneg (by linarith) hpos.le) _
      nlinarith
    · intro hle
      have e : (n : ℝ) - Nc = 0 := by linarith
      rw [e, zero_div, zero_zpow _ (by omega)]; simp
    · intro hlt
      rw [Real.exp_lt_one_iff]
      have : 0 < (((n : ℝ) - Nc) / ((N : ℝ) - Nc)) ^ s := zpow_pos (div_pos (by linarith) hpos) _
      nlinarith
  · refine ⟨1, ?_, one_pos, le_refl _, fun _ => rfl, fun h' => absurd h'.le h⟩
    unfold filterCoef; rw [if_neg h]

/-- Full statement of C39 for one provisioner, given by the list of its modes in the order of the columns of the
Vandermonde matrix: the filter is defined everywhere and multiplies the mode in column `m`, of total degree `n`, by a factor
in (0,1] that is 1 when `n ≤ Nc`. -/
def KeepsLowDampsHigh (np N : Nat) (deg : Fin np → Nat) (Nc : ℝ) (s : Int) : Prop :=
  ∀ V Vinv : Matrix (Fin np) (Fin np) ℝ, Vinv * V = 1 →
    ∃ F : Matrix (Fin np) (Fin np) ℝ, buildFilter N Nc s V Vinv = .ok (fun i j => some (F i j)) ∧
      ∀ m, ∃ c : ℝ, 0 < c ∧ c ≤ 1 ∧ ((deg m : ℝ) ≤ Nc → c = 1) ∧ F.mulVec (V.col m) = c • V.col m

theorem diag_mulVec {n : Nat} (V Vinv : Matrix (Fin n) (Fin n) ℝ) (h : Vinv * V = 1) (c : Fin n → ℝ) (m : Fin n) :
    (V * (Matrix.diagonal c * Vinv)).mulVec (V.col m) = c m • V.col m := by
  have e : V * (Matrix.diagonal c * Vinv) * V = V * Matrix.diagonal c := by
    rw [Matrix.mul_assoc, Matrix.mul_assoc, h, Matrix.mul_one]
  funext i
  have h1 : (V * (Matrix.diagonal c * Vinv)).mulVec (V.col m) i = (V * (Matrix.diagonal c * Vinv) * V) i m := by
    rw [Matrix.mul_apply]; rfl
  rw [h1, e, Matrix.mul_diagonal]
  simp [Matrix.col, mul_comm]

/-- total degree of the simplex mode stored in column `m` -/
def triDeg (N : Nat) (m : Fin (triNp N)) : Nat :=
  ((triPairs N).getD m (0, 0)).1 + ((triPairs N).getD m (0, 0)).2

theorem triDeg_num {N i j : Nat} (h : i + j ≤ N) : triDeg N ⟨triNum N i j, triNum_lt h⟩ = i + j := by
  simp [triDeg, List.getD_eq_getElem?_getD, triPairs_get h]

theorem triDeg_le (N : Nat) (m : Fin (triNp N)) : triDeg N m ≤ N := by
  have hm : (m : Nat) < (triPairs N).length := by rw [triPairs_length]; exact m.2
  have := mem_triPairs.1 (List.getElem_mem hm)
  simpa [triDeg, List.getD_eq_getElem?_getD, hm] using this

theorem triDiag_get (N : Nat) (Nc : ℝ) (s : Int) (m : Fin (triNp N)) :
    ((triPairs N).map (fun p : Nat × Nat => filterCoef N Nc s (p.1 + p.2)) ++ List.replicate (triNp N - triNp N) (some 0)).getD m (some 0)
      = filterCoef N Nc s (triDeg N m) := by
  have hm : (m : Nat) < (triPairs N).length := by rw [triPairs_length]; exact m.2
  simp [triDeg, List.getD_eq_getElem?_getD, hm]

/-- C39 for triangles, for every order, every cut-off different from the order and every exponent `s ≥ 1`.  Modes above the
cut-off are strictly damped.  Missing from the full statement: `Nc = N` and `s < 1`, where it is false
(`C39_cutoff_at_order`, `C39_zero_exponent`, `C39_negative_exponent`), and quadrilaterals (`C39_quad_wrong`). -/
theorem C39_filter_partial (N : Nat) (Nc : ℝ) (s : Int) (hs : 1 ≤ s) (hNc : Nc ≠ N)
    (V Vinv : Matrix (Fin (triNp N)) (Fin (triNp N)) ℝ) (hV : Vinv * V = 1) :
    ∃ F : Matrix (Fin (triNp N)) (Fin (triNp N)) ℝ, buildFilter N Nc s V Vinv = .ok (fun i j => some (F i j)) ∧
      ∀ i j (h : i + j ≤ N), ∃ c : ℝ, 0 < c ∧ c ≤ 1 ∧ (((i + j : Nat) : ℝ) ≤ Nc → c = 1) ∧ (Nc < ((i + j : Nat) : ℝ) → c < 1) ∧
        F.mulVec (V.col ⟨triNum N i j, triNum_lt h⟩) = c • V.col ⟨triNum N i j, triNum_lt h⟩ := by
  have hc : ∀ m, ∃ c : ℝ, filterCoef N Nc s (triDeg N m) = some c ∧ 0 < c ∧ c ≤ 1 ∧ ((triDeg N m : ℝ) ≤ Nc → c = 1) ∧
      (Nc < (triDeg N m : ℝ) → c < 1) := fun m => filterCoef_spec N Nc s hs hNc _ (triDeg_le N m)
  choose c hc using hc
  refine ⟨V * (Matrix.diagonal c * Vinv), ?_, ?_⟩
  · rw [buildFilter, filterDiag_ok _ _ _ _ (le_refl _)]
    simp only [Out.bind_ok, Out.pure_eq]
    congr 1
    funext i j
    exact filterMat_some _ c (fun m => by rw [triDiag_get]; exact (hc m).1) V Vinv i j
  · intro i j h
    obtain ⟨_, h1, h2, h3, h4⟩ := hc ⟨triNum N i j, triNum_lt h⟩
    rw [triDeg_num h] at h3 h4
    exact ⟨_, h1, h2, h3, h4, diag_mulVec V Vinv hV c _⟩

/-- With a cut-off above the order the filter is the identity, for every exponent. -/
theorem C39_identity (N : Nat) (Nc : ℝ) (s : Int) (hNc : (N : ℝ) < Nc)
    (V Vinv : Matrix (Fin (triNp N)) (Fin (triNp N)) ℝ) (hV : Vinv * V = 1) :
    buildFilter N Nc s V Vinv = .ok (fun i j => some ((1 : Matrix (Fin (triNp N)) (Fin (triNp N)) ℝ) i j)) := by
  rw [buildFilter, filterDiag_ok _ _ _ _ (le_refl _)]
  simp only [Out.bind_ok, Out.pure_eq]
  congr 1
  funext i j
  rw [filterMat_some _ (fun _ => 1) (fun m => ?_) V Vinv i j]
  · have : V * (Matrix.diagonal (fun _ => (1 : ℝ)) * Vinv) = 1 := by
      rw [Matrix.diagonal_one, Matrix.one_mul]; exact mul_eq_one_comm.1 hV
    rw [this]
  · rw [triDiag_get, filterCoef, if_neg]
    have : (triDeg N m : ℝ) ≤ N := by exact_mod_cast triDeg_le N m
    linarith

theorem triTop_deg (N : Nat) : triDeg N ⟨triNum N N 0, triNum_lt (by omega)⟩ = N := triDeg_num (by omega)

/-- Cut-off equal to the order: every entry of the filter is NaN. -/
theorem C39_cutoff_at_order (N : Nat) (s : Int) (hs : s ≠ 0) (V Vinv : Matrix (Fin (triNp N)) (Fin (triNp N)) ℝ) :
    buildFilter N (N : ℝ) s V Vinv = .ok (fun _ _ => none) := by
  rw [buildFilter, filterDiag_ok _ _ _ _ (le_refl _)]
  simp only [Out.bind_ok, Out.pure_eq]
  congr 1
  funext i j
  refine filterMat_none _ ⟨triNum N N 0, triNum_lt (by omega)⟩ ?_ V Vinv i j
  rw [triDiag_get, triTop_deg]
  simp [filterCoef, damping, hs]

/-- The full statement of C39 is false for triangles, already for `N = Nc`. -/
theorem C39_tri_false (N : Nat) (s : Int) (hs : s ≠ 0) : ¬ KeepsLowDampsHigh (triNp N) N (triDeg N) N s := by
  intro h
  obtain ⟨F, hF, _⟩ := h 1 1 (by simp)
  rw [C39_cutoff_at_order N s hs] at hF
  have m : Fin (triNp N) := ⟨triNum N N 0, triNum_lt (by omega)⟩
  have := congrFun (congrFun (Out.ok.inj hF) m) m
  cases this

/-- Exponent 0 (with a whole-number cut-off `Nc < N`): the modes of degree exactly `Nc`, which should be kept, are multiplied
by a factor below one. -/
theorem C39_zero_exponent (N Nc : Nat) (h : Nc < N) : ∃ c : ℝ, filterCoef N (Nc : ℝ) 0 Nc = some c ∧ c < 1 := by
  have hd : ¬ ((N : ℝ) - Nc = 0) := by
    have : (Nc : ℝ) < N := by exact_mod_cast h
    linarith
  refine ⟨Real.exp (-filterAlpha * 1), ?_, ?_⟩
  · unfold filterCoef damping
    rw [if_pos (le_refl _), if_neg hd, if_neg (by simp)]; simp
  · rw [Real.exp_lt_one_iff]; have := alpha_pos; linarith

/-- Negative exponent: those modes are removed altogether. -/
theorem C39_negative_exponent (N Nc : Nat) (s : Int) (hs : s < 0) (h : Nc < N) : filterCoef N (Nc : ℝ) s Nc = some 0 := by
  have hd : ¬ ((N : ℝ) - Nc = 0) := by
    have : (Nc : ℝ) < N := by exact_mod_cast h
    linarith
  unfold filterCoef damping
  rw [if_pos (le_refl _), if_neg hd, if_pos (by simp [hs])]

/-- Quadrilaterals: for every order `N ≥ 2`, every cut-off and every exponent for which the filter is finite at all, the filter
annihilates the mode in column `N (N+1)`, which is the mode `(N, 0)` of total degree `N`; in particular with `Nc > N`, where
the filter should be the identity. -/
theorem C39_quad_wrong (N : Nat) (hN : 2 ≤ N) (Nc : ℝ) (s : Int)
    (V Vinv F : Matrix (Fin ((N + 1) * (N + 1))) (Fin ((N + 1) * (N + 1))) ℝ) (hV : Vinv * V = 1)
    (hF : buildFilter N Nc s V Vinv = .ok (fun i j => some (F i j))) (hm : N * (N + 1) + 0 < (N + 1) * (N + 1)) :
    F.mulVec (V.col ⟨N * (N + 1) + 0, hm⟩) = 0 := by
  have hle : triNp N ≤ N * (N + 1) := by
    unfold triNp
    have : (N + 1) * (N + 2) ≤ 2 * (N * (N + 1)) := by nlinarith
    omega
  have hle' : triNp N ≤ (N + 1) * (N + 1) := by omega
  rw [buildFilter, filterDiag_ok _ _ _ _ hle'] at hF
  simp only [Out.bind_ok, Out.pure_eq, Out.ok.injEq] at hF
  set d := (triPairs N).map (fun p => filterCoef N Nc s (p.1 + p.2)) ++ List.replicate ((N + 1) * (N + 1) - triNp N) (some 0)
    with hd
  have hfin : ∀ m : Fin ((N + 1) * (N + 1)), ∃ c, d.getD m (some 0) = some c := by
    intro m
    cases hx : d.getD m (some 0) with
    | some c => exact ⟨c, rfl⟩
    | none =>
      have h1 := filterMat_none d m hx V Vinv m m
      have h2 := congrFun (congrFun hF m) m
      rw [h1] at h2; cases h2
  choose c hc using hfin
  have hFe : F = V * (Matrix.diagonal c * Vinv) := by
    ext i j
    have h2 := congrFun (congrFun hF i) j
    rw [filterMat_some d c hc V Vinv i j] at h2
    exact (Option.some.inj h2).symm
  rw [hFe, diag_mulVec V Vinv hV]
  have h0 : c ⟨N * (N + 1) + 0, hm⟩ = 0 := by
    have := hc ⟨N * (N + 1) + 0, hm⟩
    rw [hd, List.getD_eq_getElem?_getD, List.getElem?_append_right (by simpa [triPairs_length] using hle),
      List.getElem?_replicate] at this
    split at this
    · exact (Option.some.inj this).symm
    · exact (Option.some.inj this).symm
  rw [h0, zero_smul]

/-- The full statement of C39 is false for quadrilaterals of every order `N ≥ 2`, whatever the parameters. -/
theorem C39_quad_false (N : Nat) (hN : 2 ≤ N) (Nc : ℝ) (s : Int) :
    ¬ KeepsLowDampsHigh ((N + 1) * (N + 1)) N (fun m => m / (N + 1) + m % (N + 1)) Nc s := by
  intro h
  obtain ⟨F, hF, hm⟩ := h 1 1 (by simp)
  have hlt : N * (N + 1) + 0 < (N + 1) * (N + 1) := by nlinarith
  obtain ⟨c, hc, _, _, he⟩ := hm ⟨N * (N + 1) + 0, hlt⟩
  rw [C39_quad_wrong N hN Nc s 1 1 F (by simp) hF hlt] at he
  have := congrFun he ⟨N * (N + 1) + 0, hlt⟩
  simp [Matrix.col] at this
  exact hc.ne this

/-- The hypotheses of `C39_filter_partial` and `C39_quad_wrong` are met, e.g. with `V = Vinv = 1`. -/
example : ∃ F : Matrix (Fin (triNp 4)) (Fin (triNp 4)) ℝ, buildFilter 4 2 4 1 1 = .ok (fun i j => some (F i j)) ∧
    ∀ i j (h : i + j ≤ 4), ∃ c : ℝ, 0 < c ∧ c ≤ 1 ∧ (((i + j : Nat) : ℝ) ≤ 2 → c = 1) ∧ ((2 : ℝ) < ((i + j : Nat) : ℝ) → c < 1) ∧
      F.mulVec ((1 : Matrix (Fin (triNp 4)) (Fin (triNp 4)) ℝ).col ⟨triNum 4 i j, triNum_lt h⟩)
        = c • (1 : Matrix (Fin (triNp 4)) (Fin (triNp 4)) ℝ).col ⟨triNum 4 i j, triNum_lt h⟩ :=
  C39_filter_partial 4 2 4 (by norm_num) (by norm_num) 1 1 (by simp)

end Blitzdg.DG2D
