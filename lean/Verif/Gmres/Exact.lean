import Mathlib.Analysis.InnerProductSpace.Basic
import Mathlib.Analysis.InnerProductSpace.Orthonormal
import Mathlib.LinearAlgebra.Dimension.Finrank
import Mathlib.LinearAlgebra.Dimension.StrongRankCondition
import Mathlib.Tactic.Ring
import Mathlib.Tactic.Linarith
import Mathlib.Tactic.Module
import Mathlib.Tactic.FieldSimp
import Verif.Gmres.Model

/-! GMRES in exact arithmetic: the inner iteration on a real inner product space. -/

namespace Blitzdg.Gmres

set_option linter.unusedSectionVars false

variable {σ E : Type} [NormedAddCommGroup E] [InnerProductSpace ℝ E]

/-- Exact real arithmetic on a real inner product space, with the contracts of the BLAS routines `drotg`, `dtrsv` and `dgemv`. -/
structure Exact (A : Arith ℝ E) : Prop where
  zero : A.zero = 0
  one : A.one = 1
  add : ∀ a b, A.add a b = a + b
  sub : ∀ a b, A.sub a b = a - b
  mul : ∀ a b, A.mul a b = a * b
  div : ∀ a b, A.div a b = a / b
  abs : ∀ a, A.abs a = |a|
  eq : ∀ a b, A.eq a b = true ↔ a = b
  lt : ∀ a b, A.lt a b = true ↔ a < b
  le : ∀ a b, A.le a b = true ↔ a ≤ b
  fin : ∀ a, A.fin a = true
  nrm : ∀ v, A.nrm v = ‖v‖
  dot : ∀ v w, A.dot v w = inner ℝ v w
  vadd : ∀ v w, A.vadd v w = v + w
  vsub : ∀ v w, A.vsub v w = v - w
  vscale : ∀ a v, A.vscale a v = a • v
  nonzero : ∀ v, A.nonzero v = true ↔ v ≠ 0
  /-- `drotg(a, b)` returns r, c, s with c a + s b = r, c b - s a = 0 and c² + s² = 1 -/
  rotg : ∀ a b, (A.rotg a b).2.1 * a + (A.rotg a b).2.2 * b = (A.rotg a b).1 ∧
    (A.rotg a b).2.1 * b - (A.rotg a b).2.2 * a = 0 ∧ (A.rotg a b).2.1 ^ 2 + (A.rotg a b).2.2 ^ 2 = 1
  /-- `dtrsv` solves with the upper triangle of the leading n by n block -/
  trsv : ∀ n (H : List (List ℝ)) (s : List ℝ), (∀ j < n, (H.getD j []).getD j 0 ≠ 0) → ∀ l < n,
    ∑ j ∈ Finset.range n, (if l ≤ j then (H.getD j []).getD l 0 * (A.trsv n H s).getD j 0 else 0) = s.getD l 0
  /-- `dgemv` combines the leading n columns -/
  comb : ∀ n (V : List E) (y : List ℝ), A.comb n V y = ∑ j ∈ Finset.range n, y.getD j 0 • V.getD j 0

/-! ### List lemmas -/

theorem getD_set_self (l : List ℝ) (i : Nat) (x : ℝ) (h : i < l.length) : (l.set i x).getD i 0 = x := by
  simp [List.getD, h]

theorem getD_set_ne (l : List ℝ) (i j : Nat) (x : ℝ) (h : i ≠ j) : (l.set i x).getD j 0 = l.getD j 0 := by
  simp [List.getD, h]

theorem rotAt_length (A : Arith ℝ E) (c s : ℝ) (l : List ℝ) (i : Nat) : (rotAt A c s l i).length = l.length := by
  simp [rotAt]

theorem rotAt_fst {A : Arith ℝ E} (h : Exact A) (c s : ℝ) (l : List ℝ) (i : Nat) (hi : i + 1 < l.length) :
    (rotAt A c s l i).getD i 0 = c * l.getD i 0 + s * l.getD (i + 1) 0 := by
  simp only [rotAt, h.zero, h.add, h.mul, h.sub]
  rw [getD_set_self _ _ _ (by simp; omega)]

theorem rotAt_snd {A : Arith ℝ E} (h : Exact A) (c s : ℝ) (l : List ℝ) (i : Nat) (hi : i + 1 < l.length) :
    (rotAt A c s l i).getD (i + 1) 0 = c * l.getD (i + 1) 0 - s * l.getD i 0 := by
  simp only [rotAt, h.zero, h.add, h.mul, h.sub]
  rw [getD_set_ne _ _ _ _ (by omega), getD_set_self _ _ _ hi]

theorem rotAt_other {A : Arith ℝ E} (c s : ℝ) (l : List ℝ) (i j : Nat) (h1 : j ≠ i) (h2 : j ≠ i + 1) :
    (rotAt A c s l i).getD j 0 = l.getD j 0 := by
  simp only [rotAt]
  rw [getD_set_ne _ _ _ _ (Ne.symm h1), getD_set_ne _ _ _ _ (Ne.symm h2)]

theorem rotCol_nil (A : Arith ℝ E) (l : List ℝ) : rotCol A [] l = l := rfl

theorem rotCol_snoc (A : Arith ℝ E) (giv : List (ℝ × ℝ)) (g : ℝ × ℝ) (l : List ℝ) :
    rotCol A (giv ++ [g]) l = rotAt A g.1 g.2 (rotCol A giv l) giv.length := by
  have hfold : ∀ (n : Nat) (l : List ℝ), n ≤ giv.length →
      (List.range n).foldl (fun l j => rotAt A ((giv ++ [g]).getD j (A.zero, A.zero)).1 ((giv ++ [g]).getD j (A.zero, A.zero)).2 l j) l =
      (List.range n).foldl (fun l j => rotAt A (giv.getD j (A.zero, A.zero)).1 (giv.getD j (A.zero, A.zero)).2 l j) l := by
    intro n l hn
    induction n with
    | zero => rfl
    | succ n ih =>
      rw [List.range_succ, List.foldl_append, List.foldl_append, ih (by omega)]
      simp only [List.foldl_cons, List.foldl_nil]
      have : (giv ++ [g]).getD n (A.zero, A.zero) = giv.getD n (A.zero, A.zero) := by
        simp [List.getD, List.getElem?_append_left (show n < giv.length by omega)]
      rw [this]
  unfold rotCol
  rw [List.length_append, List.length_singleton, List.range_succ, List.foldl_append, hfold _ _ (Nat.le_refl _)]
  simp only [List.foldl_cons, List.foldl_nil]
  have : (giv ++ [g]).getD giv.length (A.zero, A.zero) = g := by simp [List.getD]
  rw [this]

theorem rotCol_length (A : Arith ℝ E) (giv : List (ℝ × ℝ)) (l : List ℝ) : (rotCol A giv l).length = l.length := by
  induction giv using List.reverseRecOn with
  | nil => rfl
  | append_singleton giv g ih => rw [rotCol_snoc, rotAt_length, ih]

theorem rotCol_above (A : Arith ℝ E) (giv : List (ℝ × ℝ)) (l : List ℝ) (j : Nat) (hj : giv.length < j) :
    (rotCol A giv l).getD j 0 = l.getD j 0 := by
  induction giv using List.reverseRecOn generalizing j with
  | nil => rfl
  | append_singleton giv g ih =>
    rw [List.length_append, List.length_singleton] at hj
    rw [rotCol_snoc, rotAt_other _ _ _ _ _ (by omega) (by omega), ih j (by omega)]

theorem getD_snoc_lt {α : Type} (l : List α) (x d : α) (j : Nat) (h : j < l.length) : (l ++ [x]).getD j d = l.getD j d := by
  simp [List.getD, List.getElem?_append_left h]

theorem getD_snoc_eq {α : Type} (l : List α) (x d : α) (j : Nat) (h : j = l.length) : (l ++ [x]).getD j d = x := by
  subst h; simp [List.getD]

theorem mgs_snoc (A : Arith ℝ E) (V : List E) (v w : E) :
    mgs A (V ++ [v]) w = (A.vsub (mgs A V w).1 (A.vscale (A.dot (mgs A V w).1 v) v), (mgs A V w).2 ++ [A.dot (mgs A V w).1 v]) := by
  simp only [mgs, List.foldl_append, List.foldl_cons, List.foldl_nil]

theorem mgs_length (A : Arith ℝ E) (V : List E) (w : E) : (mgs A V w).2.length = V.length := by
  induction V using List.reverseRecOn with
  | nil => rfl
  | append_singleton V v ih => rw [mgs_snoc]; simp [ih]

theorem mgs_sum {A : Arith ℝ E} (h : Exact A) (V : List E) (w : E) :
    w = ∑ j ∈ Finset.range V.length, (mgs A V w).2.getD j 0 • V.getD j 0 + (mgs A V w).1 := by
  induction V using List.reverseRecOn with
  | nil => simp [mgs]
  | append_singleton V v ih =>
    have hs : ∑ j ∈ Finset.range V.length, (mgs A (V ++ [v]) w).2.getD j 0 • (V ++ [v]).getD j 0 =
        ∑ j ∈ Finset.range V.length, (mgs A V w).2.getD j 0 • V.getD j 0 := by
      refine Finset.sum_congr rfl fun j hj => ?_
      rw [Finset.mem_range] at hj
      rw [mgs_snoc, getD_snoc_lt V v 0 j hj]
      simp only
      rw [getD_snoc_lt _ _ _ _ (by rw [mgs_length]; exact hj)]
    rw [List.length_append, List.length_singleton, Finset.sum_range_succ, hs, getD_snoc_eq V v 0 _ rfl]
    conv_lhs => rw [ih]
    rw [mgs_snoc]
    simp only
    rw [getD_snoc_eq _ _ _ _ (mgs_length A V w).symm, h.vsub, h.vscale]
    module

/-- The vectors of the list form an orthonormal family. -/
def ON (V : List E) (n : Nat) : Prop :=
  ∀ j < n, ∀ k < n, inner ℝ (V.getD j 0) (V.getD k 0) = if j = k then (1 : ℝ) else 0

theorem mgs_orth {A : Arith ℝ E} (h : Exact A) (V : List E) (hV : ON V V.length) (w : E) :
    ∀ j < V.length, inner ℝ (mgs A V w).1 (V.getD j 0) = (0 : ℝ) := by
  induction V using List.reverseRecOn with
  | nil => intro j hj; simp at hj
  | append_singleton V v ih =>
    have hON : ON V V.length := by
      intro j hj k hk
      have := hV j (by simp; omega) k (by simp; omega)
      rwa [getD_snoc_lt V v 0 j hj, getD_snoc_lt V v 0 k hk] at this
    intro j hj
    rw [List.length_append, List.length_singleton] at hj
    rw [mgs_snoc]
    simp only [h.vsub, h.vscale, h.dot, inner_sub_left, inner_smul_left, RCLike.conj_to_real]
    by_cases hjl : j < V.length
    · have h1 := ih hON j hjl
      have h2 := hV V.length (by simp) j (by simp; omega)
      rw [getD_snoc_eq V v 0 _ rfl, if_neg (by omega)] at h2
      rw [getD_snoc_lt V v 0 j hjl] at h2 ⊢
      rw [h1, h2]; ring
    · have hj' : j = V.length := by omega
      have h2 := hV V.length (by simp) V.length (by simp)
      rw [getD_snoc_eq V v 0 _ rfl, if_pos rfl] at h2
      rw [getD_snoc_eq V v 0 j hj', h2]; ring

/-! ### The invariant of the inner loop -/

/-- Span of the first `n` vectors of `V`. -/
def vspan (V : List E) (n : Nat) : Submodule ℝ E := Submodule.span ℝ {x | ∃ k < n, x = V.getD k 0}

/-- Entry (l, j) of the stored triangular matrix. -/
def hcoef (H : List (List ℝ)) (l j : Nat) : ℝ := (H.getD j []).getD l 0

/-- State at the start of inner iteration `i` of a cycle with residual `r0` and operator `B`: `q` and `u` are the basis turned by the
rotations so far. -/
structure Inv (A : Arith ℝ E) (B : E →ₗ[ℝ] E) (r0 : E) (i : Nat) (c : Cyc σ ℝ E) (q : Nat → E) (u : E) : Prop where
  lenV : c.V.length = i + 1
  lenH : c.H.length = i
  leng : c.giv.length = i
  on : ON c.V (i + 1)
  v0 : c.V.getD 0 0 = (1 / ‖r0‖) • r0
  qq : ∀ j < i, ∀ k < i, inner ℝ (q j) (q k) = if j = k then (1 : ℝ) else 0
  qu : ∀ j < i, inner ℝ (q j) u = (0 : ℝ)
  uu : inner ℝ u u = (1 : ℝ)
  perp : ∀ w : E, (∀ j ≤ i, inner ℝ w (c.V.getD j 0) = (0 : ℝ)) → (∀ j < i, inner ℝ w (q j) = (0 : ℝ)) ∧ inner ℝ w u = (0 : ℝ)
  rep : ∀ a : List ℝ, i < a.length → ∑ j ∈ Finset.range (i + 1), a.getD j 0 • c.V.getD j 0 =
    ∑ j ∈ Finset.range i, (rotCol A c.giv a).getD j 0 • q j + (rotCol A c.giv a).getD i 0 • u
  bv : ∀ j < i, B (c.V.getD j 0) = ∑ l ∈ Finset.range (j + 1), hcoef c.H l j • q l
  kry : ∀ j < i, B (c.V.getD j 0) ∈ vspan c.V (j + 2)
  diag : ∀ j < i, hcoef c.H j j ≠ 0
  res : r0 = ∑ l ∈ Finset.range i, c.s.getD l 0 • q l + c.s.getD i 0 • u
  sz : ∀ l, i < l → c.s.getD l 0 = 0
  rn : c.rnrm = |c.s.getD i 0|

/-- State when the inner loop is left with `n` columns: the residual splits into a part reached by the basis and the rest `e`. -/
structure Post (B : E →ₗ[ℝ] E) (r0 : E) (n : Nat) (c : Cyc σ ℝ E) (q : Nat → E) (e : E) : Prop where
  on : ON c.V n
  v0 : 0 < n → c.V.getD 0 0 = (1 / ‖r0‖) • r0
  qq : ∀ j < n, ∀ k < n, inner ℝ (q j) (q k) = if j = k then (1 : ℝ) else 0
  qe : ∀ j < n, inner ℝ (q j) e = (0 : ℝ)
  bv : ∀ j < n, B (c.V.getD j 0) = ∑ l ∈ Finset.range (j + 1), hcoef c.H l j • q l
  kry : ∀ j, j + 1 < n → B (c.V.getD j 0) ∈ vspan c.V (j + 2)
  diag : ∀ j < n, hcoef c.H j j ≠ 0
  res : r0 = ∑ l ∈ Finset.range n, c.s.getD l 0 • q l + e
  rn : c.rnrm = ‖e‖

theorem norm_of_inner_one {u : E} (h : inner ℝ u u = (1 : ℝ)) : ‖u‖ = 1 := by
  rw [real_inner_self_eq_norm_sq] at h
  have h0 := norm_nonneg u
  nlinarith

theorem Inv.post {A : Arith ℝ E} {B : E →ₗ[ℝ] E} {r0 : E} {i : Nat} {c : Cyc σ ℝ E} {q : Nat → E} {u : E} (h : Inv A B r0 i c q u) :
    Post B r0 i c q (c.s.getD i 0 • u) where
  on := fun j hj k hk => h.on j (by omega) k (by omega)
  v0 := fun _ => h.v0
  qq := h.qq
  qe := fun j hj => by rw [inner_smul_right, h.qu j hj, mul_zero]
  bv := h.bv
  kry := fun j hj => h.kry j (by omega)
  diag := h.diag
  res := h.res
  rn := by rw [h.rn, norm_smul, norm_of_inner_one h.uu, mul_one, Real.norm_eq_abs]

/-- The state after `arnoldi` in iteration `i`. -/
def after (A : Arith ℝ E) (junk : E) (i : Nat) (c : Cyc σ ℝ E) (w pv : E) (W : World σ E) : Cyc σ ℝ E :=
  let a := arnoldi A junk i c.V c.H c.giv c.s w
  { V := a.1, H := a.2.1, giv := a.2.2.1, s := a.2.2.2, w := (mgs A c.V w).1, pv := pv, rnrm := A.abs (a.2.2.2.getD (i + 1) A.zero), W := W }

section StepLemma

variable {A : Arith ℝ E} (hA : Exact A) {B : E →ₗ[ℝ] E} {r0 : E} {i : Nat} {c : Cyc σ ℝ E} {q : Nat → E} {u : E}
  (h : Inv A B r0 i c q u) (hi : i + 1 < c.s.length) (junk pv : E) (W : World σ E)

/-- The new column of H before its own rotation. -/
def colOf (A : Arith ℝ E) (c : Cyc σ ℝ E) (w : E) : List ℝ := rotCol A c.giv ((mgs A c.V w).2 ++ [A.nrm (mgs A c.V w).1])

/-- The new basis vector. -/
def vOf (A : Arith ℝ E) (junk : E) (c : Cyc σ ℝ E) (w : E) : E :=
  if A.eq (A.nrm (mgs A c.V w).1) A.zero then junk else A.vscale (A.div A.one (A.nrm (mgs A c.V w).1)) (mgs A c.V w).1

include h in
theorem colOf_length (w : E) : (colOf A c w).length = i + 2 := by
  simp [colOf, rotCol_length, mgs_length, h.lenV]

include h hA in
theorem colOf_last (w : E) : (colOf A c w).getD (i + 1) 0 = ‖(mgs A c.V w).1‖ := by
  rw [colOf, rotCol_above _ _ _ _ (by rw [h.leng]; omega), getD_snoc_eq _ _ _ _ (by rw [mgs_length, h.lenV]), hA.nrm]

include h hA in
/-- The new image in the turned basis. -/
theorem image_eq (w : E) :
    w = ∑ j ∈ Finset.range i, (colOf A c w).getD j 0 • q j + (colOf A c w).getD i 0 • u + (mgs A c.V w).1 := by
  have h1 := mgs_sum hA c.V w
  have h2 := h.rep ((mgs A c.V w).2 ++ [A.nrm (mgs A c.V w).1]) (by simp [mgs_length, h.lenV])
  rw [h.lenV] at h1
  have h3 : ∑ j ∈ Finset.range (i + 1), (mgs A c.V w).2.getD j 0 • c.V.getD j 0 =
      ∑ j ∈ Finset.range (i + 1), ((mgs A c.V w).2 ++ [A.nrm (mgs A c.V w).1]).getD j 0 • c.V.getD j 0 := by
    refine Finset.sum_congr rfl fun j hj => ?_
    rw [Finset.mem_range] at hj
    rw [getD_snoc_lt _ _ _ _ (by rw [mgs_length, h.lenV]; exact hj)]
  rw [h3, h2] at h1
  exact h1

include hA in
theorem vOf_eq (w : E) : (mgs A c.V w).1 = ‖(mgs A c.V w).1‖ • vOf A junk c w := by
  unfold vOf
  by_cases h0 : (mgs A c.V w).1 = 0
  · rw [h0]; simp
  · have hn : ‖(mgs A c.V w).1‖ ≠ 0 := norm_ne_zero_iff.2 h0
    rw [if_neg (by rw [hA.eq, hA.nrm, hA.zero]; exact hn), hA.vscale, hA.div, hA.one, hA.nrm, smul_smul, mul_one_div_cancel hn,
      one_smul]

include hA in
theorem vOf_unit (w : E) (h0 : (mgs A c.V w).1 ≠ 0) : inner ℝ (vOf A junk c w) (vOf A junk c w) = (1 : ℝ) := by
  have hn : ‖(mgs A c.V w).1‖ ≠ 0 := norm_ne_zero_iff.2 h0
  unfold vOf
  rw [if_neg (by rw [hA.eq, hA.nrm, hA.zero]; exact hn), hA.vscale, hA.div, hA.one, hA.nrm, inner_smul_left, inner_smul_right,
    real_inner_self_eq_norm_sq]
  simp only [RCLike.conj_to_real]
  field_simp

include h hA in
theorem vOf_orth (w : E) (h0 : (mgs A c.V w).1 ≠ 0) (j : Nat) (hj : j ≤ i) : inner ℝ (vOf A junk c w) (c.V.getD j 0) = (0 : ℝ) := by
  have hn : ‖(mgs A c.V w).1‖ ≠ 0 := norm_ne_zero_iff.2 h0
  have := mgs_orth hA c.V (by rw [h.lenV]; exact h.on) w j (by rw [h.lenV]; omega)
  unfold vOf
  rw [if_neg (by rw [hA.eq, hA.nrm, hA.zero]; exact hn), hA.vscale, inner_smul_left, this, mul_zero]

/-- The new rotation. -/
def gOf (A : Arith ℝ E) (i : Nat) (c : Cyc σ ℝ E) (w : E) : ℝ × ℝ × ℝ :=
  A.rotg ((colOf A c w).getD i A.zero) ((colOf A c w).getD (i + 1) A.zero)

theorem after_V (w : E) : (after A junk i c w pv W).V = c.V ++ [vOf A junk c w] := rfl
theorem after_H (w : E) : (after A junk i c w pv W).H =
    c.H ++ [((colOf A c w).set i (gOf A i c w).1).set (i + 1) A.zero] := rfl
theorem after_giv (w : E) : (after A junk i c w pv W).giv = c.giv ++ [((gOf A i c w).2.1, (gOf A i c w).2.2)] := rfl
theorem after_s (w : E) : (after A junk i c w pv W).s = rotAt A (gOf A i c w).2.1 (gOf A i c w).2.2 c.s i := rfl
theorem after_rnrm (w : E) : (after A junk i c w pv W).rnrm =
    A.abs ((rotAt A (gOf A i c w).2.1 (gOf A i c w).2.2 c.s i).getD (i + 1) A.zero) := rfl

include h in
theorem hcoef_old (w : E) (l j : Nat) (hj : j < i) : hcoef (after A junk i c w pv W).H l j = hcoef c.H l j := by
  unfold hcoef
  rw [after_H, getD_snoc_lt _ _ _ _ (by rw [h.lenH]; exact hj)]

include h in
theorem hcoef_new_lt (w : E) (l : Nat) (hl : l < i) : hcoef (after A junk i c w pv W).H l i = (colOf A c w).getD l 0 := by
  unfold hcoef
  rw [after_H, getD_snoc_eq _ _ _ _ h.lenH.symm, getD_set_ne _ _ _ _ (by omega), getD_set_ne _ _ _ _ (by omega)]

include h in
theorem hcoef_new_diag (w : E) : hcoef (after A junk i c w pv W).H i i = (gOf A i c w).1 := by
  unfold hcoef
  rw [after_H, getD_snoc_eq _ _ _ _ h.lenH.symm, getD_set_ne _ _ _ _ (by omega),
    getD_set_self _ _ _ (by rw [colOf_length h]; omega)]

include h in
theorem getV_old (w : E) (j : Nat) (hj : j ≤ i) : (after A junk i c w pv W).V.getD j 0 = c.V.getD j 0 := by
  rw [after_V, getD_snoc_lt _ _ _ _ (by rw [h.lenV]; omega)]

include h in
theorem getV_new (w : E) : (after A junk i c w pv W).V.getD (i + 1) 0 = vOf A junk c w := by
  rw [after_V, getD_snoc_eq _ _ _ _ h.lenV.symm]

include h hA in
/-- The rotation relates the last two entries of the column. -/
theorem gOf_spec (w : E) :
    (gOf A i c w).2.1 * (colOf A c w).getD i 0 + (gOf A i c w).2.2 * ‖(mgs A c.V w).1‖ = (gOf A i c w).1 ∧
    (gOf A i c w).2.1 * ‖(mgs A c.V w).1‖ - (gOf A i c w).2.2 * (colOf A c w).getD i 0 = 0 ∧
    (gOf A i c w).2.1 ^ 2 + (gOf A i c w).2.2 ^ 2 = 1 := by
  have := hA.rotg ((colOf A c w).getD i A.zero) ((colOf A c w).getD (i + 1) A.zero)
  rw [← gOf, hA.zero, colOf_last hA h] at this
  exact this

include h hA in
theorem vspan_mono_after (w : E) (n : Nat) (hn : n ≤ i + 1) : vspan c.V n ≤ vspan (after A junk i c w pv W).V n := by
  unfold vspan
  refine Submodule.span_mono ?_
  rintro x ⟨k, hk, rfl⟩
  exact ⟨k, hk, (getV_old h junk pv W w k (by omega)).symm⟩

include h hA in
/-- The image of the last vector lies in the span of the extended basis. -/
theorem image_mem (w : E) : w ∈ vspan (after A junk i c w pv W).V (i + 2) := by
  have h1 := mgs_sum hA c.V w
  rw [h.lenV] at h1
  have key : ∀ x y : E, x = y → y ∈ vspan (after A junk i c w pv W).V (i + 2) → x ∈ vspan (after A junk i c w pv W).V (i + 2) := by
    intro x y hxy hy; rw [hxy]; exact hy
  refine key _ _ h1 (Submodule.add_mem _ (Submodule.sum_mem _ fun j hj => Submodule.smul_mem _ _ (Submodule.subset_span ?_)) ?_)
  · rw [Finset.mem_range] at hj
    exact ⟨j, by omega, (getV_old h junk pv W w j (by omega)).symm⟩
  · rw [vOf_eq hA junk w]
    exact Submodule.smul_mem _ _ (Submodule.subset_span ⟨i + 1, by omega, (getV_new h junk pv W w).symm⟩)

include h hA hi in
theorem s_new_diag (w : E) : (after A junk i c w pv W).s.getD i 0 = (gOf A i c w).2.1 * c.s.getD i 0 := by
  rw [after_s, rotAt_fst hA _ _ _ _ hi, h.sz (i + 1) (by omega)]; ring

include h hA hi in
theorem s_new_last (w : E) : (after A junk i c w pv W).s.getD (i + 1) 0 = -((gOf A i c w).2.2 * c.s.getD i 0) := by
  rw [after_s, rotAt_snd hA _ _ _ _ hi, h.sz (i + 1) (by omega)]; ring

theorem s_old (w : E) (l : Nat) (h1 : l ≠ i) (h2 : l ≠ i + 1) : (after A junk i c w pv W).s.getD l 0 = c.s.getD l 0 := by
  rw [after_s, rotAt_other _ _ _ _ _ h1 h2]

include h hA hi in
theorem rnrm_new (w : E) : (after A junk i c w pv W).rnrm = |(after A junk i c w pv W).s.getD (i + 1) 0| := by
  rw [after_rnrm, hA.abs, hA.zero, after_s]

/-- The new turned basis vector. -/
def qOf (A : Arith ℝ E) (junk : E) (i : Nat) (c : Cyc σ ℝ E) (u w : E) : E :=
  (gOf A i c w).2.1 • u + (gOf A i c w).2.2 • vOf A junk c w

/-- The new last vector of the turned basis. -/
def uOf (A : Arith ℝ E) (junk : E) (i : Nat) (c : Cyc σ ℝ E) (u w : E) : E :=
  (-(gOf A i c w).2.2) • u + (gOf A i c w).2.1 • vOf A junk c w

include h hA in
/-- Either the new vector is a unit vector orthogonal to the old ones, or the rotation does not use it. -/
theorem sine_facts (w : E) (hρ : (gOf A i c w).1 ≠ 0) :
    (∀ j < i, (gOf A i c w).2.2 * inner ℝ (q j) (vOf A junk c w) = 0) ∧ (gOf A i c w).2.2 * inner ℝ u (vOf A junk c w) = 0 ∧
      (gOf A i c w).2.2 ^ 2 * inner ℝ (vOf A junk c w) (vOf A junk c w) = (gOf A i c w).2.2 ^ 2 := by
  by_cases h0 : (mgs A c.V w).1 = 0
  · obtain ⟨g1, g2, g3⟩ := gOf_spec hA h w
    rw [h0, norm_zero, mul_zero, add_zero] at g1
    rw [h0, norm_zero, mul_zero, zero_sub, neg_eq_zero] at g2
    have ha : (colOf A c w).getD i 0 ≠ 0 := by
      intro ha; rw [ha, mul_zero] at g1; exact hρ g1.symm
    have hs : (gOf A i c w).2.2 = 0 := by
      rcases mul_eq_zero.1 g2 with h | h
      · exact h
      · exact absurd h ha
    rw [hs]
    simp
  · have h1 := vOf_unit hA junk w h0
    have h2 := h.perp (vOf A junk c w) (fun j hj => vOf_orth hA h junk w h0 j hj)
    refine ⟨fun j hj => ?_, ?_, by rw [h1, mul_one]⟩
    · rw [real_inner_comm, h2.1 j hj, mul_zero]
    · rw [real_inner_comm, h2.2, mul_zero]

include h hA hi in
theorem after_post (w : E) (hw : B (c.V.getD i 0) = w) (hρ : (gOf A i c w).1 ≠ 0) :
    Post B r0 (i + 1) (after A junk i c w pv W) (Function.update q i (qOf A junk i c u w))
      ((after A junk i c w pv W).s.getD (i + 1) 0 • uOf A junk i c u w) := by
  obtain ⟨f1, f2, f3⟩ := sine_facts hA h junk w hρ
  obtain ⟨g1, g2, g3⟩ := gOf_spec hA h w
  have hq : ∀ j, j < i → Function.update q i (qOf A junk i c u w) j = q j := fun j hj => Function.update_of_ne (by omega) _ _
  have hqi : Function.update q i (qOf A junk i c u w) i = qOf A junk i c u w := Function.update_self _ _ _
  have hsl := s_new_last hA h hi junk pv W w
  refine ⟨?_, ?_, ?_, ?_, ?_, ?_, ?_, ?_, ?_⟩
  · intro j hj k hk
    rw [getV_old h junk pv W w j (by omega), getV_old h junk pv W w k (by omega)]
    exact h.on j hj k hk
  · intro _
    rw [getV_old h junk pv W w 0 (by omega)]
    exact h.v0
  · have hlast : ∀ j < i, inner ℝ (q j) (qOf A junk i c u w) = (0 : ℝ) := by
      intro j hj
      unfold qOf
      rw [inner_add_right, inner_smul_right, inner_smul_right, h.qu j hj, f1 j hj]; ring
    intro j hj k hk
    rcases Nat.lt_succ_iff_lt_or_eq.1 hj with hj' | hj' <;> rcases Nat.lt_succ_iff_lt_or_eq.1 hk with hk' | hk'
    · rw [hq j hj', hq k hk']; exact h.qq j hj' k hk'
    · rw [hq j hj', hk', hqi, hlast j hj', if_neg (by omega)]
    · rw [hq k hk', hj', hqi, real_inner_comm, hlast k hk', if_neg (by omega)]
    · rw [hj', hk', hqi, if_pos rfl]
      unfold qOf
      simp only [inner_add_left, inner_add_right, inner_smul_left, inner_smul_right, RCLike.conj_to_real]
      rw [h.uu, real_inner_comm u (vOf A junk c w)]
      linear_combination f3 + g3 + 2 * (gOf A i c w).2.1 * f2
  · intro j hj
    rw [inner_smul_right, hsl]
    rcases Nat.lt_succ_iff_lt_or_eq.1 hj with hj' | hj'
    · rw [hq j hj']
      unfold uOf
      rw [inner_add_right, inner_smul_right, inner_smul_right, h.qu j hj']
      linear_combination (-(c.s.getD i 0 * (gOf A i c w).2.1)) * f1 j hj'
    · rw [hj', hqi]
      unfold uOf qOf
      simp only [inner_add_left, inner_add_right, inner_smul_left, inner_smul_right, RCLike.conj_to_real]
      rw [h.uu, real_inner_comm u (vOf A junk c w)]
      linear_combination (-(c.s.getD i 0 * (gOf A i c w).2.1)) * f3 +
        (-(c.s.getD i 0)) * ((gOf A i c w).2.1 ^ 2 - (gOf A i c w).2.2 ^ 2) * f2
  · intro j hj
    rw [getV_old h junk pv W w j (by omega)]
    rcases Nat.lt_succ_iff_lt_or_eq.1 hj with hj' | hj'
    · rw [h.bv j hj']
      refine Finset.sum_congr rfl fun l hl => ?_
      rw [Finset.mem_range] at hl
      rw [hcoef_old h junk pv W w l j hj', hq l (by omega)]
    · subst hj'
      rw [hw, Finset.sum_range_succ, hqi, hcoef_new_diag h junk pv W w]
      have : ∑ l ∈ Finset.range j, hcoef (after A junk j c w pv W).H l j • Function.update q j (qOf A junk j c u w) l =
          ∑ l ∈ Finset.range j, (colOf A c w).getD l 0 • q l := by
        refine Finset.sum_congr rfl fun l hl => ?_
        rw [Finset.mem_range] at hl
        rw [hcoef_new_lt h junk pv W w l hl, hq l hl]
      rw [this]
      conv_lhs => rw [image_eq hA h w, vOf_eq hA junk w]
      unfold qOf
      have e1 : (colOf A c w).getD j 0 = (gOf A j c w).1 * (gOf A j c w).2.1 := by
        rw [← g1]; linear_combination (-(colOf A c w).getD j 0) * g3 - (gOf A j c w).2.2 * g2
      have e2 : ‖(mgs A c.V w).1‖ = (gOf A j c w).1 * (gOf A j c w).2.2 := by
        rw [← g1]; linear_combination (-‖(mgs A c.V w).1‖) * g3 + (gOf A j c w).2.1 * g2
      rw [e2, smul_add, smul_smul, smul_smul, ← e1, add_assoc]
  · intro j hj
    rw [getV_old h junk pv W w j (by omega)]
    exact vspan_mono_after hA h junk pv W w (j + 2) (by omega) (h.kry j (by omega))
  · intro j hj
    rcases Nat.lt_succ_iff_lt_or_eq.1 hj with hj' | hj'
    · rw [hcoef_old h junk pv W w j j hj']; exact h.diag j hj'
    · rw [hj', hcoef_new_diag h junk pv W w]; exact hρ
  · have : ∑ l ∈ Finset.range i, (after A junk i c w pv W).s.getD l 0 • Function.update q i (qOf A junk i c u w) l =
        ∑ l ∈ Finset.range i, c.s.getD l 0 • q l := by
      refine Finset.sum_congr rfl fun l hl => ?_
      rw [Finset.mem_range] at hl
      rw [s_old junk pv W w l (by omega) (by omega), hq l hl]
    rw [Finset.sum_range_succ, this, hqi, s_new_diag hA h hi, hsl, add_assoc]
    conv_lhs => rw [h.res]
    congr 1
    unfold qOf uOf
    have e1 : c.s.getD i 0 = c.s.getD i 0 * ((gOf A i c w).2.1 ^ 2 + (gOf A i c w).2.2 ^ 2) := by rw [g3, mul_one]
    conv_lhs => rw [e1]
    module
  · rw [rnrm_new hA h hi, norm_smul, Real.norm_eq_abs]
    have hsq : |(after A junk i c w pv W).s.getD (i + 1) 0| ^ 2 * ‖uOf A junk i c u w‖ ^ 2 =
        |(after A junk i c w pv W).s.getD (i + 1) 0| ^ 2 := by
      rw [← real_inner_self_eq_norm_sq, sq_abs, hsl]
      unfold uOf
      simp only [inner_add_left, inner_add_right, inner_smul_left, inner_smul_right, RCLike.conj_to_real]
      rw [h.uu, real_inner_comm u (vOf A junk c w)]
      linear_combination (c.s.getD i 0) ^ 2 * (gOf A i c w).2.1 ^ 2 * f3 + (c.s.getD i 0) ^ 2 * (gOf A i c w).2.2 ^ 2 * g3 -
        2 * (c.s.getD i 0) ^ 2 * (gOf A i c w).2.2 ^ 2 * (gOf A i c w).2.1 * f2
    have h1 : 0 ≤ |(after A junk i c w pv W).s.getD (i + 1) 0| := abs_nonneg _
    have h2 : 0 ≤ |(after A junk i c w pv W).s.getD (i + 1) 0| * ‖uOf A junk i c u w‖ := mul_nonneg h1 (norm_nonneg _)
    rw [← mul_pow] at hsq
    exact ((sq_eq_sq₀ h2 h1).1 hsq).symm

include h hA hi in
/-- A vanishing new direction makes the residual vanish. -/
theorem dir_ne_zero (w : E) (hρ : (gOf A i c w).1 ≠ 0) (hr : (after A junk i c w pv W).rnrm ≠ 0) : (mgs A c.V w).1 ≠ 0 := by
  intro h0
  obtain ⟨g1, g2, g3⟩ := gOf_spec hA h w
  rw [h0, norm_zero, mul_zero, add_zero] at g1
  rw [h0, norm_zero, mul_zero, zero_sub, neg_eq_zero] at g2
  have ha : (colOf A c w).getD i 0 ≠ 0 := by
    intro ha; rw [ha, mul_zero] at g1; exact hρ g1.symm
  have hs : (gOf A i c w).2.2 = 0 := by
    rcases mul_eq_zero.1 g2 with h | h
    · exact h
    · exact absurd h ha
  apply hr
  rw [rnrm_new hA h hi, s_new_last hA h hi, hs]
  simp

include h hA hi in
theorem after_inv (w : E) (hw : B (c.V.getD i 0) = w) (hρ : (gOf A i c w).1 ≠ 0) (h0 : (mgs A c.V w).1 ≠ 0) :
    Inv A B r0 (i + 1) (after A junk i c w pv W) (Function.update q i (qOf A junk i c u w)) (uOf A junk i c u w) := by
  have hp := after_post hA h hi junk pv W w hw hρ
  have hvu := vOf_unit hA junk w h0
  have hvo := vOf_orth hA h junk w h0
  obtain ⟨hvq, hvu'⟩ := h.perp (vOf A junk c w) (fun j hj => hvo j hj)
  obtain ⟨g1, g2, g3⟩ := gOf_spec hA h w
  have hq : ∀ j, j < i → Function.update q i (qOf A junk i c u w) j = q j := fun j hj => Function.update_of_ne (by omega) _ _
  have hqi : Function.update q i (qOf A junk i c u w) i = qOf A junk i c u w := Function.update_self _ _ _
  refine ⟨?_, ?_, ?_, ?_, hp.v0 (by omega), hp.qq, ?_, ?_, ?_, ?_, hp.bv, ?_, hp.diag, hp.res, ?_, rnrm_new hA h hi junk pv W w⟩
  · rw [after_V]; simp [h.lenV]
  · rw [after_H]; simp [h.lenH]
  · rw [after_giv]; simp [h.leng]
  · intro j hj k hk
    rcases Nat.lt_succ_iff_lt_or_eq.1 hj with hj' | hj' <;> rcases Nat.lt_succ_iff_lt_or_eq.1 hk with hk' | hk'
    · exact hp.on j hj' k hk'
    · rw [hk', getV_old h junk pv W w j (by omega), getV_new h junk pv W w, real_inner_comm, hvo j (by omega), if_neg (by omega)]
    · rw [hj', getV_old h junk pv W w k (by omega), getV_new h junk pv W w, hvo k (by omega), if_neg (by omega)]
    · rw [hj', hk', getV_new h junk pv W w, hvu, if_pos rfl]
  · intro j hj
    rcases Nat.lt_succ_iff_lt_or_eq.1 hj with hj' | hj'
    · rw [hq j hj']
      unfold uOf
      rw [inner_add_right, inner_smul_right, inner_smul_right, h.qu j hj', real_inner_comm, hvq j hj']; ring
    · rw [hj', hqi]
      unfold uOf qOf
      simp only [inner_add_left, inner_add_right, inner_smul_left, inner_smul_right, RCLike.conj_to_real]
      rw [h.uu, real_inner_comm u (vOf A junk c w), hvu, real_inner_comm, hvu']; ring
  · unfold uOf
    simp only [inner_add_left, inner_add_right, inner_smul_left, inner_smul_right, RCLike.conj_to_real]
    rw [h.uu, real_inner_comm u (vOf A junk c w), hvu, real_inner_comm, hvu']
    linear_combination g3
  · intro z hz
    have hz' : ∀ j ≤ i, inner ℝ z (c.V.getD j 0) = (0 : ℝ) := by
      intro j hj
      have := hz j (by omega)
      rwa [getV_old h junk pv W w j hj] at this
    obtain ⟨z1, z2⟩ := h.perp z hz'
    have z3 := hz (i + 1) (Nat.le_refl _)
    rw [getV_new h junk pv W w] at z3
    refine ⟨?_, ?_⟩
    · intro j hj
      rcases Nat.lt_succ_iff_lt_or_eq.1 hj with hj' | hj'
      · rw [hq j hj']; exact z1 j hj'
      · rw [hj', hqi]; unfold qOf
        rw [inner_add_right, inner_smul_right, inner_smul_right, z2, z3]; ring
    · unfold uOf
      rw [inner_add_right, inner_smul_right, inner_smul_right, z2, z3]; ring
  · intro a ha
    have hlen : i + 1 < (rotCol A c.giv a).length := by rw [rotCol_length]; exact ha
    rw [after_giv, rotCol_snoc, h.leng, Finset.sum_range_succ, getV_new h junk pv W w]
    have e1 : ∑ j ∈ Finset.range (i + 1), a.getD j 0 • (after A junk i c w pv W).V.getD j 0 =
        ∑ j ∈ Finset.range (i + 1), a.getD j 0 • c.V.getD j 0 := by
      refine Finset.sum_congr rfl fun j hj => ?_
      rw [Finset.mem_range] at hj
      rw [getV_old h junk pv W w j (by omega)]
    rw [e1, h.rep a (by omega), Finset.sum_range_succ, hqi]
    have e2 : ∑ j ∈ Finset.range i, (rotAt A (gOf A i c w).2.1 (gOf A i c w).2.2 (rotCol A c.giv a) i).getD j 0 •
        Function.update q i (qOf A junk i c u w) j = ∑ j ∈ Finset.range i, (rotCol A c.giv a).getD j 0 • q j := by
      refine Finset.sum_congr rfl fun j hj => ?_
      rw [Finset.mem_range] at hj
      rw [rotAt_other _ _ _ _ _ (by omega) (by omega), hq j hj]
    rw [e2, rotAt_fst hA _ _ _ _ hlen, rotAt_snd hA _ _ _ _ hlen, rotCol_above A c.giv a (i + 1) (by rw [h.leng]; omega), add_assoc,
      add_assoc]
    congr 1
    unfold qOf uOf
    have e3 : (rotCol A c.giv a).getD i 0 = (rotCol A c.giv a).getD i 0 * ((gOf A i c w).2.1 ^ 2 + (gOf A i c w).2.2 ^ 2) := by
      rw [g3, mul_one]
    have e4 : a.getD (i + 1) 0 = a.getD (i + 1) 0 * ((gOf A i c w).2.1 ^ 2 + (gOf A i c w).2.2 ^ 2) := by rw [g3, mul_one]
    conv_lhs => rw [e3, e4]
    module
  · intro j hj
    rcases Nat.lt_succ_iff_lt_or_eq.1 hj with hj' | hj'
    · exact hp.kry j (by omega)
    · rw [hj', getV_old h junk pv W w i (Nat.le_refl _), hw]
      exact image_mem hA h junk pv W w
  · intro l hl
    rw [s_old junk pv W w l (by omega) (by omega), h.sz l (by omega)]

end StepLemma

/-! ### Using the state: the solution of the small problem -/

section Use

variable {A : Arith ℝ E} (hA : Exact A) {B : E →ₗ[ℝ] E} {r0 : E} {n : Nat} {c : Cyc σ ℝ E} {q : Nat → E} {e : E}
  (h : Post B r0 n c q e)

include h in
/-- The image of a combination of the basis, in the turned basis. -/
theorem image_comb (y : Nat → ℝ) : B (∑ j ∈ Finset.range n, y j • c.V.getD j 0) =
    ∑ l ∈ Finset.range n, (∑ j ∈ Finset.range n, if l ≤ j then hcoef c.H l j * y j else 0) • q l := by
  have h1 : ∀ j ∈ Finset.range n, y j • B (c.V.getD j 0) =
      ∑ l ∈ Finset.range n, (if l ≤ j then hcoef c.H l j * y j else 0) • q l := by
    intro j hj
    rw [Finset.mem_range] at hj
    rw [h.bv j hj, Finset.smul_sum]
    have hsub : Finset.range (j + 1) ⊆ Finset.range n := by
      intro l hl
      rw [Finset.mem_range] at hl ⊢
      omega
    rw [← Finset.sum_subset hsub]
    · refine Finset.sum_congr rfl fun l hl => ?_
      rw [Finset.mem_range] at hl
      rw [if_pos (by omega), smul_smul, mul_comm]
    · intro l _ hl
      rw [Finset.mem_range] at hl
      rw [if_neg (by omega), zero_smul]
  rw [map_sum]
  simp only [map_smul]
  rw [Finset.sum_congr rfl h1, Finset.sum_comm]
  refine Finset.sum_congr rfl fun l _ => ?_
  rw [Finset.sum_smul]

include h hA in
/-- The combination the code computes is mapped to the reachable part of the residual. -/
theorem image_sol : r0 - B (A.comb n c.V (A.trsv n c.H c.s)) = e := by
  rw [hA.comb, image_comb h]
  have h1 : ∑ l ∈ Finset.range n, (∑ j ∈ Finset.range n,
      if l ≤ j then hcoef c.H l j * (A.trsv n c.H c.s).getD j 0 else 0) • q l = ∑ l ∈ Finset.range n, c.s.getD l 0 • q l := by
    refine Finset.sum_congr rfl fun l hl => ?_
    rw [Finset.mem_range] at hl
    have := hA.trsv n c.H c.s h.diag l hl
    simp only [hcoef]
    rw [this]
  rw [h1]
  nth_rewrite 1 [h.res]
  abel

include h in
/-- No combination of the basis does better. -/
theorem best (y : Nat → ℝ) : ‖e‖ ≤ ‖r0 - B (∑ j ∈ Finset.range n, y j • c.V.getD j 0)‖ := by
  rw [image_comb h]
  have h1 : r0 - ∑ l ∈ Finset.range n, (∑ j ∈ Finset.range n, if l ≤ j then hcoef c.H l j * y j else 0) • q l =
      (∑ l ∈ Finset.range n, (c.s.getD l 0 - ∑ j ∈ Finset.range n, if l ≤ j then hcoef c.H l j * y j else 0) • q l) + e := by
    nth_rewrite 1 [h.res]
    simp only [sub_smul, Finset.sum_sub_distrib]
    abel
  rw [h1]
  have h2 : inner ℝ (∑ l ∈ Finset.range n, (c.s.getD l 0 - ∑ j ∈ Finset.range n, if l ≤ j then hcoef c.H l j * y j else 0) • q l) e
      = (0 : ℝ) := by
    rw [sum_inner]
    refine Finset.sum_eq_zero fun l hl => ?_
    rw [Finset.mem_range] at hl
    rw [inner_smul_left, h.qe l hl, mul_zero]
  have h3 := norm_add_sq_eq_norm_sq_add_norm_sq_of_inner_eq_zero _ _ h2
  have h4 := norm_nonneg (∑ l ∈ Finset.range n, (c.s.getD l 0 - ∑ j ∈ Finset.range n, if l ≤ j then hcoef c.H l j * y j else 0) • q l)
  refine le_of_sq_le_sq ?_ (norm_nonneg _)
  nlinarith

end Use

end Blitzdg.Gmres
