import Verif.Mesh.Rounded
import Verif.Mesh.CcwProps
import Verif.Time.FloatClockProps

/-!
Orientation of the elements in floating-point arithmetic (C154).
-/

namespace Blitzdg.Mesh

open Blitzdg.Time (fl fl_eval)

/-- Rounding with relative error `u` and, for underflow, absolute error `η`. -/
def Rounds (rnd : ℝ → ℝ) (u η : ℝ) : Prop := ∀ x, |rnd x - x| ≤ u * |x| + η

/-- The computed determinant. -/
noncomputable def detR (rnd : ℝ → ℝ) (p q r s : ℝ) : ℝ := rnd (rnd (rnd p * rnd q) - rnd (rnd r * rnd s))

theorem prod_err {rnd : ℝ → ℝ} {u η L p q : ℝ} (h : Rounds rnd u η) (hu : 0 ≤ u) (hu1 : u ≤ 1 / 16) (hη : 0 ≤ η) (hη1 : η ≤ 1) (hp : |p| ≤ L) (hq : |q| ≤ L) :
    |rnd (rnd p * rnd q) - p * q| ≤ 3.3 * (u * L ^ 2) + 2.3 * (η * L) + 2.1 * η := by
  have hL : 0 ≤ L := (abs_nonneg p).trans hp
  have ep : |rnd p - p| ≤ u * L + η := (h p).trans (by have := mul_le_mul_of_nonneg_left hp hu; linarith)
  have eq : |rnd q - q| ≤ u * L + η := (h q).trans (by have := mul_le_mul_of_nonneg_left hq hu; linarith)
  have bp : |rnd p| ≤ L + (u * L + η) := by
    calc |rnd p| = |(rnd p - p) + p| := by ring_nf
      _ ≤ |rnd p - p| + |p| := abs_add_le _ _
      _ ≤ _ := by linarith
  have bq : |rnd q| ≤ L + (u * L + η) := by
    calc |rnd q| = |(rnd q - q) + q| := by ring_nf
      _ ≤ |rnd q - q| + |q| := abs_add_le _ _
      _ ≤ _ := by linarith
  have hE : 0 ≤ u * L + η := by positivity
  have pr : |rnd p * rnd q| ≤ (L + (u * L + η)) ^ 2 := by
    rw [abs_mul, sq]
    exact mul_le_mul bp bq (abs_nonneg _) (by linarith)
  have e1 : |rnd p * rnd q - p * q| ≤ (u * L + η) * (L + (u * L + η)) + L * (u * L + η) := by
    have : rnd p * rnd q - p * q = (rnd p - p) * rnd q + p * (rnd q - q) := by ring
    rw [this]
    refine (abs_add_le _ _).trans ?_
    rw [abs_mul, abs_mul]
    exact add_le_add (mul_le_mul ep bq (abs_nonneg _) hE) (mul_le_mul hp eq (abs_nonneg _) hL)
  have e2 : |rnd (rnd p * rnd q) - rnd p * rnd q| ≤ u * (L + (u * L + η)) ^ 2 + η := (h _).trans (by have := mul_le_mul_of_nonneg_left pr hu; linarith)
  have tri : |rnd (rnd p * rnd q) - p * q| ≤ (u * (L + (u * L + η)) ^ 2 + η) + ((u * L + η) * (L + (u * L + η)) + L * (u * L + η)) := by
    have : rnd (rnd p * rnd q) - p * q = (rnd (rnd p * rnd q) - rnd p * rnd q) + (rnd p * rnd q - p * q) := by ring
    rw [this]
    exact (abs_add_le _ _).trans (add_le_add e2 e1)
  refine tri.trans ?_
  -- the bound, term by term
  have k1 : 0 ≤ u * L ^ 2 := by positivity
  have k2 : 0 ≤ η * L := by positivity
  have t1 : u ^ 2 * L ^ 2 ≤ 1 / 16 * (u * L ^ 2) := by
    have := mul_le_mul_of_nonneg_right hu1 k1
    nlinarith
  have t2 : u ^ 3 * L ^ 2 ≤ 1 / 256 * (u * L ^ 2) := by
    have : u ^ 3 * L ^ 2 = u * (u ^ 2 * L ^ 2) := by ring
    rw [this]
    have h1 := mul_le_mul_of_nonneg_right hu1 (show 0 ≤ u ^ 2 * L ^ 2 by positivity)
    linarith
  have t3 : u * (η * L) ≤ 1 / 16 * (η * L) := mul_le_mul_of_nonneg_right hu1 k2
  have t4 : u ^ 2 * (η * L) ≤ 1 / 256 * (η * L) := by
    have : u ^ 2 * (η * L) = u * (u * (η * L)) := by ring
    rw [this]
    have h1 := mul_le_mul_of_nonneg_right hu1 (show 0 ≤ u * (η * L) by positivity)
    linarith
  have t5 : η ^ 2 ≤ η := by nlinarith
  have t6 : u * η ^ 2 ≤ 1 / 16 * η := by
    have h1 := mul_le_mul_of_nonneg_left t5 hu
    have h2 := mul_le_mul_of_nonneg_right hu1 hη
    linarith
  have id : (u * (L + (u * L + η)) ^ 2 + η) + ((u * L + η) * (L + (u * L + η)) + L * (u * L + η))
      = 3 * (u * L ^ 2) + 3 * (u ^ 2 * L ^ 2) + u ^ 3 * L ^ 2 + (4 * (u * (η * L)) + 2 * (u ^ 2 * (η * L)) + 2 * (η * L)) + (u * η ^ 2 + η ^ 2 + η) := by ring
  rw [id]
  norm_num
  linarith

/-- The sign of the computed determinant is that of the exact one if this is large enough. -/
theorem detR_sign {rnd : ℝ → ℝ} {u η L p q r s : ℝ} (h : Rounds rnd u η) (hu : 0 ≤ u) (hu1 : u ≤ 1 / 16) (hη : 0 ≤ η) (hη1 : η ≤ 1) (hp : |p| ≤ L) (hq : |q| ≤ L) (hr : |r| ≤ L) (hs : |s| ≤ L)
    (hd : 8 * (u * L ^ 2 + η * L + η) < |p * q - r * s|) : detR rnd p q r s < 0 ↔ p * q - r * s < 0 := by
  have e1 := prod_err h hu hu1 hη hη1 hp hq
  have e2 := prod_err h hu hu1 hη hη1 hr hs
  have hL : 0 ≤ L := (abs_nonneg p).trans hp
  have k1 : 0 ≤ u * L ^ 2 := by positivity
  have k2 : 0 ≤ η * L := by positivity
  unfold detR
  set a := rnd (rnd p * rnd q)
  set b := rnd (rnd r * rnd s)
  have e3 := h (a - b)
  rw [abs_le] at e1 e2 e3
  norm_num at e1 e2
  obtain ⟨e1a, e1b⟩ := e1
  obtain ⟨e2a, e2b⟩ := e2
  obtain ⟨e3a, e3b⟩ := e3
  constructor
  · intro hn
    by_contra hc
    rw [abs_of_nonneg (not_lt.1 hc)] at hd
    have hpos : 0 < a - b := by linarith
    rw [abs_of_pos hpos] at e3a
    have := mul_le_mul_of_nonneg_right hu1 hpos.le
    linarith
  · intro hn
    rw [abs_of_neg hn] at hd
    have hneg : a - b < 0 := by linarith
    rw [abs_of_neg hneg] at e3b
    have := mul_le_mul_of_nonneg_right hu1 (neg_pos.2 hneg).le
    linarith

theorem rd_map {α β : Type} (f : α → β) (l : List α) (i : ℕ) {x : α} (h : rd l i = .ok x) : rd (l.map f) i = .ok (f x) := by
  unfold rd at h ⊢
  rw [List.getElem?_map]
  cases hi : l[i]? with
  | none => rw [hi] at h; exact nomatch h
  | some y => rw [hi] at h; cases h; rfl

theorem coord_map {rnd : ℝ → ℝ} {vert : List ℝ} {dim : ℕ} {e2v : List Int} {i d : ℕ} {x : ℝ} (h : coord vert dim e2v i d = .ok x) : coord (vert.map (Rd.mk (rnd := rnd))) dim e2v i d = .ok ⟨x⟩ := by
  unfold coord at h ⊢
  cases hv : (rd e2v i >>= toIx) with
  | ok v =>
    rw [hv] at h
    exact rd_map _ _ _ h
  | ub => rw [hv] at h; exact nomatch h
  | throws => rw [hv] at h; exact nomatch h

/-- The element is not nearly degenerate: with `L` the largest difference of coordinates of its first three vertices, its area is more than the rounding errors. -/
def Clear (u η : ℝ) (vert : List ℝ) (dim : ℕ) (a b c : Int) : Prop :=
  ∃ L, (∀ d < 2, |crd vert dim a d - crd vert dim b d| ≤ L ∧ |crd vert dim b d - crd vert dim c d| ≤ L ∧ |crd vert dim a d - crd vert dim c d| ≤ L) ∧
    8 * (u * L ^ 2 + η * L + η) < |area2 vert dim a b c|

theorem Clear.swap {u η : ℝ} {vert : List ℝ} {dim : ℕ} {a b c : Int} (h : Clear u η vert dim a b c) : Clear u η vert dim a c b := by
  obtain ⟨L, h1, h2⟩ := h
  refine ⟨L, fun d hd => ⟨(h1 d hd).2.2, by rw [abs_sub_comm]; exact (h1 d hd).2.1, (h1 d hd).1⟩, ?_⟩
  rw [area2_swap, abs_neg]
  exact h2

theorem ccwStep_rounded {rnd : ℝ → ℝ} {u η : ℝ} (hr : Rounds rnd u η) (hu : 0 ≤ u) (hu1 : u ≤ 1 / 16) (hη : 0 ≤ η) (hη1 : η ≤ 1) {nv dim nf k : ℕ} {vert : List ℝ} {e2v : List Int} (hnf : 3 ≤ nf) (hd : 2 ≤ dim)
    (hvert : vert.length = dim * nv) (hlen : e2v.length = nf * k) (hv : ∀ v ∈ e2v, 0 ≤ v ∧ v < (nv : Int)) {e : ℕ} (he : e < k)
    (hc : Clear u η vert dim (vtx nf e2v e 0) (vtx nf e2v e 1) (vtx nf e2v e 2)) :
    ccwStep (vert.map (Rd.mk (rnd := rnd))) dim nf e2v e = ccwStep vert dim nf e2v e := by
  have hle : nf * e + nf ≤ nf * k := by rw [← Nat.mul_succ]; exact Nat.mul_le_mul_left _ he
  have h0 : nf * e < e2v.length := by omega
  have h1 : nf * e + 1 < e2v.length := by omega
  have h2 : nf * e + 2 < e2v.length := by omega
  have c := fun (i d : ℕ) (hi : i < e2v.length) (hdd : d < 2) => coord_ok hd hvert hv hi hdd
  have cr := fun (i d : ℕ) (hi : i < e2v.length) (hdd : d < 2) => coord_map (rnd := rnd) (c i d hi hdd)
  unfold ccwStep
  rw [c _ 0 h0 (by omega), c _ 1 h0 (by omega), c _ 0 h1 (by omega), c _ 1 h1 (by omega), c _ 0 h2 (by omega), c _ 1 h2 (by omega),
    cr _ 0 h0 (by omega), cr _ 1 h0 (by omega), cr _ 0 h1 (by omega), cr _ 1 h1 (by omega), cr _ 0 h2 (by omega), cr _ 1 h2 (by omega)]
  simp only [Out.bind_ok]
  obtain ⟨L, hL, ha⟩ := hc
  unfold vtx at hL ha
  simp only [Nat.mul_comm e nf, Nat.add_zero] at hL ha
  unfold area2 at ha
  generalize hax : crd vert dim (e2v.getD (nf * e) 0) 0 = ax at *
  generalize hay : crd vert dim (e2v.getD (nf * e) 0) 1 = ay at *
  generalize hbx : crd vert dim (e2v.getD (nf * e + 1) 0) 0 = bx at *
  generalize hby : crd vert dim (e2v.getD (nf * e + 1) 0) 1 = b_y at *
  generalize hcx : crd vert dim (e2v.getD (nf * e + 2) 0) 0 = cx at *
  generalize hcy : crd vert dim (e2v.getD (nf * e + 2) 0) 1 = cy at *
  have l0 := hL 0 (by norm_num)
  have l1 := hL 1 (by norm_num)
  rw [hax, hbx, hcx] at l0
  rw [hay, hby, hcy] at l1
  have ha' : 8 * (u * L ^ 2 + η * L + η) < |(ax - cx) * (b_y - cy) - (bx - cx) * (ay - cy)| := by
    refine lt_of_lt_of_le ha (le_of_eq ?_)
    congr 1
    ring
  have key := detR_sign hr hu hu1 hη hη1 l0.2.2 l1.2.1 l0.2.1 l1.2.2 ha'
  have e' : ((⟨ax⟩ - ⟨cx⟩ : Rd rnd) * (⟨b_y⟩ - ⟨cy⟩) - (⟨bx⟩ - ⟨cx⟩) * (⟨ay⟩ - ⟨cy⟩) < 0) ↔ ((ax - cx) * (b_y - cy) - (bx - cx) * (ay - cy) < 0) := key
  by_cases hb : (ax - cx) * (b_y - cy) - (bx - cx) * (ay - cy) < 0
  · rw [if_pos hb, if_pos (e'.2 hb)]
  · rw [if_neg hb, if_neg (mt e'.1 hb)]

/-- **C154, same table.** In rounding arithmetic with unit roundoff `u` (and absolute error `η` for underflow), orientation gives the same element table as in exact arithmetic, for triangles and quadrilaterals, if no
element is nearly degenerate. -/
theorem C154_same {rnd : ℝ → ℝ} {u η : ℝ} (hr : Rounds rnd u η) (hu : 0 ≤ u) (hu1 : u ≤ 1 / 16) (hη : 0 ≤ η) (hη1 : η ≤ 1) {nv dim nf k : ℕ} {vert : List ℝ} {e2v : List Int} (hnf : 3 ≤ nf) (hd : 2 ≤ dim)
    (hvert : vert.length = dim * nv) (hlen : e2v.length = nf * k) (hv : ∀ v ∈ e2v, 0 ≤ v ∧ v < (nv : Int))
    (hc : ∀ e < k, Clear u η vert dim (vtx nf e2v e 0) (vtx nf e2v e 1) (vtx nf e2v e 2)) : ccwR rnd vert dim nf k e2v = ccw vert dim nf k e2v := by
  have key : ∀ n ≤ k, loopM (ccwStep (vert.map (Rd.mk (rnd := rnd))) dim nf) e2v (List.range n) = loopM (ccwStep vert dim nf) e2v (List.range n) := by
    intro n
    induction n with
    | zero => exact fun _ => rfl
    | succ n ih =>
      intro hn
      obtain ⟨e', h1, h2, h3, h4, -⟩ := ccw_loop hnf hd hvert hlen hv n (by omega)
      rw [List.range_succ, loopM_append, loopM_append, ih (by omega), h1, Out.bind_ok, Out.bind_ok, loopM_cons, loopM_cons]
      rw [ccwStep_rounded hr hu hu1 hη hη1 hnf hd hvert h2 (fun v h => hv v (h3 v h)) (by omega : n < k)]
      · rfl
      · rw [h4 n (le_refl _) 0 (by omega), h4 n (le_refl _) 1 (by omega), h4 n (le_refl _) 2 (by omega)]
        exact hc n (by omega)
  exact key k (le_refl _)

/-- **C154, triangles.** In rounding arithmetic, after orientation every triangle that is not nearly degenerate has positive area and its vertices in the order of the input or with the last two exchanged, if all are so. -/
theorem C154_triangles_partial {rnd : ℝ → ℝ} {u η : ℝ} (hr : Rounds rnd u η) (hu : 0 ≤ u) (hu1 : u ≤ 1 / 16) (hη : 0 ≤ η) (hη1 : η ≤ 1) {nv dim k : ℕ} {vert : List ℝ} {e2v : List Int} (hd : 2 ≤ dim)
    (hvert : vert.length = dim * nv) (hlen : e2v.length = 3 * k) (hv : ∀ v ∈ e2v, 0 ≤ v ∧ v < (nv : Int))
    (hc : ∀ e < k, Clear u η vert dim (vtx 3 e2v e 0) (vtx 3 e2v e 1) (vtx 3 e2v e 2)) :
    ∃ e', ccwR rnd vert dim 3 k e2v = .ok e' ∧ e'.length = e2v.length ∧ ∀ e < k,
      ((vtx 3 e' e 0 = vtx 3 e2v e 0 ∧ vtx 3 e' e 1 = vtx 3 e2v e 1 ∧ vtx 3 e' e 2 = vtx 3 e2v e 2) ∨
       (vtx 3 e' e 0 = vtx 3 e2v e 0 ∧ vtx 3 e' e 1 = vtx 3 e2v e 2 ∧ vtx 3 e' e 2 = vtx 3 e2v e 1)) ∧
      0 < area2 vert dim (vtx 3 e' e 0) (vtx 3 e' e 1) (vtx 3 e' e 2) := by
  obtain ⟨e', h1, h2, -, h4⟩ := C23_triangles nv dim k vert e2v hd hvert hlen hv
  refine ⟨e', by rw [C154_same hr hu hu1 hη hη1 (by norm_num) hd hvert hlen hv hc, h1], h2, fun e he => ?_⟩
  obtain ⟨a, b, -, -⟩ := h4 e he
  refine ⟨a, lt_of_le_of_ne b fun hz => ?_⟩
  obtain ⟨L, hL, hm⟩ := hc e he
  have hL0 : 0 ≤ L := (abs_nonneg _).trans (hL 0 (by norm_num)).1
  have : area2 vert dim (vtx 3 e2v e 0) (vtx 3 e2v e 1) (vtx 3 e2v e 2) = 0 := by
    rcases a with ⟨a0, a1, a2⟩ | ⟨a0, a1, a2⟩
    · rw [← a0, ← a1, ← a2, ← hz]
    · have := area2_swap vert dim (vtx 3 e2v e 0) (vtx 3 e2v e 1) (vtx 3 e2v e 2)
      rw [← a0, ← a1, ← a2, ← hz] at this
      rw [← a0, ← a1, ← a2]
      linarith
  rw [this, abs_zero] at hm
  have : 0 ≤ 8 * (u * L ^ 2 + η * L + η) := by positivity
  linarith

/-- Rounding to 53 bits, with exponents unbounded, is such a rounding. -/
theorem rounds_double : Rounds (fl 53) (2 ^ (-53 : ℤ)) 0 := fun x => by
  have := Time.C128_rounding 53 x
  push_cast at this
  linarith

/-- Two triangles, one listed clockwise, in doubles: the hypotheses of `C154_triangles_partial` hold. -/
example : ∀ e < 2, Clear (2 ^ (-53 : ℤ)) 0 [0, 0, 1, 0, 1, 1, 0, 1] 2 (vtx 3 [0, 1, 2, 0, 3, 2] e 0) (vtx 3 [0, 1, 2, 0, 3, 2] e 1) (vtx 3 [0, 1, 2, 0, 3, 2] e 2) := by
  intro e he
  refine ⟨1, fun d hd => ?_, ?_⟩
  · interval_cases e <;> interval_cases d <;> norm_num [vtx, crd, (show Int.toNat 2 = 2 from rfl), (show Int.toNat 3 = 3 from rfl)]
  · interval_cases e <;> norm_num [vtx, crd, area2, (show Int.toNat 2 = 2 from rfl), (show Int.toNat 3 = 3 from rfl)]

/-! ### A nearly degenerate triangle -/

theorem fl_a : fl 53 (1 + 1 / 2 ^ 30 : ℝ) = 1 + 1 / 2 ^ 30 := by
  rw [fl_eval 53 0 (2 ^ 52 + 2 ^ 22) (by norm_num) (by norm_num) (by norm_num) (by norm_num) (by norm_num)]
  norm_num

theorem fl_b : fl 53 (1 - 1 / 2 ^ 30 : ℝ) = 1 - 1 / 2 ^ 30 := by
  rw [fl_eval 53 (-1) (2 ^ 53 - 2 ^ 23) (by norm_num) (by norm_num) (by norm_num) (by norm_num) (by norm_num)]
  norm_num

theorem fl_one : fl 53 (1 : ℝ) = 1 := by
  rw [fl_eval 53 0 (2 ^ 52) (by norm_num) (by norm_num) (by norm_num) (by norm_num) (by norm_num)]
  norm_num

theorem fl_ab : fl 53 ((1 + 1 / 2 ^ 30) * (1 - 1 / 2 ^ 30) : ℝ) = 1 := by
  rw [fl_eval 53 (-1) (2 ^ 53) (by norm_num) (by norm_num) (by norm_num) (by norm_num) (by norm_num)]
  norm_num

theorem fl_zero : fl 53 (0 : ℝ) = 0 := by simp [fl]

/-- **C154, refutation.** The vertices (1 + 2⁻³⁰, 1), (1, 1 - 2⁻³⁰) and (0, 0), all doubles, in this order are clockwise.  The determinant computed in doubles is 0, and the element is stored as it is: its area is negative. -/
theorem C154_clockwise : ∃ vert : List ℝ, (∀ x ∈ vert, fl 53 x = x) ∧ ccwR (fl 53) vert 2 3 1 [0, 1, 2] = .ok [0, 1, 2] ∧ area2 vert 2 0 1 2 < 0 := by
  refine ⟨[1 + 1 / 2 ^ 30, 1, 1, 1 - 1 / 2 ^ 30, 0, 0], ?_, ?_, ?_⟩
  · intro x hx
    simp only [List.mem_cons, List.not_mem_nil, or_false] at hx
    rcases hx with rfl | rfl | rfl | rfl | rfl | rfl
    exacts [fl_a, fl_one, fl_one, fl_b, fl_zero, fl_zero]
  · have hdet : ¬ detR (fl 53) (1 + 1 / 2 ^ 30 - 0) (1 - 1 / 2 ^ 30 - 0) (1 - 0) (1 - 0) < 0 := by
      unfold detR
      simp only [sub_zero]
      rw [fl_a, fl_b, fl_one, fl_ab, mul_one, fl_one, sub_self, fl_zero]
      exact lt_irrefl _
    have hif : ¬ (((⟨1 + 1 / 2 ^ 30⟩ : Rd (fl 53)) - ⟨0⟩) * (⟨1 - 1 / 2 ^ 30⟩ - ⟨0⟩) - (⟨1⟩ - ⟨0⟩) * (⟨1⟩ - ⟨0⟩) < 0) := hdet
    have e : ccwR (fl 53) [1 + 1 / 2 ^ 30, 1, 1, 1 - 1 / 2 ^ 30, 0, 0] 2 3 1 [0, 1, 2]
        = Out.bind (if ((⟨1 + 1 / 2 ^ 30⟩ : Rd (fl 53)) - ⟨0⟩) * (⟨1 - 1 / 2 ^ 30⟩ - ⟨0⟩) - (⟨1⟩ - ⟨0⟩) * (⟨1⟩ - ⟨0⟩) < 0 then .ok [0, 2, 1] else .ok [0, 1, 2]) Out.ok := rfl
    rw [e, if_neg hif]
    rfl
  · norm_num [area2, crd, (show Int.toNat 2 = 2 from rfl)]

end Blitzdg.Mesh
