import Verif.Poisson.Cub
import Verif.Poisson.Props
import Verif.Ctx.CubatureProps
import Verif.Ctx.GaussProps

/-! C103: the Poisson operator built from a Gauss face context and a cubature context. -/

namespace Blitzdg.Sparse

variable {α : Type}

/-- A compressed matrix stands for one matrix only. -/
theorem Represents.unique [AddMonoid α] {c : Csc α} {A B : Nat → Nat → α} (hA : Represents c A) (hB : Represents c B) (i j : Nat) (hj : j < c.n) : A i j = B i j := by
  obtain ⟨a, wa, ha⟩ := hA
  obtain ⟨b, wb, hb⟩ := hB
  have e : a = b := Option.some.inj (wa.readCols.symm.trans wb.readCols)
  subst e
  have h : j < a.length := by rw [wa.ncols]; exact hj
  rw [← ha i j h, ← hb i j h]

end Blitzdg.Sparse

namespace Blitzdg.Poisson

open MvPolynomial
open Matrix
open Blitzdg.Sparse (DMat Csc Triplet Represents)
open Blitzdg.Nodes1D (Lapack exactLapack)
open Blitzdg.DG2D
open Blitzdg.SW (Grid Mesh GridSpec Provisioned gridX gridY faceEnds lerp)
open Blitzdg.Ctx (GaussFace Cubature GaussSpec CubatureSpec diagOf atNode atGauss atPoint along)

/-! ### Assembly -/

section Assembly

variable {c : Ctx} {x y : ℕ → ℕ → ℝ} {eps : ℝ} {gc : GaussFace} {cc : Cubature} {F : ℕ → ℕ → GFace} {tag : ℕ → ℕ → Int}

/-- What a face contributes, according to its tag. -/
noncomputable def gfaceForm (np NG : ℕ) (tag : Int) (F : GFace) (v u u2 : ℕ → ℝ) : ℝ :=
  if tag = 6 then bil np (F.dirichlet NG) v u
  else if tag = 7 ∨ tag = 3 then 0
  else bil np (F.own NG) v u + bil np (F.cross np NG) v u2

/-- Every face can be set up, or the set-up throws. -/
structure Able (c : Ctx) (x y : ℕ → ℕ → ℝ) (eps : ℝ) (gc : GaussFace) (F : ℕ → ℕ → GFace) (tag : ℕ → ℕ → Int) : Prop where
  face : ∀ k < c.K, ∀ f < c.nf, c.gface x y eps gc k f = .throws ∨ c.gface x y eps gc k f = .ok (F k f)
  k2 : ∀ k < c.K, ∀ f < c.nf, (F k f).k2 < c.K
  tag : ∀ k < c.K, ∀ f < c.nf, rd c.bc (c.nf * k + f) = .ok (tag k f)

theorem Able.faces (h : Able c x y eps gc F tag) (k : ℕ) (hk : k < c.K) {n cap used : ℕ} {φ : (ℕ → ℝ) → (ℕ → ℝ) → ℝ} (S : ℕ → ℕ → ℝ) (t : Triplet ℝ) (ht : Asm t n cap used φ) (hn : c.Np * c.K ≤ n)
    (m : ℕ) (hm : m ≤ c.nf) (hc : used + m * (c.Np * c.Np) ≤ cap) :
    (loopM (c.gfaceStep x y eps gc k) (S, t) (List.range m) = .throws ∧ ∃ f < m, c.gface x y eps gc k f = .throws) ∨
    (∀ f < m, c.gface x y eps gc k f = .ok (F k f)) ∧
    ∃ A t' used' φ', loopM (c.gfaceStep x y eps gc k) (S, t) (List.range m) = .ok (A, t') ∧ used' ≤ used + m * (c.Np * c.Np) ∧ Asm t' n cap used' φ' ∧
      ∀ v u, φ' v u + bil c.Np A (loc c.Np v k) (loc c.Np u k) = φ v u + bil c.Np S (loc c.Np v k) (loc c.Np u k) +
        ∑ f ∈ Finset.range m, gfaceForm c.Np gc.n (tag k f) (F k f) (loc c.Np v k) (loc c.Np u k) (loc c.Np u (F k f).k2) := by
  induction m with
  | zero => exact Or.inr ⟨fun f hf => absurd hf (by omega), _, t, used, φ, rfl, by omega, ht, fun v u => by simp⟩
  | succ m ih =>
    rw [Nat.succ_mul] at hc
    rcases ih (by omega) (by omega) with ⟨e, f, hf, g⟩ | ⟨hall, A, t1, used1, φ1, e1, hu1, h1, g1⟩
    · refine Or.inl ⟨?_, f, by omega, g⟩
      rw [List.range_succ, loopM_append, e]; rfl
    have hT := h.tag k hk m (by omega)
    rcases h.face k hk m (by omega) with hF | hF
    · refine Or.inl ⟨?_, m, by omega, hF⟩
      rw [List.range_succ, loopM_append, e1, Out.bind_ok]
      simp only [loopM, Ctx.gfaceStep, hF]; rfl
    refine Or.inr ⟨fun f hf => ?_, ?_⟩
    · rcases Nat.lt_succ_iff_lt_or_eq.1 hf with hf | rfl
      · exact hall f hf
      · exact hF
    have step : ∀ r, c.gfaceStep x y eps gc k (A, t1) m = .ok r → loopM (c.gfaceStep x y eps gc k) (S, t) (List.range (m + 1)) = .ok r := by
      intro r hr
      rw [List.range_succ, loopM_append, e1, Out.bind_ok]
      simp only [loopM, hr, Out.bind_ok]
    by_cases h6 : tag k m = 6
    · refine ⟨fun i j => A i j + (F k m).dirichlet gc.n i j, t1, used1, φ1, step _ ?_, by rw [Nat.succ_mul]; omega, h1, ?_⟩
      · unfold Ctx.gfaceStep; simp only [hF, hT, Out.bind_ok, h6, if_true]; rfl
      · intro v u
        rw [bil_add, Finset.sum_range_succ, gfaceForm, if_pos h6]; linear_combination g1 v u
    · by_cases h7 : tag k m = 7 ∨ tag k m = 3
      · refine ⟨A, t1, used1, φ1, step _ ?_, by rw [Nat.succ_mul]; omega, h1, ?_⟩
        · unfold Ctx.gfaceStep; simp only [hF, hT, Out.bind_ok, if_neg h6, if_pos h7]; rfl
        · intro v u
          rw [Finset.sum_range_succ, gfaceForm, if_neg h6, if_pos h7]; linear_combination g1 v u
      · obtain ⟨t2, e2, h2⟩ := h1.block hk (h.k2 k hk m (by omega)) hn ((F k m).cross c.Np gc.n) (by omega)
        refine ⟨fun i j => A i j + (F k m).own gc.n i j, t2, _, _, step _ ?_, by rw [Nat.succ_mul]; omega, h2, ?_⟩
        · unfold Ctx.gfaceStep; simp only [hF, hT, Out.bind_ok, if_neg h6, if_neg h7, e2]; rfl
        · intro v u
          rw [bil_add, Finset.sum_range_succ, gfaceForm, if_neg h6, if_neg h7]; linear_combination g1 v u

/-- What an element contributes. -/
noncomputable def gelemForm (c : Ctx) (x y : ℕ → ℕ → ℝ) (gc : GaussFace) (cc : Cubature) (F : ℕ → ℕ → GFace) (tag : ℕ → ℕ → Int) (k : ℕ) (v u : ℕ → ℝ) : ℝ :=
  bil c.Np (c.cubStiff x y cc k) (loc c.Np v k) (loc c.Np u k) +
    ∑ f ∈ Finset.range c.nf, gfaceForm c.Np gc.n (tag k f) (F k f) (loc c.Np v k) (loc c.Np u k) (loc c.Np u (F k f).k2)

theorem Able.elems (h : Able c x y eps gc F tag) {n n' cap cap' : ℕ} (hn : c.Np * c.K ≤ n) (hn' : c.Np * c.K ≤ n') (t s : Triplet ℝ) (ht : Asm t n cap 0 fun _ _ => 0)
    (hs : Asm s n' cap' 0 fun _ _ => 0) (m : ℕ) (hm : m ≤ c.K) (hc : m * ((c.nf + 1) * (c.Np * c.Np)) ≤ cap) (hc' : m * (c.Np * c.Np) ≤ cap') :
    (loopM (c.cubElemStep x y eps gc cc) (t, s) (List.range m) = .throws ∧ ∃ k < m, ∃ f < c.nf, c.gface x y eps gc k f = .throws) ∨
    (∀ k < m, ∀ f < c.nf, c.gface x y eps gc k f = .ok (F k f)) ∧
    ∃ t' used, loopM (c.cubElemStep x y eps gc cc) (t, s) (List.range m) = .ok t' ∧ used ≤ m * ((c.nf + 1) * (c.Np * c.Np)) ∧
      (Asm t'.1 n cap used fun v u => ∑ k ∈ Finset.range m, gelemForm c x y gc cc F tag k v u) ∧
      Asm t'.2 n' cap' (m * (c.Np * c.Np)) fun v u => ∑ k ∈ Finset.range m, bil c.Np (cc.MM k).at' (loc c.Np v k) (loc c.Np u k) := by
  induction m with
  | zero => exact Or.inr ⟨fun k hk => absurd hk (by omega), (t, s), 0, rfl, by omega, ht.congr rfl fun v u => by simp, hs.congr (by omega) fun v u => by simp⟩
  | succ m ih =>
    rw [Nat.succ_mul] at hc hc'
    rcases ih (by omega) (by omega) (by omega) with ⟨e, k, hk, g⟩ | ⟨hall, t1, used, e1, hu, g1, g2⟩
    · refine Or.inl ⟨?_, k, by omega, g⟩
      rw [List.range_succ, loopM_append, e]; rfl
    have e0 : (c.nf + 1) * (c.Np * c.Np) = c.nf * (c.Np * c.Np) + c.Np * c.Np := Nat.succ_mul _ _
    rcases h.faces m (by omega) (c.cubStiff x y cc m) t1.1 g1 hn c.nf le_rfl (by omega) with ⟨e2, f, hf, g⟩ | ⟨hall2, A, t2, used2, φ2, e2, hu2, g3, g4⟩
    · refine Or.inl ⟨?_, m, by omega, f, hf, g⟩
      rw [List.range_succ, loopM_append, e1, Out.bind_ok]
      simp only [loopM, Ctx.cubElemStep, e2]; rfl
    obtain ⟨t3, e3, g5, g6⟩ := insertBoth_ok g3 g2 (K := c.K) (by omega : m < c.K) hn hn' A (cc.MM m).at' (by omega) (by omega)
    refine Or.inr ⟨fun k hk => ?_, t3, _, ?_, ?_, g5.congr rfl fun v u => ?_, g6.congr (by rw [Nat.succ_mul]) fun v u => ?_⟩
    · rcases Nat.lt_succ_iff_lt_or_eq.1 hk with hk | rfl
      · exact hall k hk
      · exact hall2
    · rw [List.range_succ, loopM_append, e1, Out.bind_ok]
      simp only [loopM, Ctx.cubElemStep, e2, Out.bind_ok, e3]
    · rw [Nat.succ_mul]; omega
    · rw [g4, Finset.sum_range_succ, gelemForm]; ring
    · rw [Finset.sum_range_succ]

/-- Assembly throws exactly if the set-up of some face does; otherwise it ends normally. -/
theorem Able.build (h : Able c x y eps gc F tag) (hi : (1 + c.nf) * c.Np * c.Np * c.K ≤ intMax) (hi' : c.Np * c.K ≤ intMax) :
    (c.cubBuild x y eps gc cc = .throws ∧ ∃ k < c.K, ∃ f < c.nf, c.gface x y eps gc k f = .throws) ∨
    (∀ k < c.K, ∀ f < c.nf, c.gface x y eps gc k f = .ok (F k f)) ∧
    ∃ op mm A M, c.cubBuild x y eps gc cc = .ok (op, mm) ∧ op.m = c.Np * c.K ∧ op.n = c.Np * c.K ∧ mm.m = c.Np * c.K ∧ mm.n = c.Np * c.K ∧ Represents op A ∧ Represents mm M ∧
      (∀ v u, bil (c.Np * c.K) A v u = ∑ k ∈ Finset.range c.K, gelemForm c x y gc cc F tag k v u) ∧
      ∀ v u, bil (c.Np * c.K) M v u = ∑ k ∈ Finset.range c.K, bil c.Np (cc.MM k).at' (loc c.Np v k) (loc c.Np u k) := by
  have p1 : (1 + c.nf) * c.Np * c.Np * c.K = c.K * ((c.nf + 1) * (c.Np * c.Np)) := by ring
  have p2 : c.Np * c.Np * c.K = c.K * (c.Np * c.Np) := by ring
  have p3 : c.Np * c.Np * c.K ≤ (1 + c.nf) * c.Np * c.Np * c.K := by
    rw [p1, p2]; exact Nat.mul_le_mul_left _ (Nat.le_mul_of_pos_left _ (by omega))
  have hz : c.Np * c.K = 0 → c.Np * c.Np * c.K = 0 ∧ (1 + c.nf) * c.Np * c.Np * c.K = 0 := by
    intro h0
    rcases Nat.mul_eq_zero.1 h0 with h0 | h0 <;> simp [h0]
  have a1 := show allocTriplet (c.Np * c.K) (c.Np * c.Np * c.K) = .ok _ from if_pos ⟨by omega, by omega⟩
  have a2 := show allocTriplet (c.Np * c.K) ((1 + c.nf) * c.Np * c.Np * c.K) = .ok _ from if_pos ⟨by omega, by omega⟩
  rcases h.elems (cc := cc) (n := c.Np * c.K) (n' := c.Np * c.K) le_rfl le_rfl _ _ (asm_mk0 _ ((1 + c.nf) * c.Np * c.Np * c.K) fun h0 => (hz h0).2)
    (asm_mk0 _ (c.Np * c.Np * c.K) fun h0 => (hz h0).1) c.K le_rfl (by omega) (by omega) with ⟨e1, g⟩ | ⟨hall, t1, used, e1, hu, g1, g2⟩
  · refine Or.inl ⟨?_, g⟩
    unfold Ctx.cubBuild
    simp only [a1, a2, Out.bind_ok, e1]; rfl
  · obtain ⟨op, A, e2, d1, d2, r1, f1⟩ := g1.csc
    obtain ⟨mm, M, e3, d3, d4, r2, f2⟩ := g2.csc
    refine Or.inr ⟨hall, op, mm, A, M, ?_, d1, d2, d3, d4, r1, r2, f1, f2⟩
    unfold Ctx.cubBuild
    simp only [a1, a2, Out.bind_ok, e1, e2, e3]
    rfl

end Assembly

/-! ### Sums -/

/-- Nodal values one. -/
def one : ℕ → ℝ := fun _ => 1

theorem loc_one (np k : ℕ) : loc np one k = one := rfl

theorem bil_one (n : ℕ) (A : ℕ → ℕ → ℝ) : bil n A one one = ∑ i ∈ Finset.range n, ∑ j ∈ Finset.range n, A i j := by
  unfold bil one; simp

theorem msum_apply (n m : ℕ) (V D : ℕ → ℕ → ℝ) (u : ℕ → ℝ) (i : ℕ) :
    ∑ j ∈ Finset.range m, msum n V D i j * u j = ∑ l ∈ Finset.range n, V i l * ∑ j ∈ Finset.range m, D l j * u j := by
  unfold msum
  simp only [Finset.sum_mul, Finset.mul_sum]
  rw [Finset.sum_comm]
  exact Finset.sum_congr rfl fun l _ => Finset.sum_congr rfl fun j _ => by ring

theorem bil_tsum (np n : ℕ) (A B : ℕ → ℕ → ℝ) (v u : ℕ → ℝ) :
    bil np (tsum n A B) v u = ∑ k ∈ Finset.range n, (∑ i ∈ Finset.range np, A k i * v i) * ∑ j ∈ Finset.range np, B k j * u j := by
  unfold bil tsum
  have e : ∀ i j, v i * ((∑ k ∈ Finset.range n, A k i * B k j) * u j) = ∑ k ∈ Finset.range n, (A k i * v i) * (B k j * u j) := by
    intro i j
    rw [Finset.sum_mul, Finset.mul_sum]
    exact Finset.sum_congr rfl fun k _ => by ring
  simp only [e, Finset.sum_mul_sum]
  rw [Finset.sum_comm]
  rw [Finset.sum_congr rfl fun i _ => Finset.sum_comm, Finset.sum_comm]
  exact Finset.sum_congr rfl fun k _ => Finset.sum_comm

theorem bil_neg (n : ℕ) (A : ℕ → ℕ → ℝ) (v u : ℕ → ℝ) : bil n (fun i j => -A i j) v u = -bil n A v u := by
  have := bil_smul n (-1) A v u
  simpa using this

/-- Every row of the array after the assignment is one of the rows before. -/
theorem reverse_row (n : ℕ) (a : ℕ → ℕ → ℝ) (i : ℕ) (hi : i < n) : ∃ i' < n, ∀ j, reverseInPlace n a i j = a i' j := by
  unfold reverseInPlace
  have : ∀ (l : List ℕ) (b : ℕ → ℕ → ℝ), (∀ i ∈ l, i < n) → (∀ i < n, ∃ i' < n, ∀ j, b i j = a i' j) →
      ∀ i < n, ∃ i' < n, ∀ j, l.foldl (fun a i => fun i' j => if i' = i then a (n - 1 - i) j else a i' j) b i j = a i' j := by
    intro l
    induction l with
    | nil => intro b _ hb; exact hb
    | cons p l ih =>
      intro b hl hb
      refine ih _ (fun i hi => hl i (List.mem_cons_of_mem _ hi)) fun i hi => ?_
      by_cases h : i = p
      · obtain ⟨i', h1, h2⟩ := hb (n - 1 - p) (by omega)
        exact ⟨i', h1, fun j => (if_pos h).trans (h2 j)⟩
      · obtain ⟨i', h1, h2⟩ := hb i hi
        exact ⟨i', h1, fun j => (if_neg h).trans (h2 j)⟩
  exact this _ a (fun i hi => List.mem_range.1 hi) (fun i hi => ⟨i, hi, fun _ => rfl⟩) i hi

/-! ### The grid -/

variable {g : Grid} {m : Mesh} {P : ℕ → ℕ} {x : List ℝ} {bt : List Int}

/-- Derivatives of constants vanish. -/
theorem diff_one (hg : GridSpec P x bt g) (l : ℕ) (hl : l < g.np) : ∑ j ∈ Finset.range g.np, g.o.d.Dr.at' l j * 1 = 0 ∧ ∑ j ∈ Finset.range g.np, g.o.d.Ds.at' l j * 1 = 0 := by
  have h1 : TriSpace g.N (1 : P2) := by unfold TriSpace; simp
  have a := hg.elem.diff.dr 1 h1 l (by rw [hg.nodes]; exact hl)
  have b := hg.elem.diff.ds 1 h1 l (by rw [hg.nodes]; exact hl)
  rw [hg.nodes] at a b
  have e : ∀ j, nodal g.n.r g.n.s (1 : P2) j = 1 := fun j => by simp [nodal, ev]
  simp only [e, pderiv_one] at a b
  rw [a, b]
  simp [nodal, ev]

/-- Interpolation rows that reproduce constants give the derivatives of the map of the element. -/
theorem map_deriv (hg : GridSpec P x bt g) (V : ℕ → ℕ → ℝ) (i : ℕ) (h1 : ∑ l ∈ Finset.range g.np, V i l = 1) (k : ℕ) :
    derivAt g.np (msum g.np V g.o.d.Dr.at') (msum g.np V g.o.d.Ds.at') (fun j => gridX (g.tri k) g.n j) (fun j => gridY (g.tri k) g.n j) i = triDerivOf (g.tri k) := by
  have hd : ∀ l ∈ Finset.range g.np, g.deriv l k = triDerivOf (g.tri k) := fun l hl => hg.deriv_eq l k (Finset.mem_range.1 hl)
  have key : ∀ a : ℝ, ∑ l ∈ Finset.range g.np, V i l * a = a := fun a => by rw [← Finset.sum_mul, h1, one_mul]
  unfold derivAt
  simp only [msum_apply]
  have e1 : ∀ l ∈ Finset.range g.np, V i l * ∑ j ∈ Finset.range g.np, g.o.d.Dr.at' l j * gridX (g.tri k) g.n j = V i l * (triDerivOf (g.tri k)).xr := fun l hl => by rw [← hd l hl]; rfl
  have e2 : ∀ l ∈ Finset.range g.np, V i l * ∑ j ∈ Finset.range g.np, g.o.d.Ds.at' l j * gridX (g.tri k) g.n j = V i l * (triDerivOf (g.tri k)).xs := fun l hl => by rw [← hd l hl]; rfl
  have e3 : ∀ l ∈ Finset.range g.np, V i l * ∑ j ∈ Finset.range g.np, g.o.d.Dr.at' l j * gridY (g.tri k) g.n j = V i l * (triDerivOf (g.tri k)).yr := fun l hl => by rw [← hd l hl]; rfl
  have e4 : ∀ l ∈ Finset.range g.np, V i l * ∑ j ∈ Finset.range g.np, g.o.d.Ds.at' l j * gridY (g.tri k) g.n j = V i l * (triDerivOf (g.tri k)).ys := fun l hl => by rw [← hd l hl]; rfl
  rw [Finset.sum_congr rfl e1, Finset.sum_congr rfl e2, Finset.sum_congr rfl e3, Finset.sum_congr rfl e4, key, key, key, key]

/-- Rows of the cartesian derivatives sum to zero, whatever the metric terms. -/
theorem cart_one (hg : GridSpec P x bt g) (V : ℕ → ℕ → ℝ) (d : ℕ → Deriv) (J : ℕ → ℝ) (b i : ℕ) :
    ∑ j ∈ Finset.range g.np, cart d J (msum g.np V g.o.d.Dr.at') (msum g.np V g.o.d.Ds.at') b i j = 0 := by
  have e1 : ∑ j ∈ Finset.range g.np, msum g.np V g.o.d.Dr.at' i j * 1 = 0 := by
    rw [msum_apply]
    exact Finset.sum_eq_zero fun l hl => by rw [(diff_one hg l (Finset.mem_range.1 hl)).1, mul_zero]
  have e2 : ∑ j ∈ Finset.range g.np, msum g.np V g.o.d.Ds.at' i j * 1 = 0 := by
    rw [msum_apply]
    exact Finset.sum_eq_zero fun l hl => by rw [(diff_one hg l (Finset.mem_range.1 hl)).2, mul_zero]
  unfold cart
  simp only [mul_one] at e1 e2
  rw [Finset.sum_add_distrib, ← Finset.mul_sum, ← Finset.mul_sum, e1, e2]; simp

theorem metricBy_eq (d : Deriv) (a b : Fin 2) : metricBy d (jac d) a b = metric d a b := by
  fin_cases a <;> fin_cases b <;> simp [metricBy, metric]

/-- The cartesian derivatives are those at the nodes, interpolated. -/
theorem cart_apply (hg : GridSpec P x bt g) (m : Mesh) (V : ℕ → ℕ → ℝ) (i : ℕ) {k : ℕ} (hk : k < g.K) {u : ℕ → ℝ} {U : P2} (h : OnElem g k u U)
    (d : ℕ → Deriv) (hd : d i = triDerivOf (g.tri k)) (b : Fin 2) :
    ∑ j ∈ Finset.range g.np, cart d (fun i => jac (d i)) (msum g.np V g.o.d.Dr.at') (msum g.np V g.o.d.Ds.at') b i j * u j = ∑ l ∈ Finset.range g.np, V i l * sample g k (pderiv b U) l := by
  have hnp : 0 < g.np := Ctx.np_pos g
  have lin : ∀ p q : ℝ, ∑ j ∈ Finset.range g.np, (p * msum g.np V g.o.d.Dr.at' i j + q * msum g.np V g.o.d.Ds.at' i j) * u j
      = ∑ l ∈ Finset.range g.np, V i l * ∑ j ∈ Finset.range g.np, (p * g.o.d.Dr.at' l j + q * g.o.d.Ds.at' l j) * u j := by
    intro p q
    have : ∀ j, (p * msum g.np V g.o.d.Dr.at' i j + q * msum g.np V g.o.d.Ds.at' i j) * u j = p * (msum g.np V g.o.d.Dr.at' i j * u j) + q * (msum g.np V g.o.d.Ds.at' i j * u j) := fun j => by ring
    simp only [this, Finset.sum_add_distrib, ← Finset.mul_sum, msum_apply]
    rw [Finset.mul_sum, Finset.mul_sum, ← Finset.sum_add_distrib]
    refine Finset.sum_congr rfl fun l _ => ?_
    have : ∀ j, (p * g.o.d.Dr.at' l j + q * g.o.d.Ds.at' l j) * u j = p * (g.o.d.Dr.at' l j * u j) + q * (g.o.d.Ds.at' l j * u j) := fun j => by ring
    simp only [this, Finset.sum_add_distrib, ← Finset.mul_sum]
    ring
  unfold cart
  rw [lin]
  refine Finset.sum_congr rfl fun l hl => ?_
  congr 1
  obtain ⟨ax, ay⟩ := dx_apply hg m hk h l (Finset.mem_range.1 hl)
  have hd0 := hg.deriv_eq 0 k hnp
  simp only [hd]
  have m0 := metricBy_eq (triDerivOf (g.tri k)) 0 b
  have m1 := metricBy_eq (triDerivOf (g.tri k)) 1 b
  have m0' : metricBy (triDerivOf (g.tri k)) (jac (triDerivOf (g.tri k))) 0 b = metric (g.deriv 0 k) 0 b := by rw [hd0]; exact m0
  have m1' : metricBy (triDerivOf (g.tri k)) (jac (triDerivOf (g.tri k))) 1 b = metric (g.deriv 0 k) 1 b := by rw [hd0]; exact m1
  rw [m0', m1']
  fin_cases b
  · exact ax
  · exact ay

/-- The sum of the weights of a face is its length. -/
theorem weights_len {NG : ℕ} {gc : GaussFace} (hgc : GaussSpec g P bt NG gc) {k f : ℕ} (hk : k < g.K) (hf : f < 3) :
    ∑ i ∈ Finset.range NG, gc.W.at' (i + f * NG) k = segLen (faceEnds (g.tri k) f) := by
  have h := hgc.quad 1 (by simp) k hk f hf
  have e : ∀ i, atGauss gc 1 k i = 1 := fun i => by simp [atGauss, ev]
  simp only [e, mul_one] at h
  rw [show (∑ i ∈ Finset.range NG, gc.W.at' (i + f * NG) k) = ∑ i ∈ Finset.range NG, gc.W.at' (f * NG + i) k from Finset.sum_congr rfl fun i _ => by rw [add_comm], h]
  unfold along
  have e : ∀ a b : ℝ, ev a b (1 : P2) = 1 := fun a b => by simp [ev]
  simp only [e]
  rw [intervalIntegral.integral_const]
  simp only [smul_eq_mul]
  rw [show Ctx.segLen (faceEnds (g.tri k) f) = segLen (faceEnds (g.tri k) f) from rfl]
  ring

theorem interp_one {NG : ℕ} {gc : GaussFace} (hgc : GaussSpec g P bt NG gc) (hK : 0 < g.K) {i : ℕ} (hi : i < 3 * NG) : ∑ j ∈ Finset.range g.np, gc.interp.at' i j = 1 := by
  have h := hgc.interp 1 (by simp) i hi 0 hK
  simpa [atNode, atGauss, ev] using h

theorem cub_one {NC : ℕ} {cc : Cubature} (hcc : CubatureSpec g NC cc) (hK : 0 < g.K) {i : ℕ} (hi : i < cc.n) : ∑ j ∈ Finset.range g.np, cc.V.at' i j = 1 := by
  have h := hcc.interp 1 (by simp) i hi 0 hK
  simpa [atNode, atPoint, ev] using h

/-- What holds of the locals of one pass of the face loop. -/
structure GFaceData (g : Grid) (P : ℕ → ℕ) (NG : ℕ) (e : ℕ) (F : GFace) : Prop where
  k2 : F.k2 = P e / 3
  gVM : ∀ i < NG, ∑ j ∈ Finset.range g.np, F.gVM i j = 1
  gVP : ∀ i < NG, ∑ j ∈ Finset.range g.np, F.gVP i j = 1
  gw : ∑ i ∈ Finset.range NG, F.gw i = segLen (seg g e)
  gDnM : ∀ i < NG, ∑ j ∈ Finset.range g.np, F.gDnM i j = 0
  gDnP : ∀ i < NG, ∑ j ∈ Finset.range g.np, F.gDnP i j = 0
  tau : F.tau = penalty g P e

/-- Node coordinates as the constructor gets them. -/
noncomputable abbrev nodeX (g : Grid) (i k : ℕ) : ℝ := gridX (g.tri k) g.n i
noncomputable abbrev nodeY (g : Grid) (i k : ℕ) : ℝ := gridY (g.tri k) g.n i

/-- The face cannot be set up: the Jacobian, or the derivative matrices of one of the two elements, are below ten times machine epsilon. -/
def TooSmall (g : Grid) (NG : ℕ) (eps : ℝ) (gc : GaussFace) (k k2 : ℕ) : Prop :=
  let D := fun T b => cart (fun _ => triDerivOf T) (fun _ => cross (g.tri k) / 4) (msum g.np gc.interp.at' g.o.d.Dr.at') (msum g.np gc.interp.at' g.o.d.Ds.at') b
  normFro NG (fun _ => cross (g.tri k) / 4) < 10 * eps ∨ ∃ b < 2, normMax NG g.np (D (g.tri k) b) < 10 * eps ∨ normMax NG g.np (D (g.tri k2) b) < 10 * eps

theorem normFro_congr {n : ℕ} {a b : ℕ → ℝ} (h : ∀ i < n, a i = b i) : normFro n a = normFro n b := by
  unfold normFro
  rw [Finset.sum_congr rfl fun i hi => by rw [h i (Finset.mem_range.1 hi)]]

theorem normMax_congr {m n : ℕ} {a b : ℕ → ℕ → ℝ} (h : ∀ i < m, ∀ j < n, a i j = b i j) : normMax m n a = normMax m n b := by
  unfold normMax
  apply List.foldl_ext
  intro c ij hij
  have := Sparse.mem_rowMajor.1 hij
  rw [h _ this.1 _ this.2]

theorem gface_grid (hg : GridSpec P x bt g) (m : Mesh) (hm : Conn 3 g.K m.E m.F P) {NG : ℕ} {gc : GaussFace} (hgc : GaussSpec g P bt NG gc) (eps : ℝ) {k f : ℕ} (hk : k < g.K) (hf : f < 3) :
    (TooSmall g NG eps gc k (P (3 * k + f) / 3) ∧ (ctxOf g m).gface (nodeX g) (nodeY g) eps gc k f = .throws) ∨
    ¬ TooSmall g NG eps gc k (P (3 * k + f) / 3) ∧ ∃ F, (ctxOf g m).gface (nodeX g) (nodeY g) eps gc k f = .ok F ∧ GFaceData g P NG (3 * k + f) F := by
  have he : 3 * k + f < 3 * g.K := by omega
  have hd : (3 * k + f) / 3 = k ∧ (3 * k + f) % 3 = f := by omega
  have hPe := hg.lt _ he
  have hK : 0 < g.K := by omega
  have r1 : rd m.E (3 * k + f) = .ok (P (3 * k + f) / 3) := rd_eq_ok.2 (hm.e _ he)
  have r2 : rd m.F (3 * k + f) = .ok (P (3 * k + f) % 3) := rd_eq_ok.2 (hm.f _ he)
  have hP3 : P (3 * k + f) / 3 < g.K := by omega
  have hrow : ∀ f < 3, ∀ i < NG, f * NG + i < 3 * NG := by
    intro f hf i hi
    have : (f + 1) * NG ≤ 3 * NG := Nat.mul_le_mul_right _ hf
    rw [Nat.succ_mul] at this; omega
  have hlow : ∀ i < NG, i < 3 * NG := fun i hi => by omega
  have d1 : ∀ k', ∀ i < NG, derivAt g.np (msum g.np gc.interp.at' g.o.d.Dr.at') (msum g.np gc.interp.at' g.o.d.Ds.at') (fun j => gridX (g.tri k') g.n j) (fun j => gridY (g.tri k') g.n j) i
      = triDerivOf (g.tri k') := fun k' i hi => map_deriv hg _ i (interp_one hgc hK (hlow i hi)) k'
  have f1 := hg.fscale_eq f 0 k hf (by omega)
  have f2 := hg.fscale_eq (P (3 * k + f) % 3) 0 (P (3 * k + f) / 3) (by omega) (by omega)
  rw [Nat.add_zero] at f1 f2
  have nF : normFro NG (fun i => jac (derivAt g.np (msum g.np gc.interp.at' g.o.d.Dr.at') (msum g.np gc.interp.at' g.o.d.Ds.at') (fun j => gridX (g.tri k) g.n j) (fun j => gridY (g.tri k) g.n j) i))
      = normFro NG (fun _ => cross (g.tri k) / 4) := normFro_congr fun i hi => by rw [d1 k i hi, SW.jac_triDerivOf]
  have nM : ∀ k' b, normMax NG g.np (cart (derivAt g.np (msum g.np gc.interp.at' g.o.d.Dr.at') (msum g.np gc.interp.at' g.o.d.Ds.at') (fun j => gridX (g.tri k') g.n j) (fun j => gridY (g.tri k') g.n j))
      (fun i => jac (derivAt g.np (msum g.np gc.interp.at' g.o.d.Dr.at') (msum g.np gc.interp.at' g.o.d.Ds.at') (fun j => gridX (g.tri k) g.n j) (fun j => gridY (g.tri k) g.n j) i))
      (msum g.np gc.interp.at' g.o.d.Dr.at') (msum g.np gc.interp.at' g.o.d.Ds.at') b)
      = normMax NG g.np (cart (fun _ => triDerivOf (g.tri k')) (fun _ => cross (g.tri k) / 4) (msum g.np gc.interp.at' g.o.d.Dr.at') (msum g.np gc.interp.at' g.o.d.Ds.at') b) :=
    fun k' b => normMax_congr fun i hi j _ => by simp only [cart]; rw [d1 k' i hi, d1 k i hi, SW.jac_triDerivOf]
  unfold Ctx.gface
  simp only [show (ctxOf g m).E = m.E from rfl, show (ctxOf g m).F = m.F from rfl, show (ctxOf g m).nf = 3 from rfl, show (ctxOf g m).nfp = g.N + 1 from rfl,
    show (ctxOf g m).Np = g.np from rfl, show (ctxOf g m).K = g.K from rfl, show (ctxOf g m).Dr = g.o.d.Dr.at' from rfl, show (ctxOf g m).Ds = g.o.d.Ds.at' from rfl, r1, r2, Out.bind_ok, hgc.count]
  rw [if_pos ⟨hP3, by omega⟩]
  simp only [nodeX, nodeY, nF, nM]
  unfold TooSmall
  split_ifs with c1 c2 c3
  · exact Or.inl ⟨Or.inl c1, rfl⟩
  · refine Or.inl ⟨Or.inr ?_, rfl⟩
    rcases c2 with c | c
    · exact ⟨0, by omega, Or.inl c⟩
    · exact ⟨1, by omega, Or.inl c⟩
  · refine Or.inl ⟨Or.inr ?_, rfl⟩
    rcases c3 with c | c
    · exact ⟨0, by omega, Or.inr c⟩
    · exact ⟨1, by omega, Or.inr c⟩
  · refine Or.inr ⟨?_, _, rfl, rfl, fun i hi => interp_one hgc hK (hrow f hf i hi), fun i hi => ?_, ?_, fun i hi => ?_, fun i hi => ?_, ?_⟩
    · rintro (h | ⟨b, hb, h⟩)
      · exact c1 h
      · rcases (by omega : b = 0 ∨ b = 1) with rfl | rfl <;> tauto
    · obtain ⟨i', h1, h2⟩ := reverse_row NG (fun i j => gc.interp.at' (P (3 * k + f) % 3 * NG + i) j) i hi
      simp only [h2]
      exact interp_one hgc hK (hrow _ (by omega) i' h1)
    · show _ = segLen (seg g (3 * k + f))
      unfold seg
      rw [hd.1, hd.2]
      exact weights_len hgc hk hf
    · simp only [Finset.sum_add_distrib, ← Finset.mul_sum]
      rw [cart_one hg, cart_one hg]; simp
    · simp only [Finset.sum_add_distrib, ← Finset.mul_sum]
      rw [cart_one hg, cart_one hg]; simp
    · simp only [show (ctxOf g m).fscale = g.fscale from rfl, f1, f2, penalty, invSize, seg, hd.1, hd.2, len_nrm _ hf, len_nrm _ (show P (3 * k + f) % 3 < 3 by omega), show (ctxOf g m).N = g.N from rfl]
      have e2 : ∀ a b : ℝ, a / 2 / (b / 4) = a / (b / 2) := fun a b => by rw [div_div, show (2 : ℝ) * (b / 4) = b / 2 by ring]
      rw [e2, e2]
      push_cast
      ring

theorem weighted (n : ℕ) (W : ℕ → ℝ) (A : ℕ → ℕ → ℝ) (i j : ℕ) : msum n (tsum n A (diagOf n W).at') A i j = tsum n A (fun k j => W k * A k j) i j := by
  unfold msum tsum diagOf
  refine Finset.sum_congr rfl fun k hk => ?_
  simp only [mul_ite, mul_zero]
  rw [Finset.sum_ite_eq' , if_pos hk]
  ring

/-- Cubature of `∇U·∇V` on element `k`. -/
noncomputable def cubGrad (cc : Cubature) (k : ℕ) (V U : P2) : ℝ :=
  ∑ i ∈ Finset.range cc.n, cc.W.at' i k * (atPoint cc (pderiv 0 V) k i * atPoint cc (pderiv 0 U) k i + atPoint cc (pderiv 1 V) k i * atPoint cc (pderiv 1 U) k i)

theorem stiff_form (hg : GridSpec P x bt g) (m : Mesh) {NC : ℕ} {cc : Cubature} (hcc : CubatureSpec g NC cc) {k : ℕ} (hk : k < g.K) {v u : ℕ → ℝ} {V U : P2} (hv : OnElem g k v V) (hu : OnElem g k u U) :
    bil g.np ((ctxOf g m).cubStiff (nodeX g) (nodeY g) cc k) v u = cubGrad cc k V U := by
  have ap : ∀ (u : ℕ → ℝ) (U : P2), OnElem g k u U → ∀ b : Fin 2, ∀ i < cc.n, ∑ j ∈ Finset.range g.np, (ctxOf g m).cubCart (nodeX g) (nodeY g) cc k b i j * u j = atPoint cc (pderiv b U) k i := by
    intro u U hu b i hi
    have h1 := cub_one hcc (by omega : 0 < g.K) hi
    refine (cart_apply hg m cc.V.at' i hk hu _ (map_deriv hg cc.V.at' i h1 k) b).trans ?_
    exact hcc.interp (pderiv b U) (tri_closed g.N b U hu.1) i hi k hk
  have e : ∀ i j, (ctxOf g m).cubStiff (nodeX g) (nodeY g) cc k i j
      = tsum cc.n ((ctxOf g m).cubCart (nodeX g) (nodeY g) cc k 0) (fun l j => cc.W.at' l k * (ctxOf g m).cubCart (nodeX g) (nodeY g) cc k 0 l j) i j
        + tsum cc.n ((ctxOf g m).cubCart (nodeX g) (nodeY g) cc k 1) (fun l j => cc.W.at' l k * (ctxOf g m).cubCart (nodeX g) (nodeY g) cc k 1 l j) i j := by
    intro i j
    unfold Ctx.cubStiff
    simp only [weighted]
  rw [show (ctxOf g m).cubStiff (nodeX g) (nodeY g) cc k = _ from funext fun i => funext fun j => e i j, bil_add, bil_tsum, bil_tsum, ← Finset.sum_add_distrib]
  unfold cubGrad
  refine Finset.sum_congr rfl fun i hi => ?_
  have hi' := Finset.mem_range.1 hi
  have a1 := ap v V hv 0 i hi'
  have a2 := ap v V hv 1 i hi'
  have b1 := ap u U hu 0 i hi'
  have b2 := ap u U hu 1 i hi'
  simp only [mul_assoc, ← Finset.mul_sum]
  rw [show (((0 : Fin 2) : ℕ)) = 0 from rfl] at a1 b1
  rw [show (((1 : Fin 2) : ℕ)) = 1 from rfl] at a2 b2
  rw [a1, a2, b1, b2]
  ring

/-- What the contribution of face `e` gives for two functions that are one on both elements: with the interior penalty form this would be `τ` times the length on a Dirichlet face and nothing
on any other. -/
noncomputable def onesTerm (g : Grid) (m : Mesh) (P : ℕ → ℕ) (e : ℕ) : ℝ :=
  if tagOf m e = 6 then (penalty g P e - 1) * segLen (seg g e)
  else if tagOf m e = 7 ∨ tagOf m e = 3 then 0
  else -(((g.np : ℝ) ^ 2 - 1) / 2 * penalty g P e * segLen (seg g e))

theorem gface_ones {NG : ℕ} {e : ℕ} {F : GFace} (h : GFaceData g P NG e F) : gfaceForm g.np NG (tagOf m e) F one one one = onesTerm g m P e := by
  have z : ∀ (A : ℕ → ℕ → ℝ) (k : ℕ), ∑ i ∈ Finset.range g.np, A k i * one i = ∑ i ∈ Finset.range g.np, A k i := fun A k => by simp [one]
  have w1 : ∀ k, ∑ i ∈ Finset.range g.np, F.wVM k i * one i = F.gw k * ∑ i ∈ Finset.range g.np, F.gVM k i := fun k => by rw [z]; unfold GFace.wVM; rw [Finset.mul_sum]
  have w2 : ∀ k, ∑ i ∈ Finset.range g.np, F.wVP k i * one i = F.gw k * ∑ i ∈ Finset.range g.np, F.gVP k i := fun k => by rw [z]; unfold GFace.wVP; rw [Finset.mul_sum]
  have t1 : bil g.np (tsum NG F.gDnM F.wVM) one one = 0 := by
    rw [bil_tsum]; exact Finset.sum_eq_zero fun k hk => by rw [z, h.gDnM k (Finset.mem_range.1 hk), zero_mul]
  have t2 : bil g.np (tsum NG F.gVM F.wVM) one one = segLen (seg g e) := by
    rw [bil_tsum, ← h.gw]; exact Finset.sum_congr rfl fun k hk => by rw [z, w1, h.gVM k (Finset.mem_range.1 hk)]; ring
  have t3 : bil g.np (tsum NG F.wVM F.gDnM) one one = 0 := by
    rw [bil_tsum]; exact Finset.sum_eq_zero fun k hk => by rw [z F.gDnM, h.gDnM k (Finset.mem_range.1 hk), mul_zero]
  have t4 : bil g.np (tsum NG F.wVM F.gVM) one one = segLen (seg g e) := by
    rw [bil_tsum, ← h.gw]; exact Finset.sum_congr rfl fun k hk => by rw [z F.gVM, w1, h.gVM k (Finset.mem_range.1 hk)]; ring
  have t5 : bil g.np (tsum NG F.wVM F.gDnP) one one = 0 := by
    rw [bil_tsum]; exact Finset.sum_eq_zero fun k hk => by rw [z F.gDnP, h.gDnP k (Finset.mem_range.1 hk), mul_zero]
  have t6 : bil g.np (tsum NG F.gDnM F.wVP) one one = 0 := by
    rw [bil_tsum]; exact Finset.sum_eq_zero fun k hk => by rw [z, h.gDnM k (Finset.mem_range.1 hk), zero_mul]
  have t7 : ∑ a ∈ Finset.range g.np, ∑ b ∈ Finset.range g.np, ∑ k ∈ Finset.range NG, F.wVM k a * F.gVP k b = segLen (seg g e) := by
    have := bil_tsum g.np NG F.wVM F.gVP one one
    rw [bil_one] at this
    refine this.trans ?_
    rw [← h.gw]
    exact Finset.sum_congr rfl fun k hk => by rw [w1, z, h.gVM k (Finset.mem_range.1 hk), h.gVP k (Finset.mem_range.1 hk)]; ring
  have cst : ∀ a : ℝ, bil g.np (fun _ _ => a) one one = (g.np : ℝ) ^ 2 * a := by
    intro a; rw [bil_one]; simp; ring
  unfold gfaceForm onesTerm
  split_ifs
  · have : F.dirichlet NG = fun i j => (fun i j => -tsum NG F.gDnM F.wVM i j - tsum NG F.gVM F.wVM i j) i j + (fun i j => F.tau * tsum NG F.gVM F.wVM i j) i j := rfl
    rw [this, bil_add, bil_sub, bil_neg, bil_smul, t1, t2, h.tau]; ring
  · rfl
  · have e1 : F.own NG = fun i j => (fun i j => -(0.5 * tsum NG F.wVM F.gDnM i j) - 0.5 * tsum NG F.gDnM F.wVM i j) i j + (fun i j => 0.5 * F.tau * tsum NG F.wVM F.gVM i j) i j := rfl
    have e2 : F.cross g.np NG = fun i j => (fun i j => (fun _ _ => -0.5 * F.tau * segLen (seg g e)) i j - 0.5 * tsum NG F.wVM F.gDnP i j) i j + (fun i j => 0.5 * tsum NG F.gDnM F.wVP i j) i j := by
      funext i j; unfold GFace.cross; rw [t7]
    rw [e1, e2, bil_add, bil_add, bil_sub, bil_sub, bil_neg, bil_smul, bil_smul, bil_smul, bil_smul, bil_smul, bil_smul, cst, t1, t3, t4, t5, t6, h.tau]; ring

theorem stiff_ones (hg : GridSpec P x bt g) (m : Mesh) (cc : Cubature) (k : ℕ) : bil g.np ((ctxOf g m).cubStiff (nodeX g) (nodeY g) cc k) one one = 0 := by
  rw [bil_one]
  refine Finset.sum_eq_zero fun i _ => ?_
  unfold Ctx.cubStiff
  simp only [Finset.sum_add_distrib]
  have e : ∀ A b, ∑ j ∈ Finset.range g.np, msum cc.n A ((ctxOf g m).cubCart (nodeX g) (nodeY g) cc k b) i j = 0 := by
    intro A b
    have := msum_apply cc.n g.np A ((ctxOf g m).cubCart (nodeX g) (nodeY g) cc k b) (fun _ => 1) i
    simp only [mul_one] at this
    rw [this]
    refine Finset.sum_eq_zero fun l _ => ?_
    unfold Ctx.cubCart
    exact mul_eq_zero_of_right _ (cart_one hg cc.V.at' _ _ _ _)
  rw [e, e, add_zero]

/-! ### C103 -/

variable {la : Lapack} {eps ztol tol : ℝ} {N : ℕ} {NG NC : ℕ} {gc : GaussFace} {cc : Cubature}

theorem able (hg : GridSpec P x m.bcType g) (hm : Conn 3 g.K m.E m.F P) (hbc : 3 * g.K ≤ m.bcType.length) (hgc : GaussSpec g P m.bcType NG gc) (eps : ℝ) :
    ∃ F : ℕ → ℕ → GFace, Able (ctxOf g m) (nodeX g) (nodeY g) eps gc F (fun k f => tagOf m (3 * k + f)) ∧
      ∀ k < g.K, ∀ f < 3, ¬ TooSmall g NG eps gc k (P (3 * k + f) / 3) → GFaceData g P NG (3 * k + f) (F k f) := by
  have : ∀ k f, ∃ F : GFace, k < g.K → f < 3 → F.k2 < g.K ∧ ((ctxOf g m).gface (nodeX g) (nodeY g) eps gc k f = .throws ∨ (ctxOf g m).gface (nodeX g) (nodeY g) eps gc k f = .ok F) ∧
      (¬ TooSmall g NG eps gc k (P (3 * k + f) / 3) → GFaceData g P NG (3 * k + f) F) := by
    intro k f
    by_cases hk : k < g.K
    · by_cases hf : f < 3
      · have hP := hg.lt (3 * k + f) (by omega)
        rcases gface_grid hg m hm hgc eps hk hf with ⟨h1, h2⟩ | ⟨h1, F, h2, h3⟩
        · exact ⟨⟨0, fun _ _ => 0, fun _ _ => 0, fun _ => 0, fun _ _ => 0, fun _ _ => 0, 0⟩, fun _ _ => ⟨by show 0 < g.K; omega, Or.inl h2, fun h => absurd h1 h⟩⟩
        · exact ⟨F, fun _ _ => ⟨by rw [h3.k2]; omega, Or.inr h2, fun _ => h3⟩⟩
      · exact ⟨⟨0, fun _ _ => 0, fun _ _ => 0, fun _ => 0, fun _ _ => 0, fun _ _ => 0, 0⟩, fun _ h => absurd h hf⟩
    · exact ⟨⟨0, fun _ _ => 0, fun _ _ => 0, fun _ => 0, fun _ _ => 0, fun _ _ => 0, 0⟩, fun h => absurd h hk⟩
  choose F hF using this
  refine ⟨F, ⟨fun k hk f hf => (hF k f hk hf).2.1, fun k hk f hf => (hF k f hk hf).1, fun k hk f hf => ?_⟩, fun k hk f hf => (hF k f hk hf).2.2⟩
  have hk' : k < g.K := hk
  have hf' : f < 3 := hf
  have h1 : 3 * k + f < m.bcType.length := by omega
  show rd m.bcType (3 * k + f) = _
  rw [rd_eq_ok]
  simp [tagOf, h1]

/-- **C103, the operator that is built.** On every grid the constructor either throws - exactly if on some face the Jacobian or the derivative matrices are below ten times machine epsilon - or ends
normally with two `Np K × Np K` matrices.  The second gives the cubature of products: `vᵀ MM u = Σ w U V`.  The first gives the cubature of `∇U·∇V` if all faces are tagged wall or Neuman.
For two constant functions, however, it gives the sum of `onesTerm`. -/
theorem C103_forms_partial (h : Provisioned la eps ztol tol N m P g) (hi : Fits g false) (hgc : GaussSpec g P m.bcType NG gc) (hcc : CubatureSpec g NC cc) :
    (cubOperator eps g m gc cc = .throws ∧ ∃ e < 3 * g.K, TooSmall g NG eps gc (e / 3) (P e / 3)) ∨
    (∀ e < 3 * g.K, ¬ TooSmall g NG eps gc (e / 3) (P e / 3)) ∧
    ∃ op mm A M, cubOperator eps g m gc cc = .ok (op, mm) ∧ op.m = g.np * g.K ∧ op.n = g.np * g.K ∧ mm.m = g.np * g.K ∧ mm.n = g.np * g.K ∧ Represents op A ∧ Represents mm M ∧
      (∀ v u V U, HasNodes g v V → HasNodes g u U → bil (g.np * g.K) M v u = ∑ k ∈ Finset.range g.K, ∑ i ∈ Finset.range cc.n, cc.W.at' i k * (atPoint cc (V k) k i * atPoint cc (U k) k i)) ∧
      ((∀ e < 3 * g.K, tagOf m e = 3 ∨ tagOf m e = 7) → ∀ v u V U, HasNodes g v V → HasNodes g u U → bil (g.np * g.K) A v u = ∑ k ∈ Finset.range g.K, cubGrad cc k (V k) (U k)) ∧
      ∑ i ∈ Finset.range (g.np * g.K), ∑ j ∈ Finset.range (g.np * g.K), A i j = ∑ e ∈ Finset.range (3 * g.K), onesTerm g m P e := by
  obtain ⟨x, hg, -, hK, -⟩ := h.spec
  have hm := Provisioned.conn' h hK
  obtain ⟨F, hF, hD⟩ := able hg hm (Provisioned.bc' h hK) hgc eps
  have hi1 : (1 + 3) * g.np * g.np * g.K ≤ intMax := by have := hi.1; simpa using this
  have hi2 : g.np * g.K ≤ intMax := by have := hi.2; simpa using this
  have thr : ∀ k < g.K, ∀ f < 3, ((ctxOf g m).gface (nodeX g) (nodeY g) eps gc k f = .throws ↔ TooSmall g NG eps gc k (P (3 * k + f) / 3)) := by
    intro k hk f hf
    rcases gface_grid hg m hm hgc eps hk hf with ⟨h1, h2⟩ | ⟨h1, F, h2, h3⟩
    · exact ⟨fun _ => h1, fun _ => h2⟩
    · rw [h2]; exact ⟨fun h => by simp at h, fun h => absurd h h1⟩
  rcases hF.build (cc := cc) hi1 hi2 with ⟨e, k, hk, f, hf, ht⟩ | ⟨hall, op, mm, A, M, e, d1, d2, d3, d4, r1, r2, f1, f2⟩
  · have hk' : k < g.K := hk
    have hf' : f < 3 := hf
    refine Or.inl ⟨e, 3 * k + f, by omega, ?_⟩
    rw [show (3 * k + f) / 3 = k by omega]
    exact (thr k hk' f hf').1 ht
  · have hok : ∀ k < g.K, ∀ f < 3, ¬ TooSmall g NG eps gc k (P (3 * k + f) / 3) := by
      intro k hk f hf h
      have h1 := (thr k hk f hf).2 h
      rw [hall k hk f hf] at h1
      simp at h1
    refine Or.inr ⟨fun e he => ?_, op, mm, A, M, e, d1, d2, d3, d4, r1, r2, fun v u V U hv hu => ?_, fun htag v u V U hv hu => ?_, ?_⟩
    · have := hok (e / 3) (by omega) (e % 3) (by omega)
      rwa [show 3 * (e / 3) + e % 3 = e by omega] at this
    · refine (f2 v u).trans (Finset.sum_congr rfl fun k hk => ?_)
      have hk' := Finset.mem_range.1 hk
      refine Eq.trans ?_ (hcc.mass (V k) (U k) (hv k hk').1 (hu k hk').1 k hk')
      show bil g.np _ (loc g.np v k) (loc g.np u k) = _
      unfold bil
      refine Finset.sum_congr rfl fun i hi => Finset.sum_congr rfl fun j hj => ?_
      have a := (hv k hk').2 i (Finset.mem_range.1 hi)
      have b := (hu k hk').2 j (Finset.mem_range.1 hj)
      show v (i + g.np * k) * (_ * u (j + g.np * k)) = _
      rw [← show _ = v (i + g.np * k) from a, ← show _ = u (j + g.np * k) from b]
      rfl
    · refine (f1 v u).trans (Finset.sum_congr rfl fun k hk => ?_)
      have hk' := Finset.mem_range.1 hk
      unfold gelemForm
      rw [Finset.sum_eq_zero, add_zero]
      · exact stiff_form hg m hcc hk' (hv k hk') (hu k hk')
      · intro f hf
        have hf' : f < 3 := Finset.mem_range.1 hf
        have ht := htag (3 * k + f) (by omega)
        have n6 : ¬ tagOf m (3 * k + f) = 6 := by rcases ht with h | h <;> rw [h] <;> decide
        unfold gfaceForm
        rw [if_neg n6, if_pos ht.symm]
    · have hones : ∀ k < g.K, gelemForm (ctxOf g m) (nodeX g) (nodeY g) gc cc F (fun k f => tagOf m (3 * k + f)) k one one = ∑ f ∈ Finset.range 3, onesTerm g m P (3 * k + f) := by
        intro k hk
        unfold gelemForm
        have e1 := stiff_ones hg m cc k
        simp only [loc_one]
        rw [show bil (ctxOf g m).Np ((ctxOf g m).cubStiff (nodeX g) (nodeY g) cc k) one one = 0 from e1, zero_add]
        refine Finset.sum_congr rfl fun f hf => ?_
        have hf' : f < 3 := Finset.mem_range.1 hf
        rw [hgc.count]
        exact gface_ones (hD k hk f hf' (hok k hk f hf'))
      have := f1 one one
      rw [bil_one] at this
      refine this.trans ?_
      refine (Finset.sum_congr rfl fun k hk => hones k (Finset.mem_range.1 hk)).trans ?_
      exact SW.sum_faces g.K (onesTerm g m P)

theorem np_ge (hg : GridSpec P x bt g) : 3 ≤ g.np := by
  unfold Grid.np
  rw [Nat.le_div_iff_mul_le (by omega)]
  have := hg.posN
  nlinarith

/-- **C103 refuted: constants.** If no face is a Dirichlet face and some face lies between two elements (is tagged neither wall, Dirichlet nor Neuman), then the entries of the operator that is built
sum to a negative number.  So the operator does not annihilate constants, and it is not positive semidefinite: constant functions have negative energy. -/
theorem C103_constants_refuted (h : Provisioned la eps ztol tol N m P g) (hi : Fits g false) (hgc : GaussSpec g P m.bcType NG gc) (hcc : CubatureSpec g NC cc)
    (hno : ∀ e < 3 * g.K, tagOf m e ≠ 6) (hsome : ∃ e < 3 * g.K, tagOf m e ≠ 3 ∧ tagOf m e ≠ 7) (op mm : Csc ℝ) (hop : cubOperator eps g m gc cc = .ok (op, mm)) (A : ℕ → ℕ → ℝ) (hA : Represents op A) :
    ∑ i ∈ Finset.range op.m, ∑ j ∈ Finset.range op.n, A i j < 0 ∧ mat op.n A *ᵥ (fun _ => 1) ≠ 0 ∧ ¬ ∀ u : Fin op.n → ℝ, 0 ≤ u ⬝ᵥ mat op.n A *ᵥ u := by
  obtain ⟨x, hg, -, hK, -⟩ := h.spec
  rcases C103_forms_partial h hi hgc hcc with ⟨e, -⟩ | ⟨-, op', mm', A', M', e, d1, d2, -, -, r1, -, -, -, hs⟩
  · rw [e] at hop; simp at hop
  rw [e] at hop
  obtain ⟨rfl, rfl⟩ := Prod.mk.inj (Out.ok.inj hop)
  have hneg : ∑ i ∈ Finset.range op'.m, ∑ j ∈ Finset.range op'.n, A i j < 0 := by
    have e1 : ∑ i ∈ Finset.range op'.m, ∑ j ∈ Finset.range op'.n, A i j = ∑ i ∈ Finset.range (g.np * g.K), ∑ j ∈ Finset.range (g.np * g.K), A' i j := by
      rw [d1, d2]
      exact Finset.sum_congr rfl fun i _ => Finset.sum_congr rfl fun j hj => hA.unique r1 i j (by rw [d2]; exact Finset.mem_range.1 hj)
    rw [e1, hs]
    have hn : (9 : ℝ) ≤ (g.np : ℝ) ^ 2 := by
      have : (3 : ℝ) ≤ g.np := by exact_mod_cast np_ge hg
      nlinarith
    have pos : ∀ e < 3 * g.K, 0 < ((g.np : ℝ) ^ 2 - 1) / 2 * penalty g P e * segLen (seg g e) := by
      intro e he
      have h1 := penalty_pos hg he
      have h2 := seg_pos hg he
      have h3 : 0 < ((g.np : ℝ) ^ 2 - 1) / 2 := by linarith
      positivity
    refine Finset.sum_neg' (fun e he => ?_) ?_
    · have he := Finset.mem_range.1 he
      unfold onesTerm
      rw [if_neg (hno e he)]
      split_ifs
      · exact le_refl _
      · have := pos e he; linarith
    · obtain ⟨e, he, h3, h7⟩ := hsome
      refine ⟨e, Finset.mem_range.2 he, ?_⟩
      unfold onesTerm
      rw [if_neg (hno e he), if_neg (by tauto)]
      have := pos e he; linarith
  have hq : (fun _ => 1 : Fin op'.n → ℝ) ⬝ᵥ mat op'.n A *ᵥ (fun _ => 1) < 0 := by
    refine lt_of_eq_of_lt ?_ hneg
    rw [d1, ← d2]
    simp only [dotProduct, mulVec, mat, mul_one, one_mul, Finset.sum_range]
  refine ⟨hneg, fun h0 => ?_, fun hall => ?_⟩
  · rw [h0] at hq; simp at hq
  · have := hall fun _ => 1; linarith

/-! ### When it returns -/

theorem normMax_ge (p q : ℕ) (a : ℕ → ℕ → ℝ) (i j : ℕ) (hi : i < p) (hj : j < q) : |a i j| ≤ normMax p q a := by
  unfold normMax
  have mono : ∀ (l : List (ℕ × ℕ)) (b : ℝ), b ≤ l.foldl (fun b ij => max b |a ij.1 ij.2|) b := by
    intro l
    induction l with
    | nil => intro b; exact le_refl _
    | cons p l ih => intro b; exact (le_max_left _ _).trans (ih _)
  have : ∀ (l : List (ℕ × ℕ)) (b : ℝ), (i, j) ∈ l → |a i j| ≤ l.foldl (fun b ij => max b |a ij.1 ij.2|) b := by
    intro l
    induction l with
    | nil => intro b h; exact absurd h List.not_mem_nil
    | cons p l ih =>
      intro b h
      rcases List.mem_cons.1 h with h | h
      · rw [List.foldl_cons, ← h]
        exact (le_max_right _ _).trans (mono _ _)
      · exact ih _ h
  exact this _ 0 (Sparse.mem_rowMajor.2 ⟨hi, hj⟩)

/-- Elements of moderate size, not too far from the origin and not too different from their neighbours can be handled. -/
theorem not_tooSmall (hg : GridSpec P x bt g) (hgc : GaussSpec g P bt NG gc) (hNG : 1 ≤ NG) (eps : ℝ) {k k2 : ℕ} (hk : k < g.K) (hJ : 10 * eps ≤ cross (g.tri k) / 4)
    (hx : ∀ T, T = g.tri k ∨ T = g.tri k2 → 10 * eps * ∑ j ∈ Finset.range g.np, |gridX T g.n j| < cross T / cross (g.tri k))
    (hy : ∀ T, T = g.tri k ∨ T = g.tri k2 → 10 * eps * ∑ j ∈ Finset.range g.np, |gridY T g.n j| < cross T / cross (g.tri k)) : ¬ TooSmall g NG eps gc k k2 := by
  have hc := hg.ccw k hk
  have hone := interp_one hgc (by omega : 0 < g.K) (i := 0) (by omega)
  have main : ∀ (k' : ℕ) (b : ℕ) (X : ℕ → ℝ), b < 2 → (X = if b = 0 then fun j => gridX (g.tri k') g.n j else fun j => gridY (g.tri k') g.n j) →
      ∑ j ∈ Finset.range g.np, cart (fun _ => triDerivOf (g.tri k')) (fun _ => cross (g.tri k) / 4) (msum g.np gc.interp.at' g.o.d.Dr.at') (msum g.np gc.interp.at' g.o.d.Ds.at') b 0 j * X j
        = cross (g.tri k') / cross (g.tri k) := by
    intro k' b X hb hX
    have hd := map_deriv hg gc.interp.at' 0 hone k'
    have hjac := SW.jac_triDerivOf (g.tri k')
    unfold jac at hjac
    unfold cart
    have lin : ∀ p q : ℝ, ∑ j ∈ Finset.range g.np, (p * msum g.np gc.interp.at' g.o.d.Dr.at' 0 j + q * msum g.np gc.interp.at' g.o.d.Ds.at' 0 j) * X j
        = p * ∑ j ∈ Finset.range g.np, msum g.np gc.interp.at' g.o.d.Dr.at' 0 j * X j + q * ∑ j ∈ Finset.range g.np, msum g.np gc.interp.at' g.o.d.Ds.at' 0 j * X j := by
      intro p q
      rw [Finset.mul_sum, Finset.mul_sum, ← Finset.sum_add_distrib]
      exact Finset.sum_congr rfl fun j _ => by ring
    rw [lin]
    rcases (by omega : b = 0 ∨ b = 1) with rfl | rfl
    · rw [if_pos rfl] at hX
      subst hX
      have e1 : ∑ j ∈ Finset.range g.np, msum g.np gc.interp.at' g.o.d.Dr.at' 0 j * gridX (g.tri k') g.n j = (triDerivOf (g.tri k')).xr := congrArg Deriv.xr hd
      have e2 : ∑ j ∈ Finset.range g.np, msum g.np gc.interp.at' g.o.d.Ds.at' 0 j * gridX (g.tri k') g.n j = (triDerivOf (g.tri k')).xs := congrArg Deriv.xs hd
      rw [e1, e2]
      simp only [metricBy, if_true]
      norm_num
      field_simp
      linarith
    · rw [if_neg (by decide)] at hX
      subst hX
      have e1 : ∑ j ∈ Finset.range g.np, msum g.np gc.interp.at' g.o.d.Dr.at' 0 j * gridY (g.tri k') g.n j = (triDerivOf (g.tri k')).yr := congrArg Deriv.yr hd
      have e2 : ∑ j ∈ Finset.range g.np, msum g.np gc.interp.at' g.o.d.Ds.at' 0 j * gridY (g.tri k') g.n j = (triDerivOf (g.tri k')).ys := congrArg Deriv.ys hd
      rw [e1, e2]
      simp only [metricBy]
      norm_num
      field_simp
      linarith
  have big : ∀ (k' b : ℕ) (X : ℕ → ℝ), b < 2 → (X = if b = 0 then fun j => gridX (g.tri k') g.n j else fun j => gridY (g.tri k') g.n j) →
      10 * eps * ∑ j ∈ Finset.range g.np, |X j| < cross (g.tri k') / cross (g.tri k) →
      ¬ normMax NG g.np (cart (fun _ => triDerivOf (g.tri k')) (fun _ => cross (g.tri k) / 4) (msum g.np gc.interp.at' g.o.d.Dr.at') (msum g.np gc.interp.at' g.o.d.Ds.at') b) < 10 * eps := by
    intro k' b X hb hX hlt hsmall
    have h1 := main k' b X hb hX
    have h2 : cross (g.tri k') / cross (g.tri k) ≤ 10 * eps * ∑ j ∈ Finset.range g.np, |X j| := by
      rw [← h1]
      refine (le_abs_self _).trans ((Finset.abs_sum_le_sum_abs _ _).trans ?_)
      rw [Finset.mul_sum]
      refine Finset.sum_le_sum fun j hj => ?_
      rw [abs_mul]
      exact mul_le_mul_of_nonneg_right ((normMax_ge _ _ _ _ _ (by omega) (Finset.mem_range.1 hj)).trans hsmall.le) (abs_nonneg _)
    linarith
  unfold TooSmall
  rintro (h1 | ⟨b, hb, h1⟩)
  · have : cross (g.tri k) / 4 ≤ normFro NG (fun _ => cross (g.tri k) / 4) := by
      unfold normFro
      refine Real.le_sqrt_of_sq_le ?_
      rw [Finset.sum_const, Finset.card_range, nsmul_eq_mul]
      have : (1 : ℝ) ≤ NG := by exact_mod_cast hNG
      nlinarith [mul_self_nonneg (cross (g.tri k) / 4)]
    linarith
  · rcases (by omega : b = 0 ∨ b = 1) with rfl | rfl
    · rcases h1 with h1 | h1
      · exact big k 0 _ (by omega) rfl (hx _ (Or.inl rfl)) h1
      · exact big k2 0 _ (by omega) rfl (hx _ (Or.inr rfl)) h1
    · rcases h1 with h1 | h1
      · exact big k 1 _ (by omega) rfl (hy _ (Or.inl rfl)) h1
      · exact big k2 1 _ (by omega) rfl (hy _ (Or.inr rfl)) h1

/-! ### The unit square cut into two triangles, order one, one Gauss point, cubature of degree two -/

theorem square_contexts (t : List Int) (ht : 6 ≤ t.length) : ∃ g gc cc, Provisioned exactLapack (1 / 2 ^ 52) 1e-10 1e-5 1 (squareTags t) twoTri g ∧ g.np = 3 ∧ g.K = 2 ∧ GaussSpec g twoTri t 1 gc ∧
    Ctx.buildGauss exactLapack (1 / 2 ^ 52) g (squareTags t) 1 = .ok gc ∧ CubatureSpec g 2 cc ∧ Ctx.buildCubature exactLapack Dense.exactPotrf g 2 = .ok cc ∧
    ∃ op mm, cubOperator (1 / 2 ^ 52) g (squareTags t) gc cc = .ok (op, mm) := by
  obtain ⟨g, hg, h1, h2, htri, p0, p1, p2⟩ := squareTags_grid t ht
  obtain ⟨x, hs, hN, hK, -⟩ := hg.spec
  obtain ⟨gc, hb, hgc⟩ := Ctx.C94_one hg
  have hw : Cub.Works 2 ((Cub.triples Cub.vals1).map Cub.real) := Cub.works (rule := ⟨3, Cub.vals1⟩) rfl Cub.check1
  obtain ⟨cc, hcb, -, hcc⟩ := Ctx.C93_returns_partial hs (Ctx.solves_of_ok Nodes1D.exactLapack_ok.gesv) Dense.exactPotrf_full 2 _ hw (by
    intro p hp hv
    rw [hN] at hp
    rw [Ctx.affine p hp] at hv ⊢
    generalize coeff 0 p = a at *
    generalize coeff (Finsupp.single 0 1) p = b at *
    generalize coeff (Finsupp.single 1 1) p = c at *
    simp only [Cub.vals1, Cub.triples, Cub.real, List.map_cons, List.map_nil, List.mem_cons, List.not_mem_nil, or_false, forall_eq_or_imp, forall_eq] at hv
    simp only [map_add, map_mul, eval_C, eval_X, Matrix.cons_val_zero, Matrix.cons_val_one, Matrix.cons_val_fin_one] at hv
    norm_num at hv
    have h1 : b = 0 := by linarith [hv.1, hv.2.1, hv.2.2]
    have h2 : c = 0 := by linarith [hv.1, hv.2.1, hv.2.2]
    have h3 : a = 0 := by rw [h1, h2] at hv; linarith [hv.1]
    rw [h1, h2, h3]
    simp) (Or.inl (by rw [h1]; rfl))
  refine ⟨g, gc, cc, hg, h1, h2, hgc, hb, hcc, hcb, ?_⟩
  rcases C103_forms_partial hg (square_fits h1 h2 _) hgc hcc with ⟨-, e, he, hsm⟩ | ⟨-, op, mm, -, -, h, -⟩
  · exfalso
    rw [h2] at he
    have hPe := hs.lt e (by rw [h2]; exact he)
    rw [h2] at hPe
    have t0 : g.tri 0 = ⟨0, 0, 1, 0, 0, 1⟩ := by rw [htri 0 (by omega)]; simp [SW.Mesh.tri, SW.Mesh.corner, SW.square]
    have t1 : g.tri 1 = ⟨1, 0, 1, 1, 0, 1⟩ := by rw [htri 1 (by omega)]; simp [SW.Mesh.tri, SW.Mesh.corner, SW.square]
    have two : ∀ k < 2, g.tri k = ⟨0, 0, 1, 0, 0, 1⟩ ∨ g.tri k = ⟨1, 0, 1, 1, 0, 1⟩ := by
      intro k hk
      rcases (by omega : k = 0 ∨ k = 1) with rfl | rfl
      · exact Or.inl t0
      · exact Or.inr t1
    have hcr : ∀ k < 2, cross (g.tri k) = 1 := by
      intro k hk
      rcases two k hk with h | h <;> rw [h] <;> norm_num [cross]
    have hX : ∀ k < 2, ∑ j ∈ Finset.range g.np, |gridX (g.tri k) g.n j| ≤ 3 ∧ ∑ j ∈ Finset.range g.np, |gridY (g.tri k) g.n j| ≤ 3 := by
      intro k hk
      rw [h1]
      simp only [Finset.sum_range_succ, Finset.sum_range_zero, zero_add, SW.gridX, SW.gridY, p0.1, p0.2, p1.1, p1.2, p2.1, p2.2]
      rcases two k hk with h | h <;> rw [h] <;> norm_num [triCoord]
    refine not_tooSmall hs hgc (le_refl _) (1 / 2 ^ 52) (k := e / 3) (k2 := twoTri e / 3) (by omega) (by rw [hcr _ (by omega)]; norm_num) ?_ ?_ hsm
    · rintro T (rfl | rfl)
      · rw [hcr _ (by omega)]; nlinarith [(hX (e / 3) (by omega)).1]
      · rw [hcr _ (by omega), hcr _ (by omega)]; nlinarith [(hX (twoTri e / 3) (by omega)).1]
    · rintro T (rfl | rfl)
      · rw [hcr _ (by omega)]; nlinarith [(hX (e / 3) (by omega)).2]
      · rw [hcr _ (by omega), hcr _ (by omega)]; nlinarith [(hX (twoTri e / 3) (by omega)).2]
  · exact ⟨op, mm, h⟩

/-- The refutation on the square with walls around: the contexts and the operator are built, and constants have negative energy. -/
theorem C103_square : ∃ g gc cc op mm A, Provisioned exactLapack (1 / 2 ^ 52) 1e-10 1e-5 1 (squareTags [3, 0, 3, 3, 3, 0]) twoTri g ∧
    Ctx.buildGauss exactLapack (1 / 2 ^ 52) g (squareTags [3, 0, 3, 3, 3, 0]) 1 = .ok gc ∧ Ctx.buildCubature exactLapack Dense.exactPotrf g 2 = .ok cc ∧
    cubOperator (1 / 2 ^ 52) g (squareTags [3, 0, 3, 3, 3, 0]) gc cc = .ok (op, mm) ∧ Represents op A ∧ op.n = 6 ∧ mat op.n A *ᵥ (fun _ => 1) ≠ 0 ∧ ¬ ∀ u : Fin op.n → ℝ, 0 ≤ u ⬝ᵥ mat op.n A *ᵥ u := by
  obtain ⟨g, gc, cc, hg, h1, h2, hgc, hb, hcc, hcb, op, mm, hop⟩ := square_contexts [3, 0, 3, 3, 3, 0] (by decide)
  rcases C103_forms_partial hg (square_fits h1 h2 _) hgc hcc with ⟨e, -⟩ | ⟨-, op', mm', A, M, e, d1, d2, -, -, r1, -⟩
  · rw [e] at hop; simp at hop
  · have := C103_constants_refuted hg (square_fits h1 h2 _) hgc hcc (by
        intro e he; rw [h2] at he
        have he : e < 6 := he
        interval_cases e <;> simp [tagOf, squareTags]) ⟨1, by omega, by simp [tagOf, squareTags], by simp [tagOf, squareTags]⟩ op' mm' e A r1
    exact ⟨g, gc, cc, op', mm', A, hg, hb, hcb, e, r1, by rw [d2, h1, h2], this.2⟩

/-- The case in which the operator is the cubature of `∇U·∇V`, on the square: all faces tagged wall. -/
example : ∃ g gc cc op mm A, cubOperator (1 / 2 ^ 52) g (squareTags [3, 7, 3, 3, 3, 7]) gc cc = .ok (op, mm) ∧ Represents op A ∧
    ∀ v u V U, HasNodes g v V → HasNodes g u U → bil 6 A v u = ∑ k ∈ Finset.range 2, cubGrad cc k (V k) (U k) := by
  obtain ⟨g, gc, cc, hg, h1, h2, hgc, hb, hcc, hcb, op, mm, hop⟩ := square_contexts [3, 7, 3, 3, 3, 7] (by decide)
  rcases C103_forms_partial hg (square_fits h1 h2 _) hgc hcc with ⟨e, -⟩ | ⟨-, op', mm', A, M, e, d1, d2, -, -, r1, -, -, hv, -⟩
  · rw [e] at hop; simp at hop
  · have := hv (by
        intro e he; rw [h2] at he
        have he : e < 6 := he
        interval_cases e <;> simp [tagOf, squareTags])
    rw [h1, h2] at this
    exact ⟨g, gc, cc, op', mm', A, e, r1, this⟩

end Blitzdg.Poisson
