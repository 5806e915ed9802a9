import Mathlib.LinearAlgebra.FiniteDimensional.Basic
import Mathlib.Analysis.InnerProductSpace.PiL2
import Verif.Gmres.Exact
import Verif.Gmres.Control

/-! C33 - C35, C64: GMRES in exact arithmetic. -/

namespace Blitzdg.Gmres

set_option linter.unusedSectionVars false

variable {σ E : Type} [NormedAddCommGroup E] [InnerProductSpace ℝ E]

/-- The callback always succeeds and computes `L`. -/
def Computes (f : Callback σ E) (L : E →ₗ[ℝ] E) : Prop := ∀ s v o, (f s v o).1 = true ∧ (f s v o).2.1 = L v

/-- The Krylov space spanned by r, B r, ..., B^(n-1) r. -/
def krylov (B : E →ₗ[ℝ] E) (r : E) (n : Nat) : Submodule ℝ E := Submodule.span ℝ {x | ∃ k < n, x = (B ^ k) r}

/-! ### Krylov space and basis -/

theorem mem_vspan {V : List E} {n : Nat} {x : E} (hx : x ∈ vspan V n) : ∃ y : Nat → ℝ, x = ∑ j ∈ Finset.range n, y j • V.getD j 0 := by
  unfold vspan at hx
  induction hx using Submodule.span_induction with
  | mem x h =>
    obtain ⟨k, hk, rfl⟩ := h
    refine ⟨fun j => if j = k then 1 else 0, ?_⟩
    rw [Finset.sum_eq_single k]
    · simp
    · intro j _ hj; simp [hj]
    · intro hn; exact absurd (Finset.mem_range.2 hk) hn
  | zero => exact ⟨fun _ => 0, by simp⟩
  | add x y _ _ hx hy =>
    obtain ⟨a, ha⟩ := hx
    obtain ⟨b, hb⟩ := hy
    exact ⟨fun j => a j + b j, by simp only [add_smul, Finset.sum_add_distrib, ha, hb]⟩
  | smul t x _ hx =>
    obtain ⟨a, ha⟩ := hx
    exact ⟨fun j => t * a j, by simp only [mul_smul, ← Finset.smul_sum, ha]⟩

theorem vspan_le {V : List E} {m n : Nat} (h : m ≤ n) : vspan V m ≤ vspan V n := by
  unfold vspan
  refine Submodule.span_mono ?_
  rintro x ⟨k, hk, rfl⟩
  exact ⟨k, by omega, rfl⟩

theorem krylov_le {B : E →ₗ[ℝ] E} {r0 : E} {n : Nat} {c : Cyc σ ℝ E} {q : Nat → E} {e : E} (h : Post B r0 n c q e) :
    krylov B r0 n ≤ vspan c.V n := by
  have hstep : ∀ k, k + 1 < n → ∀ x ∈ vspan c.V (k + 1), B x ∈ vspan c.V (k + 2) := by
    intro k hk x hx
    unfold vspan at hx
    induction hx using Submodule.span_induction with
    | mem x hx =>
      obtain ⟨j, hj, rfl⟩ := hx
      exact vspan_le (by omega) (h.kry j (by omega))
    | zero => rw [map_zero]; exact Submodule.zero_mem _
    | add x y _ _ hx hy => rw [map_add]; exact Submodule.add_mem _ hx hy
    | smul t x _ hx => rw [map_smul]; exact Submodule.smul_mem _ _ hx
  have hpow : ∀ k, k < n → (B ^ k) r0 ∈ vspan c.V (k + 1) := by
    intro k
    induction k with
    | zero =>
      intro hn
      rw [pow_zero, Module.End.one_apply]
      by_cases hr : r0 = 0
      · rw [hr]; exact Submodule.zero_mem _
      · have : r0 = ‖r0‖ • c.V.getD 0 0 := by
          rw [h.v0 hn, smul_smul, mul_one_div_cancel (norm_ne_zero_iff.2 hr), one_smul]
        rw [this]
        exact Submodule.smul_mem _ _ (Submodule.subset_span ⟨0, by omega, rfl⟩)
    | succ k ih =>
      intro hk
      rw [pow_succ', Module.End.mul_apply]
      exact hstep k hk _ (ih (by omega))
  unfold krylov
  refine Submodule.span_le.2 ?_
  rintro x ⟨k, hk, rfl⟩
  exact vspan_le (by omega) (hpow k hk)

/-! ### Breakdown means a singular operator -/

theorem breakdown_singular {A : Arith ℝ E} (hA : Exact A) {B : E →ₗ[ℝ] E} {r0 : E} {i : Nat} {c : Cyc σ ℝ E} {q : Nat → E} {u : E}
    (h : Inv A B r0 i c q u) (w : E) (hw : B (c.V.getD i 0) = w) (hρ : (gOf A i c w).1 = 0) : ¬ Function.Injective B := by
  intro hinj
  obtain ⟨g1, g2, g3⟩ := gOf_spec hA h w
  rw [hρ] at g1
  have ha : (colOf A c w).getD i 0 = 0 := by
    linear_combination (-(colOf A c w).getD i 0) * g3 + (gOf A i c w).2.1 * g1 - (gOf A i c w).2.2 * g2
  have hn : ‖(mgs A c.V w).1‖ = 0 := by
    linear_combination (-‖(mgs A c.V w).1‖) * g3 + (gOf A i c w).2.2 * g1 + (gOf A i c w).2.1 * g2
  have him := image_eq hA h w
  rw [ha, zero_smul, add_zero, norm_eq_zero.1 hn, add_zero] at him
  have hpost := h.post
  have hy := image_comb hpost (fun j => (A.trsv i c.H (colOf A c w)).getD j 0)
  have h1 : ∑ l ∈ Finset.range i, (∑ j ∈ Finset.range i,
      if l ≤ j then hcoef c.H l j * (A.trsv i c.H (colOf A c w)).getD j 0 else 0) • q l =
      ∑ l ∈ Finset.range i, (colOf A c w).getD l 0 • q l := by
    refine Finset.sum_congr rfl fun l hl => ?_
    rw [Finset.mem_range] at hl
    have := hA.trsv i c.H (colOf A c w) h.diag l hl
    simp only [hcoef]
    rw [this]
  have hv := hinj (hy.trans (h1.trans (him.symm.trans hw.symm)))
  have h2 := h.on i (by omega) i (by omega)
  rw [if_pos rfl] at h2
  nth_rewrite 1 [← hv] at h2
  rw [sum_inner] at h2
  have h3 : ∑ j ∈ Finset.range i, inner ℝ ((A.trsv i c.H (colOf A c w)).getD j 0 • c.V.getD j 0) (c.V.getD i 0) = (0 : ℝ) := by
    refine Finset.sum_eq_zero fun j hj => ?_
    rw [Finset.mem_range] at hj
    rw [inner_smul_left, h.on j (by omega) i (by omega), if_neg (by omega), mul_zero]
  rw [h3] at h2
  exact zero_ne_one h2

/-! ### The inner loop -/

theorem innerStep_exact {A : Arith ℝ E} (hA : Exact A) {mv pc : Callback σ E} {L P : E →ₗ[ℝ] E} (hmv : Computes mv L)
    (hpc : Computes pc P) (junk : Nat → E) (tol dtol : ℝ) {r0 : E} {i : Nat} {c : Cyc σ ℝ E} {q : Nat → E} {u : E}
    (h : Inv A (L ∘ₗ P) r0 i c q u) :
    ∃ W, innerStep A mv pc junk tol dtol i c =
      if (gOf A i c (L (P (c.V.getD i 0)))).1 = 0 then .ret .breakdown "H(i,i) = 0" W
      else innerTests A tol dtol (after A (junk (i + 1)) i c (L (P (c.V.getD i 0))) (P (c.V.getD i 0)) W) := by
  have hv : c.V.getD i (junk i) = c.V.getD i 0 := by
    have : i < c.V.length := by rw [h.lenV]; omega
    simp [List.getD, this]
  refine ⟨(callMv mv (callPc pc c.W (c.V.getD i 0) c.pv).2.2 (callPc pc c.W (c.V.getD i 0) c.pv).2.1 c.w).2.2, ?_⟩
  have p1 : (callPc pc c.W (c.V.getD i 0) c.pv).1 = true := (hpc _ _ _).1
  have p2 : (callPc pc c.W (c.V.getD i 0) c.pv).2.1 = P (c.V.getD i 0) := (hpc _ _ _).2
  have m1 : ∀ W o, (callMv mv W (P (c.V.getD i 0)) o).1 = true := fun W o => (hmv _ _ _).1
  have m2 : ∀ W o, (callMv mv W (P (c.V.getD i 0)) o).2.1 = L (P (c.V.getD i 0)) := fun W o => (hmv _ _ _).2
  unfold innerStep
  simp only [hv, p1, p2, m1, m2, Bool.not_true, Bool.false_eq_true, if_false]
  have hd : ((arnoldi A (junk (i + 1)) i c.V c.H c.giv c.s (L (P (c.V.getD i 0)))).2.1.getD i []).getD i A.zero =
      (gOf A i c (L (P (c.V.getD i 0)))).1 := by
    rw [hA.zero]
    exact hcoef_new_diag h (junk (i + 1)) c.pv c.W (L (P (c.V.getD i 0)))
  by_cases hz : (gOf A i c (L (P (c.V.getD i 0)))).1 = 0
  · rw [if_pos (by rw [hd, hA.eq, hz, hA.zero]), if_pos hz]
  · rw [if_neg (by rw [hd, hA.eq, hA.zero]; exact hz), if_neg hz]
    rfl

/-- What the inner loop delivers in exact arithmetic. -/
def InnerExact (A : Arith ℝ E) (B : E →ₗ[ℝ] E) (r0 : E) (tol dtol : ℝ) (n i its0 : Nat) : InnerRes σ ℝ E → Prop
  | .ret f _ _ _ => f = .breakdown ∧ ¬ Function.Injective B
  | .done f iu its c => (∃ q e, Post B r0 iu c q e) ∧
      ((f = .success ∧ c.rnrm ≤ tol ∧ its + 1 = iu ∧ iu ≤ i + n) ∨
       (f = .diverged ∧ tol < c.rnrm ∧ dtol ≤ c.rnrm ∧ its + 1 = iu ∧ iu ≤ i + n) ∨
       (f = .unconverged ∧ iu = i + n ∧ (n = 0 ∧ its = its0 ∨ its + 1 = iu) ∧ ∃ q u, Inv A B r0 iu c q u))

theorem inner_exact {A : Arith ℝ E} (hA : Exact A) {mv pc : Callback σ E} {L P : E →ₗ[ℝ] E} (hmv : Computes mv L)
    (hpc : Computes pc P) (junk : Nat → E) (tol dtol : ℝ) (htol : 0 ≤ tol) {r0 : E} (n : Nat) :
    ∀ (i its : Nat) (c : Cyc σ ℝ E) (q : Nat → E) (u : E), Inv A (L ∘ₗ P) r0 i c q u → i + n + 1 ≤ c.s.length →
      InnerExact A (L ∘ₗ P) r0 tol dtol n i its (innerLoop A mv pc junk tol dtol n i its c) := by
  induction n with
  | zero =>
    intro i its c q u h _
    exact ⟨⟨q, _, h.post⟩, Or.inr (Or.inr ⟨rfl, rfl, Or.inl ⟨rfl, rfl⟩, q, u, h⟩)⟩
  | succ n ih =>
    intro i its c q u h hs
    obtain ⟨W, hst⟩ := innerStep_exact hA hmv hpc junk tol dtol h
    simp only [innerLoop, hst]
    have hw : (L ∘ₗ P) (c.V.getD i 0) = L (P (c.V.getD i 0)) := rfl
    by_cases hz : (gOf A i c (L (P (c.V.getD i 0)))).1 = 0
    · simp only [if_pos hz]
      exact ⟨rfl, breakdown_singular hA h _ hw hz⟩
    · simp only [if_neg hz]
      have hp := after_post hA h (by omega) (junk (i + 1)) (P (c.V.getD i 0)) W _ hw hz
      have hdz := dir_ne_zero hA h (by omega) (junk (i + 1)) (P (c.V.getD i 0)) W _ hz
      have hinv := after_inv hA h (by omega) (junk (i + 1)) (P (c.V.getD i 0)) W _ hw hz
      have hlen : (after A (junk (i + 1)) i c (L (P (c.V.getD i 0))) (P (c.V.getD i 0)) W).s.length = c.s.length := by
        rw [after_s, rotAt_length]
      generalize after A (junk (i + 1)) i c (L (P (c.V.getD i 0))) (P (c.V.getD i 0)) W = c' at *
      unfold innerTests
      simp only [hA.fin, Bool.not_true, Bool.false_eq_true, if_false]
      by_cases h1 : A.le c'.rnrm tol = true
      · simp only [if_pos h1]
        exact ⟨⟨_, _, hp⟩, Or.inl ⟨rfl, (hA.le _ _).1 h1, rfl, by omega⟩⟩
      · have h1' : tol < c'.rnrm := by rw [hA.le] at h1; exact not_le.1 h1
        simp only [if_neg h1]
        by_cases h2 : A.le dtol c'.rnrm = true
        · simp only [if_pos h2]
          exact ⟨⟨_, _, hp⟩, Or.inr (Or.inl ⟨rfl, h1', (hA.le _ _).1 h2, rfl, by omega⟩)⟩
        · simp only [if_neg h2]
          have hI := hinv (hdz (by linarith))
          have := ih (i + 1) i c' _ _ hI (by omega)
          generalize innerLoop A mv pc junk tol dtol n (i + 1) i c' = R at this ⊢
          cases R with
          | ret f msg its' W' => exact this
          | done f iu its' c'' =>
            obtain ⟨a1, a2⟩ := this
            refine ⟨a1, ?_⟩
            rcases a2 with ⟨b1, b2, b3, b4⟩ | ⟨b1, b2, b3, b4, b5⟩ | ⟨b1, b2, b3, b4⟩
            · exact Or.inl ⟨b1, b2, b3, by omega⟩
            · exact Or.inr (Or.inl ⟨b1, b2, b3, b4, by omega⟩)
            · exact Or.inr (Or.inr ⟨b1, by omega, Or.inr (by omega), b4⟩)

/-! ### One cycle -/

/-- The state at the start of a cycle (include/GMRESSolver.hpp lines 280-285) with residual `r`. -/
def cycle0 (A : Arith ℝ E) (m : Nat) (r w pv : E) (W : World σ E) : Cyc σ ℝ E :=
  { V := [A.vscale (A.div A.one (A.nrm r)) r], H := [], giv := [], s := A.nrm r :: List.replicate m A.zero, w := w, pv := pv
    rnrm := A.nrm r, W := W }

theorem cycle0_inv {A : Arith ℝ E} (hA : Exact A) (B : E →ₗ[ℝ] E) (m : Nat) (r w pv : E) (W : World σ E) (hr : r ≠ 0) :
    Inv A B r 0 (cycle0 A m r w pv W) (fun _ => 0) ((1 / ‖r‖) • r) := by
  have hn : ‖r‖ ≠ 0 := norm_ne_zero_iff.2 hr
  have hv : (cycle0 A m r w pv W).V.getD 0 0 = (1 / ‖r‖) • r := by
    simp [cycle0, hA.vscale, hA.div, hA.one, hA.nrm]
  have hu : inner ℝ ((1 / ‖r‖) • r) ((1 / ‖r‖) • r) = (1 : ℝ) := by
    rw [inner_smul_left, inner_smul_right, real_inner_self_eq_norm_sq]
    simp only [RCLike.conj_to_real]
    field_simp
  refine ⟨rfl, rfl, rfl, ?_, hv, ?_, ?_, hu, ?_, ?_, ?_, ?_, ?_, ?_, ?_, ?_⟩
  · intro j hj k hk
    have hj' : j = 0 := by omega
    have hk' : k = 0 := by omega
    rw [hj', hk', hv, hu, if_pos rfl]
  · intro j hj; omega
  · intro j hj; omega
  · intro z hz
    refine ⟨fun j hj => by omega, ?_⟩
    have := hz 0 (Nat.le_refl _)
    rwa [hv] at this
  · intro a _
    show ∑ j ∈ Finset.range 1, _ = _
    rw [Finset.sum_range_one, hv]
    simp [cycle0, rotCol_nil]
  · intro j hj; omega
  · intro j hj; omega
  · intro j hj; omega
  · have : (cycle0 A m r w pv W).s.getD 0 0 = ‖r‖ := by simp [cycle0, hA.nrm]
    rw [this, smul_smul, mul_one_div_cancel hn]
    simp
  · intro l hl
    obtain ⟨k, rfl⟩ : ∃ k, l = k + 1 := ⟨l - 1, by omega⟩
    simp only [cycle0, List.getD_cons_succ, hA.zero]
    rw [List.getD_eq_getElem?_getD, List.getElem?_replicate]
    split <;> rfl
  · simp [cycle0, hA.nrm]

/-- C33 and C34 for the inner iteration: run the inner loop for any number `n ≤ m` of iterations from a residual `r = b - L x ≠ 0`.
If it does not stop because the operator is singular, the quantity tested against the tolerance is the norm of the residual of the iterate
`x + P (V y)` the code would form from the columns so far, and no correction `P z` with `z` in the Krylov space of that many steps has a smaller
residual. -/
theorem cycle_exact {A : Arith ℝ E} (hA : Exact A) {mv pc : Callback σ E} {L P : E →ₗ[ℝ] E} (hmv : Computes mv L)
    (hpc : Computes pc P) (junk : Nat → E) (tol dtol : ℝ) (htol : 0 ≤ tol) (b x w pv : E) (W : World σ E) (n m : Nat) (hnm : n ≤ m)
    (hr : b - L x ≠ 0) (its : Nat) :
    match innerLoop A mv pc junk tol dtol n 0 its (cycle0 A m (b - L x) w pv W) with
    | .ret f _ _ _ => f = .breakdown ∧ ¬ Function.Injective (L ∘ₗ P)
    | .done f iu its' c =>
      b - L (x + P (A.comb iu c.V (A.trsv iu c.H c.s))) = b - L x - (L ∘ₗ P) (A.comb iu c.V (A.trsv iu c.H c.s)) ∧
      c.rnrm = ‖b - L (x + P (A.comb iu c.V (A.trsv iu c.H c.s)))‖ ∧
      (∀ z ∈ krylov (L ∘ₗ P) (b - L x) iu, ‖b - L (x + P (A.comb iu c.V (A.trsv iu c.H c.s)))‖ ≤ ‖b - L (x + P z)‖) ∧
      ((f = .success ∧ c.rnrm ≤ tol ∧ its' + 1 = iu ∧ iu ≤ n) ∨ (f = .diverged ∧ tol < c.rnrm ∧ dtol ≤ c.rnrm ∧ its' + 1 = iu ∧ iu ≤ n) ∨
        (f = .unconverged ∧ iu = n ∧ (n = 0 ∧ its' = its ∨ its' + 1 = iu) ∧ ∃ q u, Inv A (L ∘ₗ P) (b - L x) iu c q u)) := by
  have h := inner_exact hA hmv hpc junk tol dtol htol (r0 := b - L x) n 0 its (cycle0 A m (b - L x) w pv W) _ _
    (cycle0_inv hA (L ∘ₗ P) m (b - L x) w pv W hr) (by simp [cycle0]; omega)
  generalize innerLoop A mv pc junk tol dtol n 0 its (cycle0 A m (b - L x) w pv W) = R at h ⊢
  cases R with
  | ret f msg its' W' => exact h
  | done f iu its' c =>
    obtain ⟨⟨q, e, hp⟩, h2⟩ := h
    have e1 : ∀ z, b - L (x + P z) = b - L x - (L ∘ₗ P) z := by
      intro z
      rw [map_add, LinearMap.comp_apply]
      abel
    simp only [Nat.zero_add] at h2
    refine ⟨e1 _, ?_, ?_, h2⟩
    · rw [e1, image_sol hA hp, hp.rn]
    · intro z hz
      rw [e1, e1, image_sol hA hp]
      obtain ⟨y, rfl⟩ := mem_vspan (krylov_le hp hz)
      exact best hp y

/-! ### The outer loop -/

/-- A family of `n` orthonormal vectors. -/
def HasON (E : Type) [NormedAddCommGroup E] [InnerProductSpace ℝ E] (n : Nat) : Prop := ∃ V : List E, ON V n

/-- State at the start of an outer iteration. -/
structure OX (L : E →ₗ[ℝ] E) (b : E) (tol ρ : ℝ) (S : St σ ℝ E) : Prop where
  r : S.r = b - L S.x
  rn : S.rnrm = ‖b - L S.x‖
  tol : tol < ‖b - L S.x‖
  le : ‖b - L S.x‖ ≤ ρ
  flag : S.out.flag = .unconverged

/-- The new iterate is a best one over the Krylov space of `n` steps from `x`. -/
def Best (L P : E →ₗ[ℝ] E) (b x x' : E) (n : Nat) : Prop :=
  ∀ z ∈ krylov (L ∘ₗ P) (b - L x) n, ‖b - L x'‖ ≤ ‖b - L (x + P z)‖

theorem outerStep_exact {A : Arith ℝ E} (hA : Exact A) {mv pc : Callback σ E} {L P : E →ₗ[ℝ] E} (hmv : Computes mv L)
    (hpc : Computes pc P) (p : Params ℝ) (b : E) (junk : Nat → E) (m : Nat) (bInv tol dtol ρ : ℝ) (htol : 0 ≤ tol) (k : Nat)
    (S : St σ ℝ E) (h : OX L b tol ρ S) :
    match outerStep A mv pc p b junk m bInv tol dtol k S with
    | .ret R => ∃ o, R.out = some o ∧ o.flag = .breakdown ∧ ¬ Function.Injective (L ∘ₗ P) ∧ R.x = S.x ∧ o.relres = bInv * ‖b - L S.x‖
    | .brk S' _ => S'.rnrm = ‖b - L S'.x‖ ∧ (∃ n, n ≤ m ∧ (0 < m → n = S'.out.innerIts + 1) ∧ Best L P b S.x S'.x n) ∧
        ((S'.out.flag = .success ∧ ‖b - L S'.x‖ ≤ tol) ∨ (S'.out.flag = .diverged ∧ tol < ‖b - L S'.x‖ ∧ dtol ≤ ‖b - L S'.x‖) ∨
          (S'.out.flag = .stagnation ∧ tol < ‖b - L S'.x‖ ∧ HasON E (m + 1)))
    | .next S' => S'.r = b - L S'.x ∧ S'.rnrm = ‖b - L S'.x‖ ∧ tol < ‖b - L S'.x‖ ∧ S'.out.flag = .unconverged ∧ HasON E (m + 1) ∧
        (∃ n, n ≤ m ∧ (0 < m → n = S'.out.innerIts + 1) ∧ Best L P b S.x S'.x n) := by
  have hr : b - L S.x ≠ 0 := by
    intro h0
    have := h.tol
    rw [h0, norm_zero] at this
    linarith
  have hc := cycle_exact hA hmv hpc junk tol dtol htol b S.x S.w S.pv S.W m m (Nat.le_refl _) hr S.out.innerIts
  have hcyc : ({ V := [A.vscale (A.div A.one S.rnrm) S.r], H := [], giv := [], s := S.rnrm :: List.replicate m A.zero, w := S.w, pv := S.pv
                 rnrm := S.rnrm, W := S.W } : Cyc σ ℝ E) = cycle0 A m (b - L S.x) S.w S.pv S.W := by
    unfold cycle0
    rw [hA.nrm, ← h.r, h.rn, ← h.r]
  unfold outerStep
  simp only
  rw [hcyc]
  generalize innerLoop A mv pc junk tol dtol m 0 S.out.innerIts (cycle0 A m (b - L S.x) S.w S.pv S.W) = I at hc ⊢
  cases I with
  | ret f msg its W =>
    exact ⟨_, rfl, hc.1, hc.2, rfl, by rw [hA.mul, h.rn]⟩
  | done f iu its c =>
    obtain ⟨c1, c2, c3, c4⟩ := hc
    have hn : iu ≤ m ∧ (0 < m → iu = its + 1) := by
      rcases c4 with ⟨_, _, h1, h2⟩ | ⟨_, _, _, h1, h2⟩ | ⟨_, h1, h2, _⟩ <;> omega
    simp only
    unfold afterInner
    simp only
    have q1 : ∀ v o, (callPc pc c.W v o).1 = true := fun v o => (hpc _ _ _).1
    have q2 : ∀ v o, (callPc pc c.W v o).2.1 = P v := fun v o => (hpc _ _ _).2
    have m1 : ∀ W v o, (callMv mv W v o).1 = true := fun W v o => (hmv _ _ _).1
    have m2 : ∀ W v o, (callMv mv W v o).2.1 = L v := fun W v o => (hmv _ _ _).2
    simp only [q1, q2, m1, m2, Bool.not_true, Bool.false_eq_true, if_false, hA.vadd]
    generalize hx : S.x + P (A.comb iu c.V (A.trsv iu c.H c.s)) = x' at c1 c2 c3 ⊢
    have hbest : Best L P b S.x x' iu := c3
    by_cases hf : f ≠ .unconverged
    · simp only [if_pos hf]
      refine ⟨c2, ⟨iu, hn.1, hn.2, hbest⟩, ?_⟩
      rcases c4 with ⟨h1, h2, _⟩ | ⟨h1, h2, h3, _⟩ | ⟨h1, _⟩
      · exact Or.inl ⟨h1, c2 ▸ h2⟩
      · exact Or.inr (Or.inl ⟨h1, c2 ▸ h2, c2 ▸ h3⟩)
      · exact absurd h1 hf
    · simp only [if_neg hf]
      have hfu : f = .unconverged := Decidable.not_not.1 hf
      obtain ⟨hiu, q, u, hI⟩ : iu = m ∧ ∃ q u, Inv A (L ∘ₗ P) (b - L S.x) iu c q u := by
        rcases c4 with ⟨h1, _⟩ | ⟨h1, _⟩ | ⟨_, h2, _, h3⟩
        · rw [hfu] at h1; cases h1
        · rw [hfu] at h1; cases h1
        · exact ⟨h2, h3⟩
      have hON : HasON E (m + 1) := ⟨c.V, hiu ▸ hI.on⟩
      unfold afterResidual
      simp only [hA.fin, Bool.not_true, Bool.false_eq_true, if_false, hA.vsub, hA.nrm]
      by_cases g1 : A.le ‖b - L x'‖ tol = true
      · simp only [if_pos g1]
        exact ⟨trivial, ⟨iu, hn.1, hn.2, hbest⟩, Or.inl ⟨trivial, (hA.le _ _).1 g1⟩⟩
      · have g1' : tol < ‖b - L x'‖ := by rw [hA.le] at g1; exact not_le.1 g1
        simp only [if_neg g1]
        by_cases g2 : A.le dtol ‖b - L x'‖ = true
        · simp only [if_pos g2]
          exact ⟨trivial, ⟨iu, hn.1, hn.2, hbest⟩, Or.inr (Or.inl ⟨trivial, g1', (hA.le _ _).1 g2⟩)⟩
        · simp only [if_neg g2]
          by_cases g3 : A.stag p.stgTol (P (A.comb iu c.V (A.trsv iu c.H c.s))) x' = true
          · simp only [if_pos g3]
            exact ⟨trivial, ⟨iu, hn.1, hn.2, hbest⟩, Or.inr (Or.inr ⟨trivial, g1', hON⟩)⟩
          · simp only [g3, Bool.false_eq_true, if_false]
            exact ⟨trivial, trivial, g1', hfu, hON, ⟨iu, hn.1, hn.2, hbest⟩⟩

theorem Best.le {L P : E →ₗ[ℝ] E} {b x x' : E} {n : Nat} (h : Best L P b x x' n) : ‖b - L x'‖ ≤ ‖b - L x‖ := by
  have := h 0 (Submodule.zero_mem _)
  rwa [map_zero, add_zero] at this

/-- What a finished run says about its `x`. -/
def Honest (L P : E →ₗ[ℝ] E) (b : E) (bInv tol dtol ρ : ℝ) (m : Nat) (R : Res σ ℝ E) : Prop :=
  ∃ o, R.out = some o ∧ o.relres = bInv * ‖b - L R.x‖ ∧ ‖b - L R.x‖ ≤ ρ ∧
    ((o.flag = .success ∧ ‖b - L R.x‖ ≤ tol) ∨ (o.flag = .diverged ∧ tol < ‖b - L R.x‖ ∧ dtol ≤ ‖b - L R.x‖) ∨
      (o.flag = .stagnation ∧ tol < ‖b - L R.x‖ ∧ HasON E (m + 1)) ∨ (o.flag = .maxits ∧ tol < ‖b - L R.x‖ ∧ HasON E (m + 1)) ∨
      (o.flag = .breakdown ∧ tol < ‖b - L R.x‖ ∧ ¬ Function.Injective (L ∘ₗ P)))

theorem outer_exact {A : Arith ℝ E} (hA : Exact A) {mv pc : Callback σ E} {L P : E →ₗ[ℝ] E} (hmv : Computes mv L)
    (hpc : Computes pc P) (p : Params ℝ) (b : E) (junk : Nat → Nat → E) (m : Nat) (bInv tol dtol ρ : ℝ) (htol : 0 ≤ tol)
    (hmax : 0 < p.maxits.toNat) (S : St σ ℝ E) (h : OX L b tol ρ S) :
    Honest L P b bInv tol dtol ρ m
      (finishOf A mv p b bInv tol (outerLoop A mv pc p b junk m bInv tol dtol p.maxits.toNat 0 S)) := by
  have hfin : ∀ (S' : St σ ℝ E) (t : Bool), S'.rnrm = ‖b - L S'.x‖ → ‖b - L S'.x‖ ≤ ρ →
      ((S'.out.flag = .success ∧ ‖b - L S'.x‖ ≤ tol) ∨ (S'.out.flag = .diverged ∧ tol < ‖b - L S'.x‖ ∧ dtol ≤ ‖b - L S'.x‖) ∨
        (S'.out.flag = .stagnation ∧ tol < ‖b - L S'.x‖ ∧ HasON E (m + 1)) ∨
        (S'.out.flag = .unconverged ∧ tol < ‖b - L S'.x‖ ∧ HasON E (m + 1))) →
      Honest L P b bInv tol dtol ρ m (finish A mv b bInv tol S' t) := by
    intro S' t h1 h2 h3
    have m1 : ∀ W v o, (callMv mv W v o).1 = true := fun W v o => (hmv _ _ _).1
    have m2 : ∀ W v o, (callMv mv W v o).2.1 = L v := fun W v o => (hmv _ _ _).2
    unfold finish
    simp only [m1, m2, if_true, hA.fin, hA.nrm, hA.vsub, hA.mul, Bool.true_and]
    by_cases hc : (if S'.out.flag = .unconverged then Flag.maxits else S'.out.flag) = .success ∧ t = true
    · rw [if_pos hc]
      have hs : S'.out.flag = .success ∧ ‖b - L S'.x‖ ≤ tol := by
        rcases h3 with h | ⟨h, _⟩ | ⟨h, _⟩ | ⟨h, _⟩
        · exact h
        · rw [h] at hc; simp at hc
        · rw [h] at hc; simp at hc
        · rw [h] at hc; simp at hc
      refine ⟨_, rfl, rfl, h2, Or.inl ⟨?_, hs.2⟩⟩
      have : ¬ (A.lt tol ‖b - L S'.x‖ = true) := by rw [hA.lt]; exact not_lt.2 hs.2
      simp only [if_neg this, hs.1]
      rfl
    · rw [if_neg hc]
      refine ⟨_, rfl, by simp only [h1], h2, ?_⟩
      rcases h3 with ⟨h, h4⟩ | ⟨h, h4⟩ | ⟨h, h4⟩ | ⟨h, h4⟩
      · exact Or.inl ⟨by simp [h], h4⟩
      · exact Or.inr (Or.inl ⟨by simp [h], h4⟩)
      · exact Or.inr (Or.inr (Or.inl ⟨by simp [h], h4⟩))
      · exact Or.inr (Or.inr (Or.inr (Or.inl ⟨by simp [h], h4⟩)))
  refine outer_rule A mv pc p b junk m bInv tol dtol p.maxits.toNat
    (fun k S => OX L b tol ρ S ∧ (0 < k → HasON E (m + 1)))
    (fun R => Honest L P b bInv tol dtol ρ m (finishOf A mv p b bInv tol R)) ?_ ?_ p.maxits.toNat 0 S (Nat.zero_add _) ⟨h, fun h => absurd h (Nat.lt_irrefl 0)⟩
  · rintro k S _ ⟨hS, _⟩
    have hst := outerStep_exact hA hmv hpc p b (junk k) m bInv tol dtol ρ htol k S hS
    generalize outerStep A mv pc p b (junk k) m bInv tol dtol k S = R at hst ⊢
    refine ⟨?_, ?_, ?_⟩
    · rintro S' rfl
      obtain ⟨a1, a2, a3, a4, a5, n, _, _, a6⟩ := hst
      exact ⟨⟨a1, a2, a3, le_trans a6.le hS.le, a4⟩, fun _ => a5⟩
    · rintro R' rfl
      obtain ⟨o, a1, a2, a3, a4, a5⟩ := hst
      show Honest L P b bInv tol dtol ρ m R'
      refine ⟨o, a1, by rw [a5, a4], by rw [a4]; exact hS.le, ?_⟩
      exact Or.inr (Or.inr (Or.inr (Or.inr ⟨a2, by rw [a4]; exact hS.tol, a3⟩)))
    · rintro S' t rfl
      obtain ⟨a1, ⟨n, _, _, a2⟩, a3⟩ := hst
      refine hfin S' t a1 (le_trans a2.le hS.le) ?_
      rcases a3 with h | h | h
      · exact Or.inl h
      · exact Or.inr (Or.inl h)
      · exact Or.inr (Or.inr (Or.inl h))
  · rintro S' ⟨hS, hON⟩
    exact hfin S' p.testTrue hS.rn hS.le (Or.inr (Or.inr (Or.inr ⟨hS.flag, hS.tol, hON hmax⟩)))

/-! ### The properties -/

section Props

variable {A : Arith ℝ E} (hA : Exact A) {mv pc : Callback σ E} {L P : E →ₗ[ℝ] E} (hmv : Computes mv L) (hpc : Computes pc P)
  (N : Nat) (w0 pv0 : E) (junk : Nat → Nat → E) (p : Params ℝ) (b x0 : E) (s : σ)

open Classical in
/-- The norm the tolerance is relative to. -/
noncomputable def scaleOf (b : E) : ℝ := if b = 0 then 1 else ‖b‖

include hA in
theorem bnorm_eq : bnorm A b = scaleOf b := by
  unfold bnorm scaleOf
  by_cases hb : b = 0
  · rw [if_pos (by rw [hA.eq, hA.nrm, hA.zero, hb, norm_zero]), if_pos hb, hA.one]
  · rw [if_neg (by rw [hA.eq, hA.nrm, hA.zero]; exact norm_ne_zero_iff.2 hb), if_neg hb, hA.nrm]

theorem scaleOf_pos : 0 < scaleOf b := by
  unfold scaleOf
  by_cases hb : b = 0
  · rw [if_pos hb]; exact one_pos
  · rw [if_neg hb]; exact norm_pos_iff.2 hb

include hA in
theorem convTol_eq : convTol A p b = max (p.relTol * scaleOf b) p.absTol := by
  unfold convTol fmax
  rw [hA.mul, bnorm_eq hA]
  by_cases h : p.relTol * scaleOf b < p.absTol
  · rw [if_pos ((hA.lt _ _).2 h), max_eq_right h.le]
  · rw [if_neg (by rw [hA.lt]; exact h), max_eq_left (not_lt.1 h)]

/-- The parameters `solve` accepts. -/
structure Valid (p : Params ℝ) : Prop where
  k : 1 ≤ p.kspaceSz
  m : 1 ≤ p.maxits
  rel : 0 ≤ p.relTol
  abs : 0 ≤ p.absTol
  div : 0 < p.divTol
  stg : 0 ≤ p.stgTol

include hA in
theorem valid_good (hp : Valid p) : badParams A p = false := by
  unfold badParams
  have e1 : A.lt p.relTol A.zero = false := by
    rw [← Bool.not_eq_true, hA.lt, hA.zero]; exact not_lt.2 hp.rel
  have e2 : A.lt p.absTol A.zero = false := by
    rw [← Bool.not_eq_true, hA.lt, hA.zero]; exact not_lt.2 hp.abs
  have e3 : A.le p.divTol A.zero = false := by
    rw [← Bool.not_eq_true, hA.le, hA.zero]; exact not_le.2 hp.div
  have e4 : A.lt p.stgTol A.zero = false := by
    rw [← Bool.not_eq_true, hA.lt, hA.zero]; exact not_lt.2 hp.stg
  have := hp.k
  have := hp.m
  rw [e1, e2, e3, e4]
  simp
  omega

include hA in
theorem convTol_nonneg (hp : Valid p) : 0 ≤ convTol A p b := by
  rw [convTol_eq hA]
  exact le_trans hp.abs (le_max_right _ _)

theorem iterate_exact (hA : Exact A) (hmv : Computes mv L) (hpc : Computes pc P) (hp : Valid p) (m : Nat) (S : St σ ℝ E)
    (hr : S.r = b - L S.x) (hrn : S.rnrm = ‖b - L S.x‖) (hf : S.out.flag = .unconverged) :
    Honest L P b (1 / scaleOf b) (convTol A p b) (p.divTol * ‖b - L S.x‖) ‖b - L S.x‖ m (iterate A mv pc p b junk m S) := by
  unfold iterate
  simp only [hA.fin, Bool.not_true, Bool.false_eq_true, if_false, hA.mul, hA.div, hA.one, bnorm_eq hA, hrn]
  by_cases h1 : A.le ‖b - L S.x‖ (convTol A p b) = true
  · rw [if_pos h1]
    exact ⟨_, rfl, rfl, le_refl _, Or.inl ⟨rfl, (hA.le _ _).1 h1⟩⟩
  · rw [if_neg h1]
    have h1' : convTol A p b < ‖b - L S.x‖ := by rw [hA.le] at h1; exact not_le.1 h1
    have := hp.m
    exact outer_exact hA hmv hpc p b junk m (1 / scaleOf b) (convTol A p b) (p.divTol * ‖b - L S.x‖) ‖b - L S.x‖
      (convTol_nonneg hA p b hp) (by omega) S ⟨hr, hrn, h1', le_refl _, hf⟩

include hA hmv hpc in
theorem solve_exact (hp : Valid p) :
    Honest L P b (1 / scaleOf b) (max (p.relTol * scaleOf b) p.absTol) (p.divTol * ‖b - L x0‖) ‖b - L x0‖ (min N p.kspaceSz.toNat)
      (solve A mv pc N w0 pv0 junk p b x0 ⟨s, []⟩) := by
  unfold solve
  rw [← convTol_eq hA]
  simp only [valid_good hA p hp, Bool.false_eq_true, if_false]
  have m1 : ∀ W v o, (callMv mv W v o).1 = true := fun W v o => (hmv _ _ _).1
  have m2 : ∀ W v o, (callMv mv W v o).2.1 = L v := fun W v o => (hmv _ _ _).2
  by_cases hx : A.nonzero x0 = true
  · rw [if_pos hx]
    simp only [m1, m2, Bool.not_true, Bool.false_eq_true, if_false]
    exact iterate_exact junk p b hA hmv hpc hp _ _ (hA.vsub _ _) (by rw [hA.nrm, hA.vsub]) rfl
  · rw [if_neg hx]
    have hx0 : x0 = 0 := by
      by_contra h
      exact hx ((hA.nonzero x0).2 h)
    refine iterate_exact junk p b hA hmv hpc hp _ _ ?_ ?_ rfl
    · simp [hx0]
    · simp [hx0, hA.nrm]

include hA hmv hpc in
/-- C33: in exact arithmetic, with a linear operator and preconditioner, the reported relative residual is that of the returned `x`, whatever the
flag; success is reported exactly when the residual is within the tolerance; `true_rnrm`, `inf_or_nan` and the failure flags do not occur;
`breakdown` only occurs for a singular preconditioned operator. -/
theorem C33_reported_residual (hp : Valid p) (R : Res σ ℝ E) (hR : R = solve A mv pc N w0 pv0 junk p b x0 ⟨s, []⟩) :
    ∃ o, R.out = some o ∧ o.relres * scaleOf b = ‖b - L R.x‖ ∧
      (o.flag = .success ↔ ‖b - L R.x‖ ≤ max (p.relTol * scaleOf b) p.absTol) ∧
      (o.flag = .success ∨ o.flag = .diverged ∨ o.flag = .stagnation ∨ o.flag = .maxits ∨ o.flag = .breakdown) ∧
      (o.flag = .breakdown → ¬ Function.Injective (L ∘ₗ P)) := by
  subst hR
  obtain ⟨o, h1, h2, h3, h4⟩ := solve_exact hA hmv hpc N w0 pv0 junk p b x0 s hp
  have hs := (scaleOf_pos b).ne'
  refine ⟨o, h1, ?_, ?_, ?_, ?_⟩
  · rw [h2]; field_simp
  · rcases h4 with ⟨a, b⟩ | ⟨a, b, _⟩ | ⟨a, b, _⟩ | ⟨a, b, _⟩ | ⟨a, b, _⟩
    · exact ⟨fun _ => b, fun _ => a⟩
    all_goals exact ⟨fun h => by (rw [h] at a; cases a), fun h => absurd h (not_le.2 b)⟩
  · rcases h4 with ⟨a, _⟩ | ⟨a, _⟩ | ⟨a, _⟩ | ⟨a, _⟩ | ⟨a, _⟩ <;> simp [a]
  · intro hb
    rcases h4 with ⟨a, _⟩ | ⟨a, _⟩ | ⟨a, _⟩ | ⟨a, _⟩ | ⟨_, _, a⟩
    · rw [hb] at a; cases a
    · rw [hb] at a; cases a
    · rw [hb] at a; cases a
    · rw [hb] at a; cases a
    · exact a

/-- C33, inside a cycle: stop the inner loop after any number `n` of iterations (`n` inner iterations at most are allowed); the number compared with
the tolerance is the residual norm of the iterate formed from the columns computed so far. -/
theorem C33_tested_residual (hA : Exact A) (hmv : Computes mv L) (hpc : Computes pc P) (junk : Nat → E) (tol dtol : ℝ) (htol : 0 ≤ tol)
    (b x w pv : E) (W : World σ E) (n m : Nat) (hnm : n ≤ m) (hr : b - L x ≠ 0) (its : Nat) (f : Flag) (iu its' : Nat) (c : Cyc σ ℝ E)
    (hrun : innerLoop A mv pc junk tol dtol n 0 its (cycle0 A m (b - L x) w pv W) = .done f iu its' c) :
    c.rnrm = ‖b - L (x + P (A.comb iu c.V (A.trsv iu c.H c.s)))‖ := by
  have h := cycle_exact hA hmv hpc junk tol dtol htol b x w pv W n m hnm hr its
  rw [hrun] at h
  exact h.2.1

/-- C34, inside a cycle: the iterate has the smallest residual norm over the Krylov space. -/
theorem C34_cycle_minimal (hA : Exact A) (hmv : Computes mv L) (hpc : Computes pc P) (junk : Nat → E) (tol dtol : ℝ) (htol : 0 ≤ tol)
    (b x w pv : E) (W : World σ E) (n m : Nat) (hnm : n ≤ m) (hr : b - L x ≠ 0) (its : Nat) (f : Flag) (iu its' : Nat) (c : Cyc σ ℝ E)
    (hrun : innerLoop A mv pc junk tol dtol n 0 its (cycle0 A m (b - L x) w pv W) = .done f iu its' c) :
    ∀ z ∈ krylov (L ∘ₗ P) (b - L x) iu, ‖b - L (x + P (A.comb iu c.V (A.trsv iu c.H c.s)))‖ ≤ ‖b - L (x + P z)‖ := by
  have h := cycle_exact hA hmv hpc junk tol dtol htol b x w pv W n m hnm hr its
  rw [hrun] at h
  exact h.2.2.1

include hA hmv hpc in
/-- C34: the residual of the returned `x` is never larger than that of the guess, so with `divTol > 1` the flag `diverged` is impossible. -/
theorem C34_never_worse (hp : Valid p) (R : Res σ ℝ E) (hR : R = solve A mv pc N w0 pv0 junk p b x0 ⟨s, []⟩) :
    ‖b - L R.x‖ ≤ ‖b - L x0‖ ∧ (1 < p.divTol → ∀ o, R.out = some o → o.flag ≠ .diverged) := by
  subst hR
  obtain ⟨o, h1, h2, h3, h4⟩ := solve_exact hA hmv hpc N w0 pv0 junk p b x0 s hp
  refine ⟨h3, ?_⟩
  intro hd o' ho'
  rw [h1, Option.some.injEq] at ho'
  subst ho'
  intro hf
  rcases h4 with ⟨a, _⟩ | ⟨_, a, c⟩ | ⟨a, _⟩ | ⟨a, _⟩ | ⟨a, _⟩
  · rw [hf] at a; cases a
  · have h0 : 0 < ‖b - L x0‖ := lt_of_lt_of_le (lt_of_le_of_lt (le_trans hp.abs (le_max_right _ _)) a) h3
    nlinarith
  · rw [hf] at a; cases a
  · rw [hf] at a; cases a
  · rw [hf] at a; cases a

include hA hmv hpc in
/-- C34, observable for a single cycle: with `maxits = 1`, unless the guess was good enough or the operator is singular, the result is a best
approximation over the Krylov space of `innerIts + 1` steps. -/
theorem C34_first_cycle (hp : Valid p) (h1 : p.maxits = 1) (hN : 0 < N) (R : Res σ ℝ E)
    (hR : R = solve A mv pc N w0 pv0 junk p b x0 ⟨s, []⟩) :
    ∃ o, R.out = some o ∧ (‖b - L x0‖ ≤ max (p.relTol * scaleOf b) p.absTol ∨ o.flag = .breakdown ∨
      ∀ z ∈ krylov (L ∘ₗ P) (b - L x0) (o.innerIts + 1), ‖b - L R.x‖ ≤ ‖b - L (x0 + P z)‖) := by
  have hm0 : 0 < min N p.kspaceSz.toNat := by
    have := hp.k
    omega
  have hfin : ∀ (S' : St σ ℝ E) (t : Bool), ∃ o, (finish A mv b (1 / scaleOf b) (convTol A p b) S' t).out = some o ∧
      o.innerIts = S'.out.innerIts ∧ (finish A mv b (1 / scaleOf b) (convTol A p b) S' t).x = S'.x := by
    intro S' t
    have m1 : ∀ W v o, (callMv mv W v o).1 = true := fun W v o => (hmv _ _ _).1
    unfold finish
    simp only [m1, if_true]
    generalize (if S'.out.flag = .unconverged then Flag.maxits else S'.out.flag) = fl
    by_cases hc : fl = .success ∧ t = true
    · simp only [if_pos hc]; exact ⟨_, rfl, rfl, trivial⟩
    · simp only [if_neg hc]; exact ⟨_, rfl, rfl, trivial⟩
  have key : ∀ (S : St σ ℝ E), S.x = x0 → S.r = b - L S.x → S.rnrm = ‖b - L S.x‖ → S.out.flag = .unconverged →
      ∃ o, (iterate A mv pc p b junk (min N p.kspaceSz.toNat) S).out = some o ∧
        (‖b - L x0‖ ≤ max (p.relTol * scaleOf b) p.absTol ∨ o.flag = .breakdown ∨
      ∀ z ∈ krylov (L ∘ₗ P) (b - L x0) (o.innerIts + 1),
        ‖b - L (iterate A mv pc p b junk (min N p.kspaceSz.toNat) S).x‖ ≤ ‖b - L (x0 + P z)‖) := by
    intro S hx hr hrn hf
    unfold iterate
    simp only [hA.fin, Bool.not_true, Bool.false_eq_true, if_false, hA.mul, hA.div, hA.one, bnorm_eq hA, hrn]
    by_cases g1 : A.le ‖b - L S.x‖ (convTol A p b) = true
    · rw [if_pos g1]
      refine ⟨_, rfl, Or.inl ?_⟩
      rw [hA.le, convTol_eq hA, hx] at g1
      exact g1
    · rw [if_neg g1]
      have g1' : convTol A p b < ‖b - L S.x‖ := by rw [hA.le] at g1; exact not_le.1 g1
      have hst := outerStep_exact hA hmv hpc p b (junk 0) (min N p.kspaceSz.toNat) (1 / scaleOf b) (convTol A p b)
        (p.divTol * ‖b - L S.x‖) ‖b - L S.x‖ (convTol_nonneg hA p b hp) 0 S ⟨hr, hrn, g1', le_refl _, hf⟩
      rw [h1]
      simp only [show (1 : Int).toNat = 1 from rfl, outerLoop]
      generalize outerStep A mv pc p b (junk 0) (min N p.kspaceSz.toNat) (1 / scaleOf b) (convTol A p b)
        (p.divTol * ‖b - L S.x‖) 0 S = Q at hst ⊢
      cases Q with
      | ret R =>
        obtain ⟨o, a1, a2, _⟩ := hst
        exact ⟨o, a1, Or.inr (Or.inl a2)⟩
      | brk S' t =>
        obtain ⟨_, ⟨n, _, a1, a2⟩, _⟩ := hst
        obtain ⟨o, b1, b2, b3⟩ := hfin S' t
        refine ⟨o, b1, Or.inr (Or.inr ?_)⟩
        simp only [finishOf]
        rw [b2, ← a1 hm0, b3, ← hx]
        exact a2
      | next S' =>
        obtain ⟨_, _, _, _, _, n, _, a1, a2⟩ := hst
        obtain ⟨o, b1, b2, b3⟩ := hfin S' p.testTrue
        refine ⟨o, b1, Or.inr (Or.inr ?_)⟩
        simp only [finishOf]
        rw [b2, ← a1 hm0, b3, ← hx]
        exact a2
  subst hR
  unfold solve
  simp only [valid_good hA p hp, Bool.false_eq_true, if_false]
  have m1 : ∀ W v o, (callMv mv W v o).1 = true := fun W v o => (hmv _ _ _).1
  have m2 : ∀ W v o, (callMv mv W v o).2.1 = L v := fun W v o => (hmv _ _ _).2
  by_cases hx : A.nonzero x0 = true
  · rw [if_pos hx]
    simp only [m1, m2, Bool.not_true, Bool.false_eq_true, if_false]
    exact key _ rfl (hA.vsub _ _) (by rw [hA.nrm, hA.vsub]) rfl
  · rw [if_neg hx]
    have hx0 : x0 = 0 := by
      by_contra h
      exact hx ((hA.nonzero x0).2 h)
    refine key _ rfl ?_ ?_ rfl
    · simp [hx0]
    · simp [hx0, hA.nrm]

include hA hmv hpc in
/-- C64: in exact arithmetic, if the Krylov space may be as large as the problem, the preconditioned operator is injective and `divTol > 1`, then
`solve` succeeds: the residual of the returned `x` is within the tolerance. -/
theorem C64_full_gmres_succeeds [FiniteDimensional ℝ E] (hp : Valid p) (hN : N = Module.finrank ℝ E) (hk : (N : Int) ≤ p.kspaceSz)
    (hd : 1 < p.divTol) (hinj : Function.Injective (L ∘ₗ P)) (R : Res σ ℝ E)
    (hR : R = solve A mv pc N w0 pv0 junk p b x0 ⟨s, []⟩) :
    ∃ o, R.out = some o ∧ o.flag = .success ∧ ‖b - L R.x‖ ≤ max (p.relTol * scaleOf b) p.absTol := by
  have hnd := (C34_never_worse hA hmv hpc N w0 pv0 junk p b x0 s hp R hR).2 hd
  subst hR
  obtain ⟨o, h1, h2, h3, h4⟩ := solve_exact hA hmv hpc N w0 pv0 junk p b x0 s hp
  have hno : ¬ HasON E (min N p.kspaceSz.toNat + 1) := by
    rintro ⟨V, hV⟩
    have hmin : min N p.kspaceSz.toNat = N := by omega
    rw [hmin] at hV
    have hon : Orthonormal ℝ (fun j : Fin (N + 1) => V.getD j 0) := by
      rw [orthonormal_iff_ite]
      intro j k
      rw [hV j j.2 k k.2]
      by_cases hjk : j = k
      · simp [hjk]
      · rw [if_neg hjk, if_neg (fun h => hjk (Fin.ext h))]
    have := hon.linearIndependent.fintype_card_le_finrank
    rw [Fintype.card_fin] at this
    omega
  refine ⟨o, h1, ?_⟩
  rcases h4 with h | ⟨a, _⟩ | ⟨_, _, a⟩ | ⟨_, _, a⟩ | ⟨_, _, a⟩
  · exact h
  · exact absurd a (hnd o h1)
  · exact absurd a hno
  · exact absurd a hno
  · exact absurd hinj a

end Props

end Blitzdg.Gmres
