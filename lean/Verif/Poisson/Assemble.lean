import Verif.Poisson.Model
import Verif.Sparse.CscProps
import Verif.Blitz.ReshapeProps
import Mathlib.Tactic.LinearCombination

/-! The assembly loops: every insertion lands inside the allocated storage, and the bilinear form of the triplets is the sum of the forms of the blocks. -/

namespace Blitzdg.Poisson

open Blitzdg.Sparse
open Blitzdg.Nodes1D (Lapack)
open Blitzdg.DG2D

/-! ### Bilinear forms -/

/-- `vᵀ A u` for the leading `n × n` part of `A`. -/
def bil (n : ℕ) (A : ℕ → ℕ → ℝ) (v u : ℕ → ℝ) : ℝ := ∑ i ∈ Finset.range n, ∑ j ∈ Finset.range n, v i * (A i j * u j)

/-- `vᵀ A u` from coordinate entries. -/
def form (es : List (ℕ × ℕ × ℝ)) (v u : ℕ → ℝ) : ℝ := (es.map fun e => v e.1 * (e.2.2 * u e.2.1)).sum

theorem form_append (es es' : List (ℕ × ℕ × ℝ)) (v u : ℕ → ℝ) : form (es ++ es') v u = form es v u + form es' v u := by
  unfold form; rw [List.map_append, List.sum_append]

theorem cooVal_cons (e : ℕ × ℕ × ℝ) (es : List (ℕ × ℕ × ℝ)) (i j : ℕ) :
    cooVal (e :: es) i j = (if e.1 = i ∧ e.2.1 = j then e.2.2 else 0) + cooVal es i j := by
  unfold cooVal
  rw [List.filter_cons]
  by_cases h : e.1 = i ∧ e.2.1 = j
  · simp [h]
  · simp [h]

theorem form_eq (n : ℕ) (es : List (ℕ × ℕ × ℝ)) (h : ∀ e ∈ es, e.1 < n ∧ e.2.1 < n) (v u : ℕ → ℝ) : bil n (cooVal es) v u = form es v u := by
  induction es with
  | nil => unfold bil form cooVal; simp
  | cons e es ih =>
    have h1 := h e List.mem_cons_self
    rw [show form (e :: es) v u = v e.1 * (e.2.2 * u e.2.1) + form es v u from rfl, ← ih fun e he => h e (List.mem_cons_of_mem _ he)]
    unfold bil
    have e1 : ∀ i j, v i * (cooVal (e :: es) i j * u j) = (if e.1 = i then (if e.2.1 = j then v i * (e.2.2 * u j) else 0) else 0) + v i * (cooVal es i j * u j) := by
      intro i j
      rw [cooVal_cons]
      by_cases h2 : e.1 = i <;> by_cases h3 : e.2.1 = j <;> (simp [h2, h3]; try ring)
    simp only [e1, Finset.sum_add_distrib]
    congr 1
    rw [Finset.sum_eq_single e.1]
    · simp only [if_true]
      rw [Finset.sum_eq_single e.2.1]
      · simp
      · intro b _ hb; rw [if_neg (Ne.symm hb)]
      · intro hb; exact absurd (Finset.mem_range.2 h1.2) hb
    · intro b _ hb
      simp only [if_neg (Ne.symm hb), Finset.sum_const_zero]
    · intro hb; exact absurd (Finset.mem_range.2 h1.1) hb

/-- Entries can be read off the bilinear form. -/
theorem bil_single (n : ℕ) (A : ℕ → ℕ → ℝ) (i j : ℕ) (hi : i < n) (hj : j < n) : bil n A (fun a => if a = i then 1 else 0) (fun b => if b = j then 1 else 0) = A i j := by
  unfold bil
  rw [Finset.sum_eq_single i, Finset.sum_eq_single j]
  · simp
  · intro b _ hb; simp [hb]
  · intro hb; exact absurd (Finset.mem_range.2 hj) hb
  · intro b _ hb; simp [hb]
  · intro hb; exact absurd (Finset.mem_range.2 hi) hb

theorem sum_rowMajor (m n : ℕ) (f : ℕ × ℕ → ℝ) : ((rowMajor m n).map f).sum = ∑ i ∈ Finset.range m, ∑ j ∈ Finset.range n, f (i, j) := by
  induction m with
  | zero => simp [rowMajor]
  | succ m ih =>
    have e : rowMajor (m + 1) n = rowMajor m n ++ (List.range n).map fun j => (m, j) := by
      unfold rowMajor; rw [List.range_succ, List.flatMap_append]; simp
    rw [e, List.map_append, List.sum_append, ih, Finset.sum_range_succ, List.map_map]
    congr 1

/-! ### Storage -/

/-- The triplet of declared size `n × n` has room for `cap` entries, `used` at most are taken, all inside the matrix, and their bilinear form is `φ`. -/
def Asm (t : Triplet ℝ) (n cap used : ℕ) (φ : (ℕ → ℝ) → (ℕ → ℝ) → ℝ) : Prop :=
  ∃ es : List (ℕ × ℕ × ℝ), Holds t (asInt es) ∧ es.length = used ∧ (∀ e ∈ es, e.1 < n ∧ e.2.1 < n) ∧ (∀ v u, form es v u = φ v u) ∧ t.rows = n ∧ t.cols = n ∧ t.nzmax = cap

theorem Asm.congr {t : Triplet ℝ} {n cap used used' : ℕ} {φ φ' : (ℕ → ℝ) → (ℕ → ℝ) → ℝ} (h : Asm t n cap used φ) (hu : used = used') (e : ∀ v u, φ v u = φ' v u) : Asm t n cap used' φ' := by
  obtain ⟨es, h1, h2, h3, h4, h5⟩ := h
  exact ⟨es, h1, h2.trans hu, h3, fun v u => (h4 v u).trans (e v u), h5⟩

theorem asm_mk0 (n cap : ℕ) (h : n = 0 → cap = 0) : Asm (mk0 0 n n cap) n cap 0 fun _ _ => 0 := by
  refine ⟨[], holds_mk0 _ _ _ _, rfl, fun e he => (List.not_mem_nil he).elim, fun _ _ => rfl, ?_⟩
  unfold mk0
  by_cases h0 : n = 0
  · subst h0; simp [h rfl]
  · simp [h0]

theorem push_dims {t t' : Triplet ℝ} {r c : Int} {x : ℝ} (h : Sparse.push t r c x = .ok t') : t'.rows = t.rows ∧ t'.cols = t.cols := by
  unfold Sparse.push at h
  simp only [Out.bind_eq_ok, Out.pure_eq, Out.ok.injEq] at h
  obtain ⟨_, -, _, -, _, -, rfl⟩ := h
  exact ⟨rfl, rfl⟩

theorem Asm.insert {t : Triplet ℝ} {n cap used : ℕ} {φ : (ℕ → ℝ) → (ℕ → ℝ) → ℝ} (h : Asm t n cap used φ) (hc : used < cap) (i j : ℕ) (hi : i < n) (hj : j < n) (x : ℝ) :
    ∃ t', insert 0 t ((i : ℕ) : Int) ((j : ℕ) : Int) x = .ok t' ∧ Asm t' n cap (used + 1) fun v u => φ v u + v i * (x * u j) := by
  obtain ⟨es, h1, h2, h3, h4, h5, h6, h7⟩ := h
  have hnn : t.nnz < t.nzmax := by rw [h1.nnz, h7]; simpa [asInt, h2] using hc
  obtain ⟨t', e, hh, hz⟩ := holds_push h1 hnn ((i : ℕ) : Int) ((j : ℕ) : Int) x
  refine ⟨t', ?_, es ++ [(i, j, x)], ?_, ?_, ?_, ?_, ?_⟩
  · unfold Sparse.insert; rw [if_neg (by omega)]; exact e
  · rw [show asInt (es ++ [(i, j, x)]) = asInt es ++ [((i : Int), (j : Int), x)] by simp [asInt]]; exact hh
  · simp [h2]
  · intro e he
    rcases List.mem_append.1 he with he | he
    · exact h3 e he
    · rw [List.mem_singleton.1 he]; exact ⟨hi, hj⟩
  · intro v u; rw [form_append, h4]; simp [form]
  · exact ⟨(push_dims e).1.trans h5, (push_dims e).2.trans h6, hz.trans h7⟩

/-- Global numbering: the values of element `k`. -/
def loc (np : ℕ) (v : ℕ → ℝ) (k i : ℕ) : ℝ := v (i + np * k)

theorem node_lt {np K i k : ℕ} (hi : i < np) (hk : k < K) : i + np * k < np * K := by
  have := Nat.mul_le_mul_left np (Nat.succ_le_of_lt hk)
  rw [Nat.mul_succ] at this; omega

theorem insertBlock_aux (np k k2 K n cap : ℕ) (hk : k < K) (hk2 : k2 < K) (hn : np * K ≤ n) (B : ℕ → ℕ → ℝ) (l : List (ℕ × ℕ)) (hl : ∀ ij ∈ l, ij.1 < np ∧ ij.2 < np) :
    ∀ (t : Triplet ℝ) (used : ℕ) φ, Asm t n cap used φ → used + l.length ≤ cap → ∃ t',
      loopM (fun t ij => Sparse.insert 0 t ((ij.1 + np * k : ℕ) : Int) ((ij.2 + np * k2 : ℕ) : Int) (B ij.1 ij.2)) t l = .ok t' ∧
      Asm t' n cap (used + l.length) fun v u => φ v u + (l.map fun ij => loc np v k ij.1 * (B ij.1 ij.2 * loc np u k2 ij.2)).sum := by
  induction l with
  | nil => intro t used φ h _; exact ⟨t, rfl, h.congr rfl fun v u => by simp⟩
  | cons a l ih =>
    intro t used φ h hc
    have ha := hl a List.mem_cons_self
    simp only [List.length_cons] at hc
    obtain ⟨t1, e1, h1⟩ := h.insert (by omega) (a.1 + np * k) (a.2 + np * k2) ((node_lt ha.1 hk).trans_le hn) ((node_lt ha.2 hk2).trans_le hn) (B a.1 a.2)
    obtain ⟨t2, e2, h2⟩ := ih (fun ij hij => hl ij (List.mem_cons_of_mem _ hij)) t1 _ _ h1 (by omega)
    refine ⟨t2, ?_, h2.congr (by simp only [List.length_cons]; omega) fun v u => ?_⟩
    · rw [loopM_cons, e1, Out.bind_ok, e2]
    · simp only [List.map_cons, List.sum_cons, loc]; ring

theorem rowMajor_len (m n : ℕ) : (rowMajor m n).length = m * n := Blitz.rowMajor_length m n

theorem Asm.block {t : Triplet ℝ} {n cap used : ℕ} {φ : (ℕ → ℝ) → (ℕ → ℝ) → ℝ} (h : Asm t n cap used φ) {np k k2 K : ℕ} (hk : k < K) (hk2 : k2 < K) (hn : np * K ≤ n) (B : ℕ → ℕ → ℝ)
    (hc : used + np * np ≤ cap) :
    ∃ t', insertBlock np k k2 B t = .ok t' ∧ Asm t' n cap (used + np * np) fun v u => φ v u + bil np B (loc np v k) (loc np u k2) := by
  obtain ⟨t', e, h'⟩ := insertBlock_aux np k k2 K n cap hk hk2 hn B (rowMajor np np) (fun ij hij => mem_rowMajor.1 hij) t used φ h (by rw [rowMajor_len]; exact hc)
  refine ⟨t', e, h'.congr (by rw [rowMajor_len]) fun v u => ?_⟩
  rw [sum_rowMajor]
  rfl

theorem loop_pair {α β γ : Type} (f : α → γ → Out α) (g : β → γ → Out β) (l : List γ) : ∀ (a : α) (b : β) (a' : α) (b' : β), loopM f a l = .ok a' → loopM g b l = .ok b' →
    loopM (fun (t : α × β) x => do
      let op ← f t.1 x
      let mm ← g t.2 x
      pure (op, mm)) (a, b) l = .ok (a', b') := by
  induction l with
  | nil =>
    intro a b a' b' h1 h2
    simp only [loopM, Out.ok.injEq] at h1 h2 ⊢
    rw [h1, h2]
  | cons x l ih =>
    intro a b a' b' h1 h2
    rw [loopM_cons] at h1 h2 ⊢
    obtain ⟨a1, e1, h1⟩ := Out.bind_eq_ok.1 h1
    obtain ⟨b1, e2, h2⟩ := Out.bind_eq_ok.1 h2
    simp only [e1, e2, Out.bind_ok]
    exact ih a1 b1 a' b' h1 h2

theorem insertBoth_ok {t s : Triplet ℝ} {n cap used n' cap' used' : ℕ} {φ ψ : (ℕ → ℝ) → (ℕ → ℝ) → ℝ} (h : Asm t n cap used φ) (h' : Asm s n' cap' used' ψ) {np k K : ℕ} (hk : k < K)
    (hn : np * K ≤ n) (hn' : np * K ≤ n') (A M : ℕ → ℕ → ℝ) (hc : used + np * np ≤ cap) (hc' : used' + np * np ≤ cap') :
    ∃ t', insertBoth np k A M (t, s) = .ok t' ∧ (Asm t'.1 n cap (used + np * np) fun v u => φ v u + bil np A (loc np v k) (loc np u k)) ∧
      Asm t'.2 n' cap' (used' + np * np) fun v u => ψ v u + bil np M (loc np v k) (loc np u k) := by
  obtain ⟨t1, e1, g1⟩ := h.block hk hk hn A hc
  obtain ⟨t2, e2, g2⟩ := h'.block hk hk hn' M hc'
  exact ⟨(t1, t2), loop_pair _ _ _ _ _ _ _ e1 e2, g1, g2⟩

/-! ### Faces, elements -/

theorem bil_add (n : ℕ) (A B : ℕ → ℕ → ℝ) (v u : ℕ → ℝ) : bil n (fun i j => A i j + B i j) v u = bil n A v u + bil n B v u := by
  unfold bil
  simp only [← Finset.sum_add_distrib]
  exact Finset.sum_congr rfl fun i _ => Finset.sum_congr rfl fun j _ => by ring

theorem bil_smul (n : ℕ) (a : ℝ) (A : ℕ → ℕ → ℝ) (v u : ℕ → ℝ) : bil n (fun i j => a * A i j) v u = a * bil n A v u := by
  unfold bil
  simp only [Finset.mul_sum]
  exact Finset.sum_congr rfl fun i _ => Finset.sum_congr rfl fun j _ => by ring

theorem bil_sub (n : ℕ) (A B : ℕ → ℕ → ℝ) (v u : ℕ → ℝ) : bil n (fun i j => A i j - B i j) v u = bil n A v u - bil n B v u := by
  unfold bil
  simp only [← Finset.sum_sub_distrib]
  exact Finset.sum_congr rfl fun i _ => Finset.sum_congr rfl fun j _ => by ring

/-- What a face contributes to the operator, according to its tag: nothing for 7 and 3. -/
noncomputable def faceForm (np nfp : ℕ) (tag : Int) (F : Face) (v u u2 : ℕ → ℝ) : ℝ :=
  if tag = 6 then bil np (F.own np) v u
  else if tag = 7 ∨ tag = 3 then 0
  else 0.5 * bil np (F.own np) v u + bil np (F.cross np nfp).at' v u2

variable {c : Ctx} {ME : ℕ → DMat ℝ} {F : ℕ → ℕ → Face} {tag : ℕ → ℕ → Int}

/-- All faces can be set up. -/
structure Ready (c : Ctx) (ME : ℕ → DMat ℝ) (F : ℕ → ℕ → Face) (tag : ℕ → ℕ → Int) : Prop where
  face : ∀ k < c.K, ∀ f < c.nf, c.face ME k f = .ok (F k f)
  k2 : ∀ k < c.K, ∀ f < c.nf, (F k f).k2 < c.K
  tag : ∀ k < c.K, ∀ f < c.nf, rd c.bc (c.nf * k + f) = .ok (tag k f)

theorem Ready.faces (h : Ready c ME F tag) (k : ℕ) (hk : k < c.K) {n cap used : ℕ} {φ : (ℕ → ℝ) → (ℕ → ℝ) → ℝ} (t : Triplet ℝ) (ht : Asm t n cap used φ) (hn : c.Np * c.K ≤ n) (m : ℕ)
    (hm : m ≤ c.nf) (hc : used + m * (c.Np * c.Np) ≤ cap) :
    ∃ A t' used' φ', loopM (c.faceStep ME k) (c.stiff k, t) (List.range m) = .ok (A, t') ∧ used' ≤ used + m * (c.Np * c.Np) ∧ Asm t' n cap used' φ' ∧
      ∀ v u, φ' v u + bil c.Np A (loc c.Np v k) (loc c.Np u k) = φ v u + bil c.Np (c.stiff k) (loc c.Np v k) (loc c.Np u k) +
        ∑ f ∈ Finset.range m, faceForm c.Np c.nfp (tag k f) (F k f) (loc c.Np v k) (loc c.Np u k) (loc c.Np u (F k f).k2) := by
  induction m with
  | zero => exact ⟨_, t, used, φ, rfl, by omega, ht, fun v u => by simp⟩
  | succ m ih =>
    rw [Nat.succ_mul] at hc
    obtain ⟨A, t1, used1, φ1, e1, hu1, h1, g1⟩ := ih (by omega) (by omega)
    have hF := h.face k hk m (by omega)
    have hT := h.tag k hk m (by omega)
    have step : ∀ r, c.faceStep ME k (A, t1) m = .ok r → loopM (c.faceStep ME k) (c.stiff k, t) (List.range (m + 1)) = .ok r := by
      intro r hr
      rw [List.range_succ, loopM_append, e1, Out.bind_ok]
      simp only [loopM, hr, Out.bind_ok]
    by_cases h6 : tag k m = 6
    · refine ⟨fun i j => A i j + (F k m).own c.Np i j, t1, used1, φ1, step _ ?_, by rw [Nat.succ_mul]; omega, h1, ?_⟩
      · unfold Ctx.faceStep; simp only [hF, hT, Out.bind_ok, h6, if_true]; rfl
      · intro v u
        rw [bil_add, Finset.sum_range_succ, faceForm, if_pos h6]; linear_combination g1 v u
    · by_cases h7 : tag k m = 7 ∨ tag k m = 3
      · refine ⟨A, t1, used1, φ1, step _ ?_, by rw [Nat.succ_mul]; omega, h1, ?_⟩
        · unfold Ctx.faceStep; simp only [hF, hT, Out.bind_ok, if_neg h6, if_pos h7]; rfl
        · intro v u
          rw [Finset.sum_range_succ, faceForm, if_neg h6, if_pos h7]; linear_combination g1 v u
      · obtain ⟨t2, e2, h2⟩ := h1.block hk (h.k2 k hk m (by omega)) hn ((F k m).cross c.Np c.nfp).at' (by omega)
        refine ⟨fun i j => A i j + 0.5 * (F k m).own c.Np i j, t2, _, _, step _ ?_, by rw [Nat.succ_mul]; omega, h2, ?_⟩
        · unfold Ctx.faceStep; simp only [hF, hT, Out.bind_ok, if_neg h6, if_neg h7, e2]; rfl
        · intro v u
          rw [bil_add, bil_smul, Finset.sum_range_succ, faceForm, if_neg h6, if_neg h7]; linear_combination g1 v u

/-- What an element contributes to the operator. -/
noncomputable def elemForm (c : Ctx) (F : ℕ → ℕ → Face) (tag : ℕ → ℕ → Int) (k : ℕ) (v u : ℕ → ℝ) : ℝ :=
  bil c.Np (c.stiff k) (loc c.Np v k) (loc c.Np u k) +
    ∑ f ∈ Finset.range c.nf, faceForm c.Np c.nfp (tag k f) (F k f) (loc c.Np v k) (loc c.Np u k) (loc c.Np u (F k f).k2)

/-- What an element contributes to the mass matrix. -/
noncomputable def massForm (c : Ctx) (k : ℕ) (v u : ℕ → ℝ) : ℝ := bil c.Np (fun i j => c.J 0 k * c.mass i j) (loc c.Np v k) (loc c.Np u k)

theorem Ready.elems (h : Ready c ME F tag) {n n' cap cap' : ℕ} (hn : c.Np * c.K ≤ n) (hn' : c.Np * c.K ≤ n') (t s : Triplet ℝ) (ht : Asm t n cap 0 fun _ _ => 0)
    (hs : Asm s n' cap' 0 fun _ _ => 0) (m : ℕ) (hm : m ≤ c.K) (hc : m * ((c.nf + 1) * (c.Np * c.Np)) ≤ cap) (hc' : m * (c.Np * c.Np) ≤ cap') :
    ∃ t' used, loopM (c.elemStep ME) (t, s) (List.range m) = .ok t' ∧ used ≤ m * ((c.nf + 1) * (c.Np * c.Np)) ∧
      (Asm t'.1 n cap used fun v u => ∑ k ∈ Finset.range m, elemForm c F tag k v u) ∧
      Asm t'.2 n' cap' (m * (c.Np * c.Np)) fun v u => ∑ k ∈ Finset.range m, massForm c k v u := by
  induction m with
  | zero => exact ⟨(t, s), 0, rfl, by omega, ht.congr rfl fun v u => by simp, hs.congr (by omega) fun v u => by simp⟩
  | succ m ih =>
    rw [Nat.succ_mul] at hc hc'
    obtain ⟨t1, used, e1, hu, g1, g2⟩ := ih (by omega) (by omega) (by omega)
    have e0 : (c.nf + 1) * (c.Np * c.Np) = c.nf * (c.Np * c.Np) + c.Np * c.Np := Nat.succ_mul _ _
    obtain ⟨A, t2, used2, φ2, e2, hu2, g3, g4⟩ := h.faces m (by omega) t1.1 g1 hn c.nf le_rfl (by omega)
    obtain ⟨t3, e3, g5, g6⟩ := insertBoth_ok g3 g2 (K := c.K) (by omega : m < c.K) hn hn' A (fun i j => c.J 0 m * c.mass i j) (by omega) (by omega)
    refine ⟨t3, _, ?_, ?_, g5.congr rfl fun v u => ?_, g6.congr (by rw [Nat.succ_mul]) fun v u => ?_⟩
    · rw [List.range_succ, loopM_append, e1, Out.bind_ok]
      simp only [loopM, Ctx.elemStep, e2, Out.bind_ok, e3]
    · rw [Nat.succ_mul]; omega
    · rw [g4, Finset.sum_range_succ, elemForm]; ring
    · rw [Finset.sum_range_succ]; rfl

theorem border_aux (dof n cap : ℕ) (hn : dof < n) (l : List ℕ) (hl : ∀ k ∈ l, k < dof) : ∀ (t : Triplet ℝ) (used : ℕ) φ, Asm t n cap used φ → used + 2 * l.length ≤ cap →
    ∃ t', loopM (fun t k => do
      let t ← Sparse.insert 0 t (dof : Int) ((k : ℕ) : Int) 1
      Sparse.insert 0 t ((k : ℕ) : Int) (dof : Int) 1) t l = .ok t' ∧
      Asm t' n cap (used + 2 * l.length) fun v u => φ v u + (l.map fun k => v dof * u k + v k * u dof).sum := by
  induction l with
  | nil => intro t used φ h _; exact ⟨t, rfl, h.congr rfl fun v u => by simp⟩
  | cons a l ih =>
    intro t used φ h hc
    have ha := hl a List.mem_cons_self
    simp only [List.length_cons] at hc
    obtain ⟨t1, e1, h1⟩ := h.insert (by omega) dof a hn (by omega) 1
    obtain ⟨t2, e2, h2⟩ := h1.insert (by omega) a dof (by omega) hn 1
    obtain ⟨t3, e3, h3⟩ := ih (fun k hk => hl k (List.mem_cons_of_mem _ hk)) t2 _ _ h2 (by omega)
    refine ⟨t3, ?_, h3.congr (by simp only [List.length_cons]; omega) fun v u => ?_⟩
    · rw [loopM_cons]; simp only [e1, Out.bind_ok, e2, e3]
    · simp only [List.map_cons, List.sum_cons]; ring

/-- The border of ones. -/
noncomputable def borderForm (bordered : Bool) (dof : ℕ) (v u : ℕ → ℝ) : ℝ := if bordered then ∑ k ∈ Finset.range dof, (v dof * u k + v k * u dof) else 0

/-- The assembly ends normally; no triplet is reallocated. -/
theorem Ready.assemble (la : Lapack) (bordered : Bool) (hME : c.massEdge la = .ok ME) (h : Ready c ME F tag) (h3 : c.nf = 3 ∨ c.nf = 4)
    (hi : (1 + c.nf) * c.Np * c.Np * c.K + (if bordered then 1 else 0) * 2 * (c.Np * c.K) ≤ intMax) (hi' : c.Np * c.K + (if bordered then 1 else 0) ≤ intMax)  :
    ∃ t used, c.assemble la bordered = .ok t ∧
      (Asm t.1 (c.Np * c.K + if bordered then 1 else 0) ((1 + c.nf) * c.Np * c.Np * c.K + (if bordered then 1 else 0) * 2 * (c.Np * c.K)) used fun v u =>
        ∑ k ∈ Finset.range c.K, elemForm c F tag k v u + borderForm bordered (c.Np * c.K) v u) ∧
      Asm t.2 (c.Np * c.K) (c.Np * c.Np * c.K) (c.Np * c.Np * c.K) fun v u => ∑ k ∈ Finset.range c.K, massForm c k v u := by
  have p1 : (1 + c.nf) * c.Np * c.Np * c.K = c.K * ((c.nf + 1) * (c.Np * c.Np)) := by ring
  have p2 : c.Np * c.Np * c.K = c.K * (c.Np * c.Np) := by ring
  have p3 : c.Np * c.Np * c.K ≤ (1 + c.nf) * c.Np * c.Np * c.K := by
    rw [p1, p2]; exact Nat.mul_le_mul_left _ (Nat.le_mul_of_pos_left _ (by omega))
  have hz : c.Np * c.K = 0 → c.Np * c.Np * c.K = 0 ∧ (1 + c.nf) * c.Np * c.Np * c.K = 0 := by
    intro h0
    rcases Nat.mul_eq_zero.1 h0 with h0 | h0 <;> simp [h0]
  obtain ⟨t1, used, e1, hu, g1, g2⟩ := h.elems (n := c.Np * c.K + if bordered then 1 else 0) (n' := c.Np * c.K) (by omega) le_rfl _ _
    (asm_mk0 _ ((1 + c.nf) * c.Np * c.Np * c.K + (if bordered then 1 else 0) * 2 * (c.Np * c.K)) (by
      intro h0
      have h1 : c.Np * c.K = 0 := by omega
      rw [(hz h1).2, h1]; simp))
    (asm_mk0 _ (c.Np * c.Np * c.K) fun h0 => (hz h0).1) c.K le_rfl (by omega) (by omega)
  have a1 : allocTriplet (c.Np * c.K) (c.Np * c.Np * c.K) = .ok (mk0 0 (c.Np * c.K) (c.Np * c.K) (c.Np * c.Np * c.K)) := by
    unfold allocTriplet; rw [if_pos ⟨by omega, by omega⟩]
  have a2 := show allocTriplet (c.Np * c.K + if bordered then 1 else 0) ((1 + c.nf) * c.Np * c.Np * c.K + (if bordered then 1 else 0) * 2 * (c.Np * c.K)) = .ok _ from if_pos ⟨by omega, by omega⟩
  unfold Ctx.assemble
  rw [if_pos h3]
  simp only [hME, Out.bind_ok, a1, a2, e1]
  cases bordered with
  | false =>
    refine ⟨t1, used, rfl, g1.congr rfl fun v u => by simp [borderForm], g2.congr p2.symm fun _ _ => rfl⟩
  | true =>
    obtain ⟨t2, e2, g3⟩ := border_aux (c.Np * c.K) (c.Np * c.K + 1) _ (by omega) (List.range (c.Np * c.K)) (fun k hk => List.mem_range.1 hk) t1.1 used _ g1
      (by simp only [List.length_range, if_true]; omega)
    refine ⟨(t2, t1.2), _, ?_, g3.congr rfl fun v u => ?_, g2.congr p2.symm fun _ _ => rfl⟩
    · simp only [if_true, border, e2, Out.bind_ok]; rfl
    · simp only [borderForm, if_true]; rfl

theorem Asm.csc {t : Triplet ℝ} {n cap used : ℕ} {φ : (ℕ → ℝ) → (ℕ → ℝ) → ℝ} (h : Asm t n cap used φ) :
    ∃ s A, cscOfTriplet t = .ok s ∧ s.m = n ∧ s.n = n ∧ Represents s A ∧ ∀ v u, bil n A v u = φ v u := by
  obtain ⟨es, h1, h2, h3, h4, h5, h6, -⟩ := h
  obtain ⟨s, cols, e1, -, -, -, -, -, g⟩ := C04_triplet t es h1
  obtain ⟨s', e2, d1, d2⟩ := C04_triplet_size t es h1 (fun e he => by rw [h5, h6]; exact h3 e he)
  have : s = s' := by rw [e1] at e2; exact Out.ok.inj e2
  subst this
  exact ⟨s, _, e1, d1.trans h5, d2.trans h6, g, fun v u => (form_eq n es h3 v u).trans (h4 v u)⟩

theorem Ready.build (la : Lapack) (bordered : Bool) (hME : c.massEdge la = .ok ME) (h : Ready c ME F tag) (h3 : c.nf = 3 ∨ c.nf = 4)
    (hi : (1 + c.nf) * c.Np * c.Np * c.K + (if bordered then 1 else 0) * 2 * (c.Np * c.K) ≤ intMax) (hi' : c.Np * c.K + (if bordered then 1 else 0) ≤ intMax) :
    ∃ op mm A M, c.build la bordered = .ok (op, mm) ∧
      op.m = (c.Np * c.K + if bordered then 1 else 0) ∧ op.n = (c.Np * c.K + if bordered then 1 else 0) ∧ mm.m = c.Np * c.K ∧ mm.n = c.Np * c.K ∧
      Represents op A ∧ Represents mm M ∧
      (∀ v u, bil (c.Np * c.K + if bordered then 1 else 0) A v u = ∑ k ∈ Finset.range c.K, elemForm c F tag k v u + borderForm bordered (c.Np * c.K) v u) ∧
      ∀ v u, bil (c.Np * c.K) M v u = ∑ k ∈ Finset.range c.K, massForm c k v u := by
  obtain ⟨t, used, e, g1, g2⟩ := h.assemble la bordered hME h3 hi hi'
  obtain ⟨op, A, e1, d1, d2, r1, f1⟩ := g1.csc
  obtain ⟨mm, M, e2, d3, d4, r2, f2⟩ := g2.csc
  refine ⟨op, mm, A, M, ?_, d1, d2, d3, d4, r1, r2, f1, f2⟩
  unfold Ctx.build
  simp only [e, Out.bind_ok, e1, e2]
  rfl

end Blitzdg.Poisson
