import Verif.Gmres.Model

/-! Control flow of the GMRES solver for arbitrary arithmetic and callbacks (C29 - C32). -/

namespace Blitzdg.Gmres

variable {σ F E : Type}

/-! ### Specification vocabulary: reading a trace -/

/-- Number of matrix-vector products. -/
def mvs (tr : List (Ev E)) : Nat := tr.countP fun e => match e with | .mv _ _ _ => true | _ => false

/-- Number of preconditioner applications. -/
def pcs (tr : List (Ev E)) : Nat := tr.countP fun e => match e with | .pc _ _ _ => true | _ => false

/-- Number of updates of the solution. -/
def upds (tr : List (Ev E)) : Nat := tr.countP fun e => match e with | .upd _ => true | _ => false

/-- The event is not a failed call. -/
def Ev.Fine : Ev E → Prop
  | .mv _ ok _ => ok = true
  | .pc _ ok _ => ok = true
  | .upd _ => True

/-- No call in the trace failed. -/
def AllFine (tr : List (Ev E)) : Prop := ∀ e ∈ tr, e.Fine

/-- The solution after the events, from `x`. -/
def xAfter (x : E) (tr : List (Ev E)) : E := tr.foldl (fun x e => match e with | .upd y => y | _ => x) x

/-- Every update adds to the current solution the output of the successful preconditioner call made just before. -/
def Updates (A : Arith F E) (x0 : E) (tr : List (Ev E)) : Prop :=
  ∀ t1 y t2, tr = t1 ++ .upd y :: t2 → ∃ t inp d, t1 = t ++ [.pc inp true d] ∧ y = A.vadd (xAfter x0 t1) d

/-! ### Lemmas on traces -/

theorem mvs_append (a b : List (Ev E)) : mvs (a ++ b) = mvs a + mvs b := by simp [mvs]
theorem pcs_append (a b : List (Ev E)) : pcs (a ++ b) = pcs a + pcs b := by simp [pcs]
theorem upds_append (a b : List (Ev E)) : upds (a ++ b) = upds a + upds b := by simp [upds]

theorem allFine_append (a b : List (Ev E)) : AllFine (a ++ b) ↔ AllFine a ∧ AllFine b := by
  simp only [AllFine, List.mem_append]
  constructor
  · intro h; exact ⟨fun e he => h e (Or.inl he), fun e he => h e (Or.inr he)⟩
  · rintro ⟨h1, h2⟩ e (he | he)
    · exact h1 e he
    · exact h2 e he

theorem xAfter_append (x : E) (a b : List (Ev E)) : xAfter x (a ++ b) = xAfter (xAfter x a) b := by simp [xAfter]

theorem xAfter_noUpd (x : E) (a : List (Ev E)) (h : upds a = 0) : xAfter x a = x := by
  induction a generalizing x with
  | nil => rfl
  | cons e a ih =>
    cases e with
    | mv i o d => exact ih x (by simpa [upds] using h)
    | pc i o d => exact ih x (by simpa [upds] using h)
    | upd y => simp [upds] at h

theorem upds_split {t t1 t2 : List (Ev E)} {y : E} (h : t = t1 ++ .upd y :: t2) : 0 < upds t := by
  rw [h]; simp only [upds, List.countP_append, List.countP_cons]; simp; omega

theorem Updates.append_noUpd {A : Arith F E} {x0 : E} {a b : List (Ev E)} (h : Updates A x0 a) (hb : upds b = 0) :
    Updates A x0 (a ++ b) := by
  intro t1 y t2 he
  rcases List.append_eq_append_iff.1 he with ⟨c, h1, h2⟩ | ⟨c, h1, h2⟩
  · have := upds_split h2; omega
  · cases c with
    | nil =>
      have := upds_split (t1 := []) h2.symm
      rw [List.nil_append] at this
      omega
    | cons e c =>
      rw [List.cons_append, List.cons.injEq] at h2
      obtain ⟨rfl, h2⟩ := h2
      exact h t1 y c h1

theorem Updates.append_upd {A : Arith F E} {x0 : E} {a : List (Ev E)} (h : Updates A x0 a) {y : E}
    (hy : ∃ t inp d, a = t ++ [.pc inp true d] ∧ y = A.vadd (xAfter x0 a) d) : Updates A x0 (a ++ [.upd y]) := by
  intro t1 z t2 he
  rcases List.append_eq_append_iff.1 he with ⟨c, h1, h2⟩ | ⟨c, h1, h2⟩
  · have hc : c = [] := by
      cases c with
      | nil => rfl
      | cons e c =>
        rw [List.cons_append, List.cons.injEq] at h2
        have := congrArg List.length h2.2
        simp at this
    subst hc
    rw [List.nil_append, List.cons.injEq, Ev.upd.injEq] at h2
    rw [List.append_nil] at h1
    obtain ⟨h2, _⟩ := h2
    subst h1 h2
    exact hy
  · cases c with
    | nil =>
      rw [List.nil_append, List.cons.injEq, Ev.upd.injEq] at h2
      rw [List.append_nil] at h1
      obtain ⟨h2, _⟩ := h2
      subst h1 h2
      exact hy
    | cons e c =>
      rw [List.cons_append, List.cons.injEq] at h2
      obtain ⟨rfl, _⟩ := h2
      exact h t1 z c h1

/-! ### The inner loop -/

/-- What an inner loop of at most `n` iterations from iteration `i` does to the trace `tr`. -/
def InnerSpec (A : Arith F E) (convTol : F) (n i its : Nat) (tr : List (Ev E)) : InnerRes σ F E → Prop
  | .ret f _ its' W => ∃ es, W.tr = tr ++ es ∧ upds es = 0 ∧ mvs es ≤ n ∧ pcs es ≤ n ∧ i ≤ its' ∧ its' < i + n ∧
      ((f = .preconFail ∧ ∃ t inp o, es = t ++ [.pc inp false o] ∧ AllFine t) ∨
       (f = .matvecFail ∧ ∃ t inp o, es = t ++ [.mv inp false o] ∧ AllFine t) ∨
       ((f = .breakdown ∨ f = .infOrNan) ∧ AllFine es))
  | .done f iu its' c => ∃ es, c.W.tr = tr ++ es ∧ upds es = 0 ∧ mvs es ≤ n ∧ pcs es ≤ n ∧ AllFine es ∧
      ((f = .unconverged ∧ iu = i + n ∧ (its' = its ∧ n = 0 ∨ its' + 1 = i + n)) ∨
       ((f = .success ∨ f = .diverged) ∧ i < iu ∧ iu ≤ i + n ∧ its' + 1 = iu ∧ A.fin c.rnrm = true ∧
         (f = .success → A.le c.rnrm convTol = true)))

theorem innerStep_cases (A : Arith F E) (mv pc : Callback σ E) (junk : Nat → E) (convTol divTol : F) (i : Nat) (c : Cyc σ F E) :
    (∃ inp o, ∃ msg W, innerStep A mv pc junk convTol divTol i c = .ret .preconFail msg W ∧ W.tr = c.W.tr ++ [.pc inp false o]) ∨
    (∃ e1 inp o, ∃ msg W, innerStep A mv pc junk convTol divTol i c = .ret .matvecFail msg W ∧
      W.tr = c.W.tr ++ [.pc e1 true inp, .mv inp false o]) ∨
    (∃ e1 d o, ∃ f msg W, innerStep A mv pc junk convTol divTol i c = .ret f msg W ∧ (f = .breakdown ∨ f = .infOrNan) ∧
      W.tr = c.W.tr ++ [.pc e1 true d, .mv d true o]) ∨
    (∃ e1 d o, ∃ f c', innerStep A mv pc junk convTol divTol i c = .brk f c' ∧ (f = .success ∨ f = .diverged) ∧
      A.fin c'.rnrm = true ∧ (f = .success → A.le c'.rnrm convTol = true) ∧ c'.W.tr = c.W.tr ++ [.pc e1 true d, .mv d true o]) ∨
    (∃ e1 d o, ∃ c', innerStep A mv pc junk convTol divTol i c = .next c' ∧ c'.W.tr = c.W.tr ++ [.pc e1 true d, .mv d true o]) := by
  unfold innerStep
  simp only
  generalize hp : callPc pc c.W (c.V.getD i (junk i)) c.pv = p
  have hp2 : p.2.2.tr = c.W.tr ++ [.pc (c.V.getD i (junk i)) p.1 p.2.1] := by rw [← hp]; rfl
  obtain ⟨pok, pout, pW⟩ := p
  simp only at hp2
  cases pok with
  | false =>
    left
    exact ⟨_, _, _, _, rfl, hp2⟩
  | true =>
    right
    simp only [Bool.not_true, Bool.false_eq_true, if_false]
    generalize hm : callMv mv pW pout c.w = m
    have hm2 : m.2.2.tr = c.W.tr ++ [.pc (c.V.getD i (junk i)) true pout, .mv pout m.1 m.2.1] := by
      rw [← hm]; simp [callMv, hp2]
    obtain ⟨mok, mout, mW⟩ := m
    simp only at hm2
    cases mok with
    | false => left; exact ⟨_, _, _, _, _, rfl, hm2⟩
    | true =>
      right
      simp only [Bool.not_true, Bool.false_eq_true, if_false]
      split
      · left; exact ⟨_, _, _, _, _, _, rfl, Or.inl rfl, hm2⟩
      · unfold innerTests
        split
        · left; exact ⟨_, _, _, _, _, _, rfl, Or.inr rfl, hm2⟩
        · next hfin =>
          right
          have hf : ∀ x : Bool, ¬ ((!x) = true) → x = true := by decide
          split
          · next hle => left; exact ⟨_, _, _, _, _, rfl, Or.inl rfl, hf _ hfin, fun _ => hle, hm2⟩
          · split
            · left; exact ⟨_, _, _, _, _, rfl, Or.inr rfl, hf _ hfin, by simp, hm2⟩
            · right; exact ⟨_, _, _, _, rfl, hm2⟩

theorem inner_spec (A : Arith F E) (mv pc : Callback σ E) (junk : Nat → E) (convTol divTol : F) (n : Nat) :
    ∀ (i its : Nat) (c : Cyc σ F E),
      InnerSpec A convTol n i its c.W.tr (innerLoop A mv pc junk convTol divTol n i its c) := by
  induction n with
  | zero =>
    intro i its c
    exact ⟨[], by simp, rfl, Nat.le_refl _, Nat.le_refl _, by simp [AllFine], Or.inl ⟨rfl, rfl, Or.inl ⟨rfl, rfl⟩⟩⟩
  | succ n ih =>
    intro i its c
    simp only [innerLoop]
    rcases innerStep_cases A mv pc junk convTol divTol i c with
      ⟨inp, o, msg, W, h, ht⟩ | ⟨e1, inp, o, msg, W, h, ht⟩ | ⟨e1, d, o, f, msg, W, h, hf, ht⟩ | ⟨e1, d, o, f, c', h, hf, hfin, hle, ht⟩ |
      ⟨e1, d, o, c', h, ht⟩
    · simp only [h]
      refine ⟨_, ht, rfl, Nat.zero_le _, ?_, Nat.le_refl _, by omega, Or.inl ⟨rfl, [], inp, o, rfl, by simp [AllFine]⟩⟩
      simp [pcs]
    · simp only [h]
      refine ⟨_, ht, rfl, ?_, ?_, Nat.le_refl _, by omega,
        Or.inr (Or.inl ⟨rfl, [.pc e1 true inp], inp, o, rfl, by simp [AllFine, Ev.Fine]⟩)⟩ <;> simp [pcs, mvs]
    · simp only [h]
      refine ⟨_, ht, rfl, ?_, ?_, Nat.le_refl _, by omega, Or.inr (Or.inr ⟨hf, by simp [AllFine, Ev.Fine]⟩)⟩ <;> simp [pcs, mvs]
    · simp only [h]
      refine ⟨_, ht, rfl, ?_, ?_, by simp [AllFine, Ev.Fine], Or.inr ⟨hf, by omega, by omega, rfl, hfin, hle⟩⟩ <;> simp [pcs, mvs]
    · simp only [h]
      have := ih (i + 1) i c'
      generalize innerLoop A mv pc junk convTol divTol n (i + 1) i c' = R at this
      cases R with
      | ret f msg its' W =>
        obtain ⟨es, a1, a2, a3, a4, a5, a6, a7⟩ := this
        refine ⟨[.pc e1 true d, .mv d true o] ++ es, by rw [a1, ht, List.append_assoc], ?_, ?_, ?_, by omega, by omega, ?_⟩
        · rw [upds_append, a2]; rfl
        · rw [mvs_append]; simp [mvs] at a3 ⊢; omega
        · rw [pcs_append]; simp [pcs] at a4 ⊢; omega
        · rcases a7 with ⟨b1, t, inp, o', b2, b3⟩ | ⟨b1, t, inp, o', b2, b3⟩ | ⟨b1, b2⟩
          · exact Or.inl ⟨b1, [.pc e1 true d, .mv d true o] ++ t, inp, o', by rw [b2, List.append_assoc],
              (allFine_append _ _).2 ⟨by simp [AllFine, Ev.Fine], b3⟩⟩
          · exact Or.inr (Or.inl ⟨b1, [.pc e1 true d, .mv d true o] ++ t, inp, o', by rw [b2, List.append_assoc],
              (allFine_append _ _).2 ⟨by simp [AllFine, Ev.Fine], b3⟩⟩)
          · exact Or.inr (Or.inr ⟨b1, (allFine_append _ _).2 ⟨by simp [AllFine, Ev.Fine], b2⟩⟩)
      | done f iu its' c'' =>
        obtain ⟨es, a1, a2, a3, a4, a5, a6⟩ := this
        refine ⟨[.pc e1 true d, .mv d true o] ++ es, by rw [a1, ht, List.append_assoc], ?_, ?_, ?_,
          (allFine_append _ _).2 ⟨by simp [AllFine, Ev.Fine], a5⟩, ?_⟩
        · rw [upds_append, a2]; rfl
        · rw [mvs_append]; simp [mvs] at a3 ⊢; omega
        · rw [pcs_append]; simp [pcs] at a4 ⊢; omega
        · rcases a6 with ⟨b1, b2, b3⟩ | ⟨b1, b2, b3, b4, b5, b6⟩
          · exact Or.inl ⟨b1, by omega, by omega⟩
          · exact Or.inr ⟨b1, by omega, by omega, b4, b5, b6⟩

/-! ### The outer loop -/

/-- Rule for the outer loop: `P` holds at the start of every iteration, `Q` of the result. -/
theorem outer_rule (A : Arith F E) (mv pc : Callback σ E) (p : Params F) (b : E) (junk : Nat → Nat → E) (m : Nat)
    (bInv convTol divTol : F) (kmax : Nat) (P : Nat → St σ F E → Prop) (Q : OuterRes σ F E → Prop)
    (step : ∀ k S, k < kmax → P k S →
      (∀ S', outerStep A mv pc p b (junk k) m bInv convTol divTol k S = .next S' → P (k + 1) S') ∧
      (∀ R, outerStep A mv pc p b (junk k) m bInv convTol divTol k S = .ret R → Q (.ret R)) ∧
      (∀ S' t, outerStep A mv pc p b (junk k) m bInv convTol divTol k S = .brk S' t → Q (.brk S' t)))
    (last : ∀ S, P kmax S → Q (.brk S p.testTrue)) :
    ∀ n k S, k + n = kmax → P k S → Q (outerLoop A mv pc p b junk m bInv convTol divTol n k S) := by
  intro n
  induction n with
  | zero =>
    intro k S hk hP
    have : k = kmax := by omega
    subst this
    exact last S hP
  | succ n ih =>
    intro k S hk hP
    obtain ⟨h1, h2, h3⟩ := step k S (by omega) hP
    simp only [outerLoop]
    generalize hR : outerStep A mv pc p b (junk k) m bInv convTol divTol k S = R at *
    cases R with
    | ret R => exact h2 R rfl
    | brk S' t => exact h3 S' t rfl
    | next S' => exact ih (k + 1) S' (by omega) (h1 S' rfl)

/-- The outer loop never ends with `next`. -/
theorem outer_ne_next (A : Arith F E) (mv pc : Callback σ E) (p : Params F) (b : E) (junk : Nat → Nat → E) (m : Nat)
    (bInv convTol divTol : F) (n k : Nat) (S S' : St σ F E) :
    outerLoop A mv pc p b junk m bInv convTol divTol n k S ≠ .next S' := by
  refine outer_rule A mv pc p b junk m bInv convTol divTol (k + n) (fun _ _ => True) (fun R => R ≠ .next S') ?_ ?_ n k S rfl trivial
  · intro k S _ _
    exact ⟨fun _ _ => trivial, fun R _ => by simp, fun S' t _ => by simp⟩
  · intro S _; simp

/-- One outer iteration from trace `S.W.tr`: the ways it can end. -/
theorem outerStep_cases (A : Arith F E) (mv pc : Callback σ E) (p : Params F) (b : E) (junk : Nat → E) (m : Nat)
    (bInv convTol divTol : F) (k : Nat) (S : St σ F E) :
    (∃ R o es, outerStep A mv pc p b junk m bInv convTol divTol k S = .ret R ∧ R.out = some o ∧ R.x = S.x ∧
      R.W.tr = S.W.tr ++ es ∧ upds es = 0 ∧ mvs es ≤ m ∧ pcs es ≤ m + 1 ∧ o.outerIts = k ∧ (o.innerIts < m ∨ o.innerIts = S.out.innerIts) ∧
      ((o.flag = .preconFail ∧ ∃ t inp d, es = t ++ [.pc inp false d] ∧ AllFine t) ∨
       (o.flag = .matvecFail ∧ ∃ t inp d, es = t ++ [.mv inp false d] ∧ AllFine t) ∨
       ((o.flag = .breakdown ∨ o.flag = .infOrNan) ∧ AllFine es))) ∨
    (∃ R o es inp d x' es', outerStep A mv pc p b junk m bInv convTol divTol k S = .ret R ∧ R.out = some o ∧ R.x = x' ∧
      x' = A.vadd S.x d ∧ R.W.tr = S.W.tr ++ (es ++ [.pc inp true d]) ++ [.upd x'] ++ es' ∧ upds es = 0 ∧ AllFine es ∧ mvs es ≤ m ∧
      pcs es ≤ m ∧ o.outerIts = k ∧ (o.innerIts < m ∨ o.innerIts = S.out.innerIts) ∧
      ((o.flag = .matvecFail ∧ ∃ w, es' = [.mv x' false w]) ∨ (o.flag = .infOrNan ∧ ∃ w, es' = [.mv x' true w]))) ∨
    (∃ S' t es inp d x' es', (outerStep A mv pc p b junk m bInv convTol divTol k S = .brk S' t ∨
        outerStep A mv pc p b junk m bInv convTol divTol k S = .next S' ∧ t = p.testTrue) ∧
      S'.x = x' ∧ x' = A.vadd S.x d ∧ S'.W.tr = S.W.tr ++ (es ++ [.pc inp true d]) ++ [.upd x'] ++ es' ∧ upds es = 0 ∧ AllFine es ∧
      mvs es ≤ m ∧ pcs es ≤ m ∧ S'.out.outerIts = k ∧ (S'.out.innerIts < m ∨ S'.out.innerIts = S.out.innerIts) ∧ S'.out.msg = S.out.msg ∧
      ((es' = [] ∧ (S'.out.flag = .success ∨ S'.out.flag = .diverged) ∧ t = p.testTrue ∧ A.fin S'.rnrm = true ∧
          (S'.out.flag = .success → A.le S'.rnrm convTol = true) ∧
          outerStep A mv pc p b junk m bInv convTol divTol k S = .brk S' t) ∨
       (∃ w, es' = [.mv x' true w] ∧ S'.w = w ∧ S'.r = A.vsub b w ∧ S'.rnrm = A.nrm (A.vsub b w) ∧ A.fin S'.rnrm = true ∧
          ((S'.out.flag = .success ∧ t = false ∧ A.le S'.rnrm convTol = true ∧
              outerStep A mv pc p b junk m bInv convTol divTol k S = .brk S' t) ∨
           ((S'.out.flag = .diverged ∨ S'.out.flag = .stagnation) ∧ t = p.testTrue ∧
              outerStep A mv pc p b junk m bInv convTol divTol k S = .brk S' t) ∨
           (S'.out.flag = .unconverged ∧ outerStep A mv pc p b junk m bInv convTol divTol k S = .next S'))))) := by
  unfold outerStep
  simp only
  have hi := inner_spec A mv pc junk convTol divTol m 0 S.out.innerIts
    { V := [A.vscale (A.div A.one S.rnrm) S.r], H := [], giv := [], s := S.rnrm :: List.replicate m A.zero, w := S.w, pv := S.pv
      rnrm := S.rnrm, W := S.W }
  generalize innerLoop A mv pc junk convTol divTol m 0 S.out.innerIts _ = I at hi ⊢
  cases I with
  | ret f msg its W =>
    obtain ⟨es, a1, a2, a3, a4, a5, a6, a7⟩ := hi
    left
    exact ⟨_, _, es, rfl, rfl, rfl, a1, a2, a3, by omega, rfl, Or.inl (by simpa using a6), a7⟩
  | done f iu its c =>
    obtain ⟨es, a1, a2, a3, a4, a5, a6⟩ := hi
    simp only at a1
    have hits : its < m ∨ its = S.out.innerIts := by
      rcases a6 with ⟨_, _, h⟩ | ⟨_, _, _, h, _⟩ <;> omega
    simp only
    unfold afterInner
    simp only
    generalize hq : callPc pc c.W (A.comb iu c.V (A.trsv iu c.H c.s)) c.pv = q
    have hq2 : q.2.2.tr = S.W.tr ++ (es ++ [.pc (A.comb iu c.V (A.trsv iu c.H c.s)) q.1 q.2.1]) := by
      rw [← hq]; simp [callPc, a1]
    obtain ⟨qok, qout, qW⟩ := q
    simp only at hq2
    cases qok with
    | false =>
      left
      refine ⟨_, _, _, rfl, rfl, rfl, hq2, ?_, ?_, ?_, rfl, hits, Or.inl ⟨rfl, es, _, _, rfl, a5⟩⟩
      · rw [upds_append, a2]; rfl
      · rw [mvs_append]; simp [mvs] at a3 ⊢; omega
      · rw [pcs_append]; simp [pcs] at a4 ⊢; omega
    | true =>
      simp only [Bool.not_true, Bool.false_eq_true, if_false]
      by_cases hf : f ≠ .unconverged
      · right; right
        rw [if_pos hf]
        rcases a6 with ⟨h, _⟩ | ⟨h1, h2, h3, h4, h5, h6⟩
        · exact absurd h hf
        · refine ⟨_, _, es, _, _, _, [], Or.inl rfl, rfl, rfl, by rw [hq2, List.append_nil], a2, a5, a3, a4, rfl, hits, rfl,
            Or.inl ⟨rfl, h1, rfl, h5, h6, rfl⟩⟩
      · rw [if_neg hf]
        have hfu : f = .unconverged := Decidable.not_not.1 hf
        generalize hm : callMv mv { qW with tr := qW.tr ++ [.upd (A.vadd S.x qout)] } (A.vadd S.x qout)
          (A.comb iu c.V (A.trsv iu c.H c.s)) = r
        have hm2 : r.2.2.tr = S.W.tr ++ (es ++ [.pc (A.comb iu c.V (A.trsv iu c.H c.s)) true qout]) ++ [.upd (A.vadd S.x qout)] ++
            [.mv (A.vadd S.x qout) r.1 r.2.1] := by
          rw [← hm]; simp [callMv, hq2]
        obtain ⟨mok, mout, mW⟩ := r
        simp only at hm2
        cases mok with
        | false =>
          right; left
          exact ⟨_, _, es, _, _, _, _, rfl, rfl, rfl, rfl, hm2, a2, a5, a3, a4, rfl, hits, Or.inl ⟨rfl, _, rfl⟩⟩
        | true =>
          right
          simp only [Bool.not_true, Bool.false_eq_true, if_false]
          unfold afterResidual
          simp only
          have hb : ∀ x : Bool, ¬ ((!x) = true) → x = true := by decide
          by_cases g1 : (!A.fin (A.nrm (A.vsub b mout))) = true
          · left
            rw [if_pos g1]
            exact ⟨_, _, es, _, _, _, _, rfl, rfl, rfl, rfl, hm2, a2, a5, a3, a4, rfl, hits, Or.inr ⟨rfl, _, rfl⟩⟩
          · right
            rw [if_neg g1]
            by_cases g2 : A.le (A.nrm (A.vsub b mout)) convTol = true
            · rw [if_pos g2]
              exact ⟨_, _, es, _, _, _, _, Or.inl rfl, rfl, rfl, hm2, a2, a5, a3, a4, rfl, hits, rfl,
                Or.inr ⟨_, rfl, rfl, rfl, rfl, hb _ g1, Or.inl ⟨rfl, rfl, g2, rfl⟩⟩⟩
            · rw [if_neg g2]
              by_cases g3 : A.le divTol (A.nrm (A.vsub b mout)) = true
              · rw [if_pos g3]
                exact ⟨_, _, es, _, _, _, _, Or.inl rfl, rfl, rfl, hm2, a2, a5, a3, a4, rfl, hits, rfl,
                  Or.inr ⟨_, rfl, rfl, rfl, rfl, hb _ g1, Or.inr (Or.inl ⟨Or.inl rfl, rfl, rfl⟩)⟩⟩
              · rw [if_neg g3]
                by_cases g4 : A.stag p.stgTol qout (A.vadd S.x qout) = true
                · rw [if_pos g4]
                  exact ⟨_, _, es, _, _, _, _, Or.inl rfl, rfl, rfl, hm2, a2, a5, a3, a4, rfl, hits, rfl,
                    Or.inr ⟨_, rfl, rfl, rfl, rfl, hb _ g1, Or.inr (Or.inl ⟨Or.inr rfl, rfl, rfl⟩)⟩⟩
                · rw [if_neg g4]
                  exact ⟨_, _, es, _, _, _, _, Or.inr ⟨rfl, rfl⟩, rfl, rfl, hm2, a2, a5, a3, a4, rfl, hits, rfl,
                    Or.inr ⟨_, rfl, rfl, rfl, rfl, hb _ g1, Or.inr (Or.inr ⟨hfu, rfl⟩)⟩⟩

end Blitzdg.Gmres
