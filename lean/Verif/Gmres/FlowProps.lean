import Verif.Gmres.Control

/-! C29 - C32: what `GMRESSolver::solve` guarantees for every arithmetic (also with NaN and infinities) and every callback. -/

namespace Blitzdg.Gmres

variable {σ F E : Type}

/-- The facts about a result that hold whatever the arithmetic, for a run that began with trace `[]` on `x0`; `m` is the size of the
Krylov space. -/
structure Facts (A : Arith F E) (p : Params F) (tol : F) (m : Nat) (x0 : E) (R : Res σ F E) (o : GOut F) : Prop where
  some : R.out = some o
  flag : o.flag ≠ .unconverged
  mv : mvs R.W.tr ≤ 1 + p.maxits.toNat * (m + 1)
  pc : pcs R.W.tr ≤ p.maxits.toNat * (m + 1)
  inner : o.innerIts < m ∨ o.innerIts = 0
  outer : o.outerIts < p.maxits.toNat ∨ o.outerIts = 0
  x : R.x = xAfter x0 R.W.tr
  upd : Updates A x0 R.W.tr
  passed : o.flag = .success → ∃ ρ, A.fin ρ = true ∧ A.le ρ tol = true
  calls : (AllFine R.W.tr ∧ o.flag ≠ .preconFail ∧ o.flag ≠ .matvecFail) ∨
    (∃ t inp d, R.W.tr = t ++ [.pc inp false d] ∧ AllFine t ∧ o.flag = .preconFail) ∨
    (∃ t inp d, R.W.tr = t ++ [.mv inp false d] ∧ AllFine t ∧
      (o.flag = .matvecFail ∨
        o.flag = .success ∧ p.testTrue = true ∧ inp = R.x ∧ o.msg = "matvec failed when computing true residual -> test skipped"))

/-- The invariant of the outer loop. -/
structure OInv (A : Arith F E) (m : Nat) (x0 : E) (k : Nat) (S : St σ F E) : Prop where
  mv : mvs S.W.tr ≤ 1 + k * (m + 1)
  pc : pcs S.W.tr ≤ k * (m + 1)
  inner : S.out.innerIts < m ∨ S.out.innerIts = 0
  outer : S.out.outerIts < k ∨ S.out.outerIts = 0
  x : S.x = xAfter x0 S.W.tr
  upd : Updates A x0 S.W.tr
  fine : AllFine S.W.tr
  flag : S.out.flag = .unconverged

/-- What holds when the outer loop is left for `finish`. -/
structure OEnd (A : Arith F E) (p : Params F) (convTol : F) (m : Nat) (x0 b : E) (kmax : Nat) (S : St σ F E) (t : Bool) : Prop where
  mv : mvs S.W.tr ≤ 1 + kmax * (m + 1)
  mvS : S.out.flag = .success → t = true → mvs S.W.tr + 1 ≤ 1 + kmax * (m + 1)
  pc : pcs S.W.tr ≤ kmax * (m + 1)
  inner : S.out.innerIts < m ∨ S.out.innerIts = 0
  outer : S.out.outerIts < kmax ∨ S.out.outerIts = 0
  x : S.x = xAfter x0 S.W.tr
  upd : Updates A x0 S.W.tr
  fine : AllFine S.W.tr
  flag : S.out.flag = .unconverged ∨ S.out.flag = .success ∨ S.out.flag = .diverged ∨ S.out.flag = .stagnation
  test : t = true → p.testTrue = true
  passed : S.out.flag = .success → A.fin S.rnrm = true ∧ A.le S.rnrm convTol = true
  succ : S.out.flag = .success → p.testTrue = true → t = false → ∃ tr w, S.W.tr = tr ++ [.mv S.x true w] ∧
    S.rnrm = A.nrm (A.vsub b w) ∧ A.fin S.rnrm = true ∧ A.le S.rnrm convTol = true

theorem kstep {k kmax m : Nat} (h : k < kmax) : k * (m + 1) + (m + 1) ≤ kmax * (m + 1) := by
  have : (k + 1) * (m + 1) ≤ kmax * (m + 1) := Nat.mul_le_mul_right _ h
  rwa [Nat.add_mul, Nat.one_mul] at this

theorem afterUpd {A : Arith F E} {x0 : E} {S : St σ F E} {k m : Nat} (h : OInv A m x0 k S) {es es' : List (Ev E)} {inp d x' : E}
    (hes : upds es = 0) (hf : AllFine es) (hes' : upds es' = 0) (hx : x' = A.vadd S.x d) (tr : List (Ev E))
    (htr : tr = S.W.tr ++ (es ++ [.pc inp true d]) ++ [.upd x'] ++ es') :
    x' = xAfter x0 tr ∧ Updates A x0 tr ∧ AllFine (S.W.tr ++ (es ++ [.pc inp true d]) ++ [.upd x']) ∧
      mvs tr = mvs S.W.tr + mvs es + mvs es' ∧ pcs tr = pcs S.W.tr + pcs es + 1 + pcs es' := by
  have h0 : upds (es ++ [Ev.pc inp true d]) = 0 := by rw [upds_append, hes]; rfl
  subst htr
  refine ⟨?_, ?_, ?_, ?_, ?_⟩
  · rw [xAfter_append, xAfter_noUpd _ _ hes', xAfter_append]; rfl
  · refine Updates.append_noUpd (Updates.append_upd (h.upd.append_noUpd h0) ⟨S.W.tr ++ es, inp, d, by simp, ?_⟩) hes'
    rw [xAfter_append, xAfter_noUpd _ _ h0, ← h.x, hx]
  · rw [allFine_append, allFine_append, allFine_append]
    exact ⟨⟨h.fine, hf, by simp [AllFine, Ev.Fine]⟩, by simp [AllFine, Ev.Fine]⟩
  · simp only [mvs_append]; simp [mvs]
  · simp only [pcs_append]; simp [pcs]; omega

theorem outer_facts (A : Arith F E) (mv pc : Callback σ E) (p : Params F) (b : E) (junk : Nat → Nat → E) (m : Nat)
    (bInv convTol divTol : F) (x0 : E) (S : St σ F E) (hS : OInv A m x0 0 S) :
    match outerLoop A mv pc p b junk m bInv convTol divTol p.maxits.toNat 0 S with
    | .ret R => ∃ o, Facts A p convTol m x0 R o ∧ o.flag ≠ .success
    | .brk S' t => OEnd A p convTol m x0 b p.maxits.toNat S' t
    | .next _ => False := by
  refine outer_rule A mv pc p b junk m bInv convTol divTol p.maxits.toNat (OInv A m x0)
    (fun R => match R with
      | .ret R => ∃ o, Facts A p convTol m x0 R o ∧ o.flag ≠ .success
      | .brk S' t => OEnd A p convTol m x0 b p.maxits.toNat S' t
      | .next _ => False) ?_ ?_ p.maxits.toNat 0 S (Nat.zero_add _) hS
  · intro k S hk hP
    have hks := kstep (m := m) hk
    have h1 := hP.mv
    have h2 := hP.pc
    have hin := hP.inner
    have hout := hP.outer
    rcases outerStep_cases A mv pc p b (junk k) m bInv convTol divTol k S with
      ⟨R, o, es, e1, e2, e3, e4, e5, e6, e7, e8, e9, e10⟩ |
      ⟨R, o, es, inp, d, x', es', e1, e2, e3, e4, e5, e6, e7, e8, e9, e10, e11, e12⟩ |
      ⟨S', t, es, inp, d, x', es', e1, e2, e3, e4, e5, e6, e7, e8, e9, e10, e11, e12⟩
    · rw [e1]
      refine ⟨by simp, ?_, by simp⟩
      intro R' hR'
      rw [OuterRes.ret.injEq] at hR'
      subst hR'
      refine ⟨o, ⟨e2, ?_, ?_, ?_, by omega, by omega, ?_, ?_, ?_, ?_⟩, ?_⟩
      · rcases e10 with ⟨h, _⟩ | ⟨h, _⟩ | ⟨h | h, _⟩ <;> simp [h]
      · rw [e4, mvs_append]; omega
      · rw [e4, pcs_append]; omega
      · rw [e4, e3, xAfter_append, xAfter_noUpd _ _ e5, hP.x]
      · rw [e4]; exact hP.upd.append_noUpd e5
      · rcases e10 with ⟨h, _⟩ | ⟨h, _⟩ | ⟨h | h, _⟩ <;> simp [h]
      · rcases e10 with ⟨h, t, inp, d, h3, h4⟩ | ⟨h, t, inp, d, h3, h4⟩ | ⟨h, h3⟩
        · exact Or.inr (Or.inl ⟨S.W.tr ++ t, inp, d, by rw [e4, h3, List.append_assoc], (allFine_append _ _).2 ⟨hP.fine, h4⟩, h⟩)
        · exact Or.inr (Or.inr ⟨S.W.tr ++ t, inp, d, by rw [e4, h3, List.append_assoc], (allFine_append _ _).2 ⟨hP.fine, h4⟩,
            Or.inl h⟩)
        · refine Or.inl ⟨by rw [e4]; exact (allFine_append _ _).2 ⟨hP.fine, h3⟩, ?_⟩
          rcases h with h | h <;> simp [h]
      · rcases e10 with ⟨h, _⟩ | ⟨h, _⟩ | ⟨h | h, _⟩ <;> simp [h]
    · rw [e1]
      refine ⟨by simp, ?_, by simp⟩
      intro R' hR'
      rw [OuterRes.ret.injEq] at hR'
      subst hR'
      have hu : upds es' = 0 := by rcases e12 with ⟨_, w, h⟩ | ⟨_, w, h⟩ <;> rw [h] <;> rfl
      have hm : mvs es' = 1 ∧ pcs es' = 0 := by rcases e12 with ⟨_, w, h⟩ | ⟨_, w, h⟩ <;> rw [h] <;> exact ⟨rfl, rfl⟩
      obtain ⟨u1, u2, u3, u4, u5⟩ := afterUpd hP e6 e7 hu e4 R.W.tr e5
      refine ⟨o, ⟨e2, ?_, ?_, ?_, by omega, by omega, by rw [e3]; exact u1, u2, ?_, ?_⟩, ?_⟩
      · rcases e12 with ⟨h, _⟩ | ⟨h, _⟩ <;> simp [h]
      · omega
      · omega
      · rcases e12 with ⟨h, _⟩ | ⟨h, _⟩ <;> simp [h]
      · rcases e12 with ⟨h, w, h3⟩ | ⟨h, w, h3⟩
        · exact Or.inr (Or.inr ⟨_, x', w, by rw [e5, h3], u3, Or.inl h⟩)
        · refine Or.inl ⟨?_, by simp [h]⟩
          rw [e5, h3]
          exact (allFine_append _ _).2 ⟨u3, by simp [AllFine, Ev.Fine]⟩
      · rcases e12 with ⟨h, _⟩ | ⟨h, _⟩ <;> simp [h]
    · have hu : upds es' = 0 := by
        rcases e12 with ⟨h, _⟩ | ⟨w, h, _⟩ <;> rw [h] <;> rfl
      have hm : mvs es' ≤ 1 ∧ pcs es' = 0 := by
        rcases e12 with ⟨h, _⟩ | ⟨w, h, _⟩ <;> rw [h] <;> simp [mvs, pcs]
      obtain ⟨u1, u2, u3, u4, u5⟩ := afterUpd hP e5 e6 hu e3 S'.W.tr e4
      have hfine : AllFine S'.W.tr := by
        rw [e4]
        refine (allFine_append _ _).2 ⟨u3, ?_⟩
        rcases e12 with ⟨h, _⟩ | ⟨w, h, _⟩ <;> rw [h] <;> simp [AllFine, Ev.Fine]
      have hout' : S'.out.outerIts < p.maxits.toNat ∨ S'.out.outerIts = 0 := by omega
      have hin' : S'.out.innerIts < m ∨ S'.out.innerIts = 0 := by omega
      have hbrk : outerStep A mv pc p b (junk k) m bInv convTol divTol k S = .brk S' t →
          (OEnd A p convTol m x0 b p.maxits.toNat S' t) := by
        intro hb
        refine ⟨by omega, ?_, by omega, hin', hout', by rw [e2]; exact u1, u2, hfine, ?_, ?_, ?_, ?_⟩
        · intro hs ht
          rcases e12 with ⟨h, _⟩ | ⟨w, h, _, _, _, _, h3⟩
          · have : mvs es' = 0 := by rw [h]; rfl
            omega
          · rcases h3 with ⟨_, h4, _⟩ | ⟨h4 | h4, _⟩ | ⟨h4, _⟩
            · rw [ht] at h4; cases h4
            · rw [hs] at h4; cases h4
            · rw [hs] at h4; cases h4
            · rw [hs] at h4; cases h4
        · rcases e12 with ⟨_, h | h, _⟩ | ⟨w, h, _, _, _, _, ⟨h3, _⟩ | ⟨h3 | h3, _⟩ | ⟨h3, _⟩⟩ <;> simp [*]
        · intro ht
          rcases e12 with ⟨_, _, h, _⟩ | ⟨w, h, _, _, _, _, ⟨_, h3, _⟩ | ⟨_, h3, _⟩ | ⟨_, h3⟩⟩
          · rw [← h, ht]
          · rw [h3] at ht; cases ht
          · rw [← h3, ht]
          · rw [hb] at h3; cases h3
        · intro hs
          rcases e12 with ⟨_, _, _, h1, h2, _⟩ | ⟨w, h, hw, hr, hn, hfin, ⟨_, h3, h4, _⟩ | ⟨h3 | h3, _⟩ | ⟨h3, _⟩⟩
          · exact ⟨h1, h2 hs⟩
          · exact ⟨hfin, h4⟩
          · rw [hs] at h3; cases h3
          · rw [hs] at h3; cases h3
          · rw [hs] at h3; cases h3
        · intro hs hT ht
          rcases e12 with ⟨_, _, h, _⟩ | ⟨w, h, hw, hr, hn, hfin, ⟨_, h3, h4, _⟩ | ⟨h3 | h3, _⟩ | ⟨h3, _⟩⟩
          · rw [hT, ht] at h; cases h
          · exact ⟨_, w, by rw [e4, h, e2], hn, hfin, h4⟩
          · rw [hs] at h3; cases h3
          · rw [hs] at h3; cases h3
          · rw [hs] at h3; cases h3
      rcases e1 with e1 | ⟨e1, _⟩
      · refine ⟨by simp [e1], by simp [e1], ?_⟩
        intro S'' t' h
        rw [e1, OuterRes.brk.injEq] at h
        obtain ⟨rfl, rfl⟩ := h
        exact hbrk e1
      · refine ⟨?_, by simp [e1], by simp [e1]⟩
        intro S'' h
        rw [e1, OuterRes.next.injEq] at h
        subst h
        rw [e1] at e12
        have hfl : S'.out.flag = .unconverged := by
          rcases e12 with ⟨_, _, _, _, _, h⟩ | ⟨w, h, hw, hr, hn, hfin, ⟨_, _, _, h4⟩ | ⟨_, _, h4⟩ | ⟨h3, _⟩⟩
          · cases h
          · cases h4
          · cases h4
          · exact h3
        refine ⟨?_, ?_, hin', by omega, by rw [e2]; exact u1, u2, hfine, hfl⟩
        · rw [Nat.add_mul]; omega
        · rw [Nat.add_mul]; omega
  · intro S hP
    have := hP.flag
    exact ⟨hP.mv, by simp [this], hP.pc, hP.inner, hP.outer, hP.x, hP.upd, hP.fine, Or.inl this, id, by simp [this], by simp [this]⟩

/-- The tolerance test passed on the residual computed from the product `w`, or it could not be decided against success. -/
def PassedOn (A : Arith F E) (b : E) (tol : F) (w : E) : Prop :=
  (A.fin (A.nrm (A.vsub b w)) = true ∧ A.le (A.nrm (A.vsub b w)) tol = true) ∨
    ¬ (A.fin (A.nrm (A.vsub b w)) = true ∧ A.lt tol (A.nrm (A.vsub b w)) = true)

/-- What success means when the true residual is tested. -/
def SuccessMeans (A : Arith F E) (p : Params F) (b : E) (x0 : E) (R : Res σ F E) (o : GOut F) : Prop :=
  (R.W.tr = [] ∧ R.x = x0 ∧ A.nonzero x0 = false ∧ A.fin (A.nrm b) = true ∧ A.le (A.nrm b) (convTol A p b) = true ∧
    o.relres = A.mul (A.div A.one (bnorm A b)) (A.nrm b)) ∨
  (∃ t w, R.W.tr = t ++ [.mv R.x true w] ∧ PassedOn A b (convTol A p b) w ∧
    o.relres = A.mul (A.div A.one (bnorm A b)) (A.nrm (A.vsub b w))) ∨
  (∃ t w, R.W.tr = t ++ [.mv R.x false w] ∧ o.msg = "matvec failed when computing true residual -> test skipped")

theorem finish_facts (A : Arith F E) (mv : Callback σ E) (p : Params F) (b : E) (bInv tol : F) (m : Nat) (x0 : E)
    (S : St σ F E) (t : Bool) (h : OEnd A p tol m x0 b p.maxits.toNat S t) :
    ∃ o, Facts A p tol m x0 (finish A mv b bInv tol S t) o ∧
      (o.flag = .success → p.testTrue = true →
        (∃ tr w, (finish A mv b bInv tol S t).W.tr = tr ++ [.mv (finish A mv b bInv tol S t).x true w] ∧ PassedOn A b tol w ∧
          o.relres = A.mul bInv (A.nrm (A.vsub b w))) ∨
        (∃ tr w, (finish A mv b bInv tol S t).W.tr = tr ++ [.mv (finish A mv b bInv tol S t).x false w] ∧
          o.msg = "matvec failed when computing true residual -> test skipped")) := by
  unfold finish
  simp only
  have hmax : (if S.out.flag = .unconverged then Flag.maxits else S.out.flag) ≠ .unconverged ∧
      (if S.out.flag = .unconverged then Flag.maxits else S.out.flag) ≠ .preconFail ∧
      (if S.out.flag = .unconverged then Flag.maxits else S.out.flag) ≠ .matvecFail ∧
      ((if S.out.flag = .unconverged then Flag.maxits else S.out.flag) = .success ↔ S.out.flag = .success) := by
    rcases h.flag with h | h | h | h <;> simp [h]
  generalize (if S.out.flag = .unconverged then Flag.maxits else S.out.flag) = fl at hmax ⊢
  obtain ⟨f1, f2, f3, f4⟩ := hmax
  by_cases hc : fl = .success ∧ t = true
  · rw [if_pos hc]
    obtain ⟨hs, ht⟩ := hc
    have hs' := f4.1 hs
    have hmv := h.mvS hs' ht
    generalize hm : callMv mv S.W S.x S.w = q
    have hq : q.2.2.tr = S.W.tr ++ [.mv S.x q.1 q.2.1] := by rw [← hm]; rfl
    obtain ⟨ok, w, W⟩ := q
    simp only at hq
    have hcnt : mvs W.tr = mvs S.W.tr + 1 ∧ pcs W.tr = pcs S.W.tr := by
      rw [hq, mvs_append, pcs_append]; simp [mvs, pcs]
    have hpc := h.pc
    have hx : S.x = xAfter x0 W.tr := by rw [hq, xAfter_append, ← h.x]; rfl
    have hupd : Updates A x0 W.tr := by rw [hq]; exact h.upd.append_noUpd rfl
    cases ok with
    | true =>
      simp only [if_true]
      refine ⟨_, ⟨rfl, ?_, ?_, ?_, h.inner, h.outer, hx, hupd, fun _ => ⟨_, h.passed hs'⟩, Or.inl ⟨?_, ?_⟩⟩, ?_⟩
      · simp only; split <;> simp [hs]
      · simp only; omega
      · simp only; omega
      · simp only [hq]
        exact (allFine_append _ _).2 ⟨h.fine, by simp [AllFine, Ev.Fine]⟩
      · simp only; split <;> simp [hs]
      · intro hss _
        left
        refine ⟨_, w, hq, ?_, rfl⟩
        right
        rintro ⟨g1, g2⟩
        simp only [g1, g2, Bool.and_self, if_true] at hss
        cases hss
    | false =>
      simp only [Bool.false_eq_true, if_false]
      refine ⟨_, ⟨rfl, by simp [hs], ?_, ?_, h.inner, h.outer, hx, hupd, fun _ => ⟨_, h.passed hs'⟩, Or.inr (Or.inr ⟨_, _, _, hq, h.fine, Or.inr ?_⟩)⟩, ?_⟩
      · simp only; omega
      · simp only; omega
      · exact ⟨hs, h.test ht, rfl, rfl⟩
      · intro _ _
        right
        exact ⟨_, _, hq, rfl⟩
  · rw [if_neg hc]
    refine ⟨_, ⟨rfl, f1, h.mv, h.pc, h.inner, h.outer, h.x, h.upd, fun hs => ⟨_, h.passed (f4.1 hs)⟩, Or.inl ⟨h.fine, f2, f3⟩⟩, ?_⟩
    intro hs hT
    have ht : t = false := by
      cases t with
      | false => rfl
      | true => exact absurd ⟨hs, rfl⟩ hc
    obtain ⟨tr, w, g1, g2, g3, g4⟩ := h.succ (f4.1 hs) hT ht
    left
    refine ⟨tr, w, g1, Or.inl ⟨g2 ▸ g3, g2 ▸ g4⟩, ?_⟩
    simp only [g2]

theorem iterate_facts (A : Arith F E) (mv pc : Callback σ E) (p : Params F) (b : E) (junk : Nat → Nat → E) (m : Nat) (x0 : E)
    (S : St σ F E) (h : OInv A m x0 0 S) :
    ∃ o, Facts A p (convTol A p b) m x0 (iterate A mv pc p b junk m S) o ∧
      (o.flag = .success → p.testTrue = true →
        (iterate A mv pc p b junk m S = { out := some o, x := S.x, W := S.W } ∧ A.fin S.rnrm = true ∧
          A.le S.rnrm (convTol A p b) = true ∧ o.relres = A.mul (A.div A.one (bnorm A b)) S.rnrm) ∨
        (∃ t w, (iterate A mv pc p b junk m S).W.tr = t ++ [.mv (iterate A mv pc p b junk m S).x true w] ∧
          PassedOn A b (convTol A p b) w ∧ o.relres = A.mul (A.div A.one (bnorm A b)) (A.nrm (A.vsub b w))) ∨
        (∃ tr w, (iterate A mv pc p b junk m S).W.tr = tr ++ [.mv (iterate A mv pc p b junk m S).x false w] ∧
          o.msg = "matvec failed when computing true residual -> test skipped")) := by
  have hmv := h.mv
  have hpc := h.pc
  unfold iterate
  simp only
  by_cases h1 : (!A.fin S.rnrm) = true
  · rw [if_pos h1]
    refine ⟨_, ⟨rfl, by simp, by simp only; omega, by simp only; omega, h.inner, Or.inr (by have := h.outer; simp only; omega), h.x, h.upd,
      by simp, Or.inl ⟨h.fine, by simp, by simp⟩⟩, by simp⟩
  · rw [if_neg h1]
    have hb : ∀ x : Bool, ¬ ((!x) = true) → x = true := by decide
    by_cases h2 : A.le S.rnrm (convTol A p b) = true
    · rw [if_pos h2]
      refine ⟨_, ⟨rfl, by simp, by simp only; omega, by simp only; omega, h.inner, Or.inr (by have := h.outer; simp only; omega), h.x, h.upd,
        fun _ => ⟨_, hb _ h1, h2⟩, Or.inl ⟨h.fine, by simp, by simp⟩⟩, ?_⟩
      intro _ _
      exact Or.inl ⟨rfl, hb _ h1, h2, rfl⟩
    · rw [if_neg h2]
      have ho := outer_facts A mv pc p b junk m (A.div A.one (bnorm A b)) (convTol A p b) (A.mul p.divTol S.rnrm) x0 S h
      generalize outerLoop A mv pc p b junk m (A.div A.one (bnorm A b)) (convTol A p b) (A.mul p.divTol S.rnrm) p.maxits.toNat 0 S = R
        at ho ⊢
      cases R with
      | ret R =>
        obtain ⟨o, h3, h4⟩ := ho
        exact ⟨o, h3, fun h => absurd h h4⟩
      | next S' => exact ho.elim
      | brk S' t =>
        obtain ⟨o, h3, h4⟩ := finish_facts A mv p b (A.div A.one (bnorm A b)) (convTol A p b) m x0 S' t ho
        exact ⟨o, h3, fun a b => Or.inr (h4 a b)⟩

/-- Everything at once. -/
theorem solve_facts (A : Arith F E) (mv pc : Callback σ E) (N : Nat) (w0 pv0 : E) (junk : Nat → Nat → E) (p : Params F) (b x0 : E)
    (s : σ) (hp : badParams A p = false) :
    ∃ o, Facts A p (convTol A p b) (min N p.kspaceSz.toNat) x0 (solve A mv pc N w0 pv0 junk p b x0 ⟨s, []⟩) o ∧
      (o.flag = .success → p.testTrue = true → SuccessMeans A p b x0 (solve A mv pc N w0 pv0 junk p b x0 ⟨s, []⟩) o) := by
  unfold solve
  simp only [hp, Bool.false_eq_true, if_false]
  by_cases hx : A.nonzero x0 = true
  · rw [if_pos hx]
    generalize hc : callMv mv ⟨s, []⟩ x0 w0 = q
    have hq : q.2.2.tr = [.mv x0 q.1 q.2.1] := by rw [← hc]; rfl
    obtain ⟨ok, w, W⟩ := q
    simp only at hq
    have hcnt : mvs W.tr = 1 ∧ pcs W.tr = 0 := by rw [hq]; simp [mvs, pcs]
    have hxa : x0 = xAfter x0 W.tr := by rw [hq]; rfl
    have hupd : Updates A x0 W.tr := by
      rw [hq]
      intro t1 y t2 h
      have := upds_split h
      simp [upds] at this
    cases ok with
    | false =>
      simp only [Bool.not_false, if_true]
      refine ⟨_, ⟨rfl, by simp, by simp only; omega, by simp only; omega, Or.inr rfl, Or.inr rfl, hxa, hupd,
        by simp, Or.inr (Or.inr ⟨[], x0, w, by simp [hq], by simp [AllFine], Or.inl rfl⟩)⟩, by simp⟩
    | true =>
      simp only [Bool.not_true, Bool.false_eq_true, if_false]
      obtain ⟨o, h3, h4⟩ := iterate_facts A mv pc p b junk (min N p.kspaceSz.toNat) x0
        { x := x0, r := A.vsub b w, w := w, pv := pv0, rnrm := A.nrm (A.vsub b w)
          out := { flag := .unconverged, innerIts := 0, outerIts := 0, relres := A.zero, msg := "" }, W := W }
        ⟨by simp only; omega, by simp only; omega, Or.inr rfl, Or.inr rfl, hxa, hupd, by simp only [hq]; simp [AllFine, Ev.Fine], rfl⟩
      refine ⟨o, h3, fun a c => ?_⟩
      rcases h4 a c with ⟨g1, g2, g3, g4⟩ | g | g
      · right; left
        refine ⟨[], w, ?_, Or.inl ⟨g2, g3⟩, g4⟩
        rw [g1]; exact hq
      · exact Or.inr (Or.inl g)
      · exact Or.inr (Or.inr g)
  · rw [if_neg hx]
    have hup0 : Updates A x0 ([] : List (Ev E)) := by
      intro t1 y t2 h
      have := upds_split h
      simp [upds] at this
    obtain ⟨o, h3, h4⟩ := iterate_facts A mv pc p b junk (min N p.kspaceSz.toNat) x0
        { x := x0, r := b, w := w0, pv := pv0, rnrm := A.nrm b
          out := { flag := .unconverged, innerIts := 0, outerIts := 0, relres := A.zero, msg := "" }, W := (⟨s, []⟩ : World σ E) }
        ⟨by simp [mvs], by simp [pcs], Or.inr rfl, Or.inr rfl, rfl, hup0, by simp [AllFine], rfl⟩
    refine ⟨o, h3, fun a c => ?_⟩
    rcases h4 a c with ⟨g1, g2, g3, g4⟩ | g | g
    · left
      rw [g1]
      exact ⟨rfl, rfl, by simpa using hx, g2, g3, g4⟩
    · exact Or.inr (Or.inl g)
    · exact Or.inr (Or.inr g)

/-! ### C29 -/

section Props

variable (A : Arith F E) (mv pc : Callback σ E) (N : Nat) (w0 pv0 : E) (junk : Nat → Nat → E) (p : Params F) (b x0 : E) (s : σ)

/-- C29: `solve` throws exactly for the listed parameters.  Missing: NaN tolerances are accepted (`C29_nan_accepted`). -/
theorem C29_throws_iff_partial :
    (solve A mv pc N w0 pv0 junk p b x0 ⟨s, []⟩).out = none ↔
      p.kspaceSz < 1 ∨ p.maxits < 1 ∨ A.lt p.relTol A.zero = true ∨ A.lt p.absTol A.zero = true ∨ A.le p.divTol A.zero = true ∨
        A.lt p.stgTol A.zero = true := by
  have hbad : (p.kspaceSz < 1 ∨ p.maxits < 1 ∨ A.lt p.relTol A.zero = true ∨ A.lt p.absTol A.zero = true ∨
      A.le p.divTol A.zero = true ∨ A.lt p.stgTol A.zero = true) ↔ badParams A p = true := by
    simp only [badParams, Bool.or_eq_true, decide_eq_true_eq, or_assoc]
  rw [hbad]
  constructor
  · intro h
    apply Decidable.byContradiction
    intro hb
    obtain ⟨o, h1, _⟩ := solve_facts A mv pc N w0 pv0 junk p b x0 s (by simpa using hb)
    rw [h1.some] at h
    cases h
  · intro h
    simp [solve, h]

/-- C29: when it throws, no callback has been called and `x` is unchanged. -/
theorem C29_untouched (W : World σ E) (hW : W = ⟨s, []⟩) (h : (solve A mv pc N w0 pv0 junk p b x0 W).out = none) :
    (solve A mv pc N w0 pv0 junk p b x0 W).x = x0 ∧ (solve A mv pc N w0 pv0 junk p b x0 W).W = W := by
  subst hW
  have hb : badParams A p = true := by
    apply Decidable.byContradiction
    intro hb
    obtain ⟨o, h1, _⟩ := solve_facts A mv pc N w0 pv0 junk p b x0 s (by simpa using hb)
    rw [h1.some] at h
    cases h
  simp [solve, hb]

/-- C29, the last sentence fails: a NaN (a value that compares false with everything and absorbs products) is accepted as every tolerance,
and then `solve` never reports success, not even for the exact solution. -/
theorem C29_nan_accepted (nan : F) (hlt : ∀ a, A.lt a nan = false ∧ A.lt nan a = false) (hle : ∀ a, A.le a nan = false ∧ A.le nan a = false)
    (hmul : ∀ a, A.mul nan a = nan) (hk : 1 ≤ p.kspaceSz) (hm : 1 ≤ p.maxits) (hp : p.relTol = nan ∧ p.absTol = nan ∧ p.divTol = nan ∧
      p.stgTol = nan) :
    ∃ o, (solve A mv pc N w0 pv0 junk p b x0 ⟨s, []⟩).out = some o ∧ o.flag ≠ .success := by
  obtain ⟨h1, h2, h3, h4⟩ := hp
  have hb : badParams A p = false := by
    simp only [badParams, h1, h2, h3, h4, (hlt _).2, (hle _).2, Bool.or_false, Bool.or_eq_false_iff, decide_eq_false_iff_not]
    omega
  obtain ⟨o, g1, _⟩ := solve_facts A mv pc N w0 pv0 junk p b x0 s hb
  refine ⟨o, g1.some, fun hs => ?_⟩
  obtain ⟨ρ, _, g2⟩ := g1.passed hs
  have : convTol A p b = nan := by
    simp only [convTol, fmax, h1, h2, hmul]
    split <;> rfl
  rw [this, (hle _).1] at g2
  cases g2

/-! ### C30 -/

/-- C30: for any callbacks and arithmetic, `solve` with valid parameters returns within its budget and with a definite flag. -/
theorem C30_budget (hp : badParams A p = false) :
    ∃ o, (solve A mv pc N w0 pv0 junk p b x0 ⟨s, []⟩).out = some o ∧ o.flag ≠ .unconverged ∧
      mvs (solve A mv pc N w0 pv0 junk p b x0 ⟨s, []⟩).W.tr ≤ 1 + p.maxits.toNat * (min N p.kspaceSz.toNat + 1) ∧
      pcs (solve A mv pc N w0 pv0 junk p b x0 ⟨s, []⟩).W.tr ≤ p.maxits.toNat * (min N p.kspaceSz.toNat + 1) ∧
      (o.innerIts < min N p.kspaceSz.toNat ∨ o.innerIts = 0) ∧ (o.outerIts : Int) < p.maxits := by
  obtain ⟨o, h, _⟩ := solve_facts A mv pc N w0 pv0 junk p b x0 s hp
  refine ⟨o, h.some, h.flag, h.mv, h.pc, h.inner, ?_⟩
  have h1 := h.outer
  have h2 : 1 ≤ p.maxits := by
    simp only [badParams, Bool.or_eq_false_iff, decide_eq_false_iff_not] at hp
    omega
  omega

/-! ### C31 -/

/-- C31, as far as it holds: when the true residual is tested and comparisons with the tolerance are total on finite values, success
means that nothing had to be done for the zero guess, or that the last call was a matrix-vector product on the returned `x` whose residual
norm is within the tolerance *if it is finite*, or that this last product failed.  In the first two cases the reported relative
residual is that of the returned `x`.  Missing: the residual may be NaN or infinite (`C31_nan_success`), or not known
(`C31_failed_success`). -/
theorem C31_success_partial (o : GOut F) (hp : badParams A p = false)
    (htot : ∀ a, A.fin a = true → A.lt (convTol A p b) a = false → A.le a (convTol A p b) = true)
    (ho : (solve A mv pc N w0 pv0 junk p b x0 ⟨s, []⟩).out = some o) (hs : o.flag = .success) (ht : p.testTrue = true)
    (R : Res σ F E) (hR : R = solve A mv pc N w0 pv0 junk p b x0 ⟨s, []⟩) :
    (R.W.tr = [] ∧ R.x = x0 ∧ A.nonzero x0 = false ∧ A.fin (A.nrm b) = true ∧ A.le (A.nrm b) (convTol A p b) = true ∧
      o.relres = A.mul (A.div A.one (bnorm A b)) (A.nrm b)) ∨
    (∃ t w, R.W.tr = t ++ [.mv R.x true w] ∧
      (A.fin (A.nrm (A.vsub b w)) = true → A.le (A.nrm (A.vsub b w)) (convTol A p b) = true) ∧
      o.relres = A.mul (A.div A.one (bnorm A b)) (A.nrm (A.vsub b w))) ∨
    (∃ t w, R.W.tr = t ++ [.mv R.x false w] ∧ o.msg = "matvec failed when computing true residual -> test skipped") := by
  subst hR
  obtain ⟨o', h1, h2⟩ := solve_facts A mv pc N w0 pv0 junk p b x0 s hp
  have : o' = o := by
    have := h1.some
    rw [ho, Option.some.injEq] at this
    exact this.symm
  subst this
  rcases h2 hs ht with h | ⟨t, w, g1, g2, g3⟩ | h
  · exact Or.inl h
  · refine Or.inr (Or.inl ⟨t, w, g1, ?_, g3⟩)
    intro hf
    rcases g2 with ⟨_, g⟩ | g
    · exact g
    · refine htot _ hf ?_
      rw [hf] at g
      simpa using g
  · exact Or.inr (Or.inr h)

/-! ### C32 -/

/-- C32: a failed call is the last call; after a failed preconditioner call the flag is `precon_fail`, after a failed product it is
`matvec_fail`, unless the product was the optional final test of an `x` that had passed the tolerance test, which the message then says.
Conversely these two flags are only reported after a failed call. -/
theorem C32_failures (hp : badParams A p = false) (R : Res σ F E) (hR : R = solve A mv pc N w0 pv0 junk p b x0 ⟨s, []⟩) :
    ∃ o, R.out = some o ∧
      (∀ t1 t2 inp d, R.W.tr = t1 ++ .pc inp false d :: t2 → t2 = [] ∧ o.flag = .preconFail) ∧
      (∀ t1 t2 inp d, R.W.tr = t1 ++ .mv inp false d :: t2 → t2 = [] ∧ (o.flag = .matvecFail ∨
        o.flag = .success ∧ p.testTrue = true ∧ inp = R.x ∧ o.msg = "matvec failed when computing true residual -> test skipped")) ∧
      (o.flag = .preconFail → ∃ t inp d, R.W.tr = t ++ [.pc inp false d]) ∧
      (o.flag = .matvecFail → ∃ t inp d, R.W.tr = t ++ [.mv inp false d]) := by
  subst hR
  obtain ⟨o, h, _⟩ := solve_facts A mv pc N w0 pv0 junk p b x0 s hp
  have key : ∀ (t t1 t2 : List (Ev E)) (e e' : Ev E), t ++ [e] = t1 ++ e' :: t2 → AllFine t → ¬ e'.Fine → t2 = [] ∧ e' = e := by
    intro t t1 t2 e e' he hf hn
    rcases List.append_eq_append_iff.1 he with ⟨c, h1, h2⟩ | ⟨c, h1, h2⟩
    · cases c with
      | nil =>
        rw [List.nil_append, List.cons.injEq] at h2
        exact ⟨h2.2.symm, h2.1.symm⟩
      | cons a c =>
        rw [List.cons_append, List.cons.injEq] at h2
        have := congrArg List.length h2.2
        simp at this
    · cases c with
      | nil =>
        rw [List.nil_append, List.cons.injEq] at h2
        exact ⟨h2.2, h2.1⟩
      | cons a c =>
        rw [List.cons_append, List.cons.injEq] at h2
        exact absurd (hf e' (by rw [h1, h2.1]; simp)) hn
  refine ⟨o, h.some, ?_, ?_, ?_, ?_⟩
  · intro t1 t2 inp d he
    have hn : ¬ (Ev.pc inp false d).Fine := by simp [Ev.Fine]
    rcases h.calls with ⟨hf, _⟩ | ⟨t, i, d', h1, h2, h3⟩ | ⟨t, i, d', h1, h2, h3⟩
    · exact absurd (hf (.pc inp false d) (by rw [he]; simp)) hn
    · exact ⟨(key t t1 t2 _ _ (h1 ▸ he) h2 hn).1, h3⟩
    · have := (key t t1 t2 _ _ (h1 ▸ he) h2 hn).2
      cases this
  · intro t1 t2 inp d he
    have hn : ¬ (Ev.mv inp false d).Fine := by simp [Ev.Fine]
    rcases h.calls with ⟨hf, _⟩ | ⟨t, i, d', h1, h2, h3⟩ | ⟨t, i, d', h1, h2, h3⟩
    · exact absurd (hf (.mv inp false d) (by rw [he]; simp)) hn
    · have := (key t t1 t2 _ _ (h1 ▸ he) h2 hn).2
      cases this
    · have := key t t1 t2 _ _ (h1 ▸ he) h2 hn
      rw [Ev.mv.injEq] at this
      obtain ⟨g1, rfl, _, rfl⟩ := this
      exact ⟨g1, h3⟩
  · intro hf
    rcases h.calls with ⟨_, h1, _⟩ | ⟨t, i, d', h1, h2, h3⟩ | ⟨t, i, d', h1, h2, h3 | ⟨h3, _⟩⟩
    · exact absurd hf h1
    · exact ⟨t, i, d', h1⟩
    · rw [hf] at h3; cases h3
    · rw [hf] at h3; cases h3
  · intro hf
    rcases h.calls with ⟨_, _, h1⟩ | ⟨t, i, d', h1, h2, h3⟩ | ⟨t, i, d', h1, h2, h3⟩
    · exact absurd hf h1
    · rw [hf] at h3; cases h3
    · exact ⟨t, i, d', h1⟩

/-- C32: whatever happens, the returned `x` is the guess or the result of the last update, and every update adds to the current solution the
output of a preconditioner call that has just succeeded. -/
theorem C32_iterate (hp : badParams A p = false) (R : Res σ F E) (hR : R = solve A mv pc N w0 pv0 junk p b x0 ⟨s, []⟩) :
    R.x = xAfter x0 R.W.tr ∧ Updates A x0 R.W.tr := by
  subst hR
  obtain ⟨o, h, _⟩ := solve_facts A mv pc N w0 pv0 junk p b x0 s hp
  exact ⟨h.x, h.upd⟩

end Props

/-! ### Concrete runs: one-dimensional vectors over the rationals with NaN -/

/-- Rationals with a NaN (`none`); vectors have one component. -/
def nanA : Arith (Option Rat) (Option Rat) where
  zero := some 0
  one := some 1
  add a b := do return (← a) + (← b)
  sub a b := do return (← a) - (← b)
  mul a b := do return (← a) * (← b)
  div a b := do return (← a) / (← b)
  abs a := do let a ← a; return if a < 0 then -a else a
  eq a b := match a, b with | some a, some b => decide (a = b) | _, _ => false
  lt a b := match a, b with | some a, some b => decide (a < b) | _, _ => false
  le a b := match a, b with | some a, some b => decide (a ≤ b) | _, _ => false
  fin a := a.isSome
  nrm a := do let a ← a; return if a < 0 then -a else a
  dot a b := do return (← a) * (← b)
  vadd a b := do return (← a) + (← b)
  vsub a b := do return (← a) - (← b)
  vscale a b := do return (← a) * (← b)
  nonzero a := match a with | some a => decide (a ≠ 0) | none => true
  rotg a b := match a, b with
    | some a, some b => if b = 0 then (some a, some 1, some 0) else if a = 0 then (some b, some 0, some 1) else (none, none, none)
    | _, _ => (none, none, none)
  trsv n H s := match n with
    | 1 => [do return (← s.getD 0 none) / (← (H.getD 0 []).getD 0 none)]
    | _ => []
  comb n V y := match n with
    | 1 => do return (← V.getD 0 none) * (← y.getD 0 none)
    | _ => some 0
  stag _ pv x := match pv, x with | some p, some x => decide (x = 0 ∨ p = 0) | _, _ => true

/-- Parameters accepted by the check. -/
def exP : Params (Option Rat) :=
  { testTrue := true, kspaceSz := 3, maxits := 5, relTol := some (1 / 1000), absTol := some (1 / 1000), divTol := some 10, stgTol := some 0 }

/-- The identity as preconditioner. -/
def exPc : Callback Unit (Option Rat) := fun s v _ => (true, v, s)

/-- The product with 2. -/
def exMv : Callback Unit (Option Rat) := fun s v _ => (true, v.map (2 * ·), s)

/-- The product with 2, failing on the solution 2. -/
def exMvFail : Callback Unit (Option Rat) := fun s v _ => (decide (v ≠ some 2), v.map (2 * ·), s)

/-- The product with 2, NaN on the solution 2. -/
def exMvNan : Callback Unit (Option Rat) := fun s v _ => (true, if v = some 2 then none else v.map (2 * ·), s)

/-- The flag, the solution and the message, for display. -/
def view (R : Res Unit (Option Rat) (Option Rat)) : Option (Flag × Option Rat × String) × Option Rat × Nat × Nat :=
  (R.out.map fun o => (o.flag, o.relres, o.msg), R.x, mvs R.W.tr, pcs R.W.tr)

/-- 2 x = 4 from 0: one inner iteration, solution 2, two products (one for the final test), two preconditioner calls. -/
example : view (solve nanA exMv exPc 1 (some 0) (some 0) (fun _ _ => none) exP (some 4) (some 0) ⟨(), []⟩) =
    (some (.success, some 0, ""), some 2, 2, 2) := by decide +kernel

example : badParams nanA exP = false := by decide +kernel
example : badParams nanA { exP with divTol := some 0 } = true := by decide +kernel

/-- The hypotheses of `C29_nan_accepted` hold of this arithmetic. -/
example : (∀ a, nanA.lt a none = false ∧ nanA.lt none a = false) ∧ (∀ a, nanA.le a none = false ∧ nanA.le none a = false) ∧
    (∀ a, nanA.mul none a = none) := by
  refine ⟨?_, ?_, ?_⟩ <;> intro a <;> cases a <;> simp [nanA]

/-- The totality hypothesis of `C31_success_partial` holds. -/
example : ∀ a, nanA.fin a = true → nanA.lt (convTol nanA exP (some 4)) a = false → nanA.le a (convTol nanA exP (some 4)) = true := by
  have : convTol nanA exP (some 4) = some (4 / 1000) := by decide +kernel
  rw [this]
  intro a
  cases a with
  | none => intro h; cases h
  | some a =>
    intro _ h
    simp only [nanA, decide_eq_false_iff_not, decide_eq_true_eq] at h ⊢
    exact Rat.not_lt.1 h

/-- C31 fails: with `testTrueRnrm` set, `solve` reports success although the residual of the returned `x` is NaN. -/
theorem C31_nan_success : ∃ (mv pc : Callback Unit (Option Rat)) (b x0 : Option Rat) (p : Params (Option Rat)) (o : GOut (Option Rat)),
    p.testTrue = true ∧ (solve nanA mv pc 1 (some 0) (some 0) (fun _ _ => none) p b x0 ⟨(), []⟩).out = some o ∧ o.flag = .success ∧
      o.relres = none := by
  refine ⟨exMvNan, exPc, some 4, some 0, exP, ⟨.success, 0, 0, none, ""⟩, rfl, ?_, rfl, rfl⟩
  decide +kernel

/-- C31 fails: with `testTrueRnrm` set, `solve` reports success although the product for the true residual failed. -/
theorem C31_failed_success : ∃ (mv pc : Callback Unit (Option Rat)) (b x0 : Option Rat) (p : Params (Option Rat)) (o : GOut (Option Rat)),
    p.testTrue = true ∧ (solve nanA mv pc 1 (some 0) (some 0) (fun _ _ => none) p b x0 ⟨(), []⟩).out = some o ∧ o.flag = .success ∧
      o.msg ≠ "" := by
  refine ⟨exMvFail, exPc, some 4, some 0, exP,
    ⟨.success, 0, 0, some 0, "matvec failed when computing true residual -> test skipped"⟩, rfl, ?_, rfl, by decide⟩
  decide +kernel

/-- A preconditioner that fails in the first inner iteration. -/
example : view (solve nanA exMv (fun s v _ => (false, v, s)) 1 (some 0) (some 0) (fun _ _ => none) exP (some 4) (some 1) ⟨(), []⟩) =
    (some (.preconFail, some (1 / 2), "preconditioner application in inner loop failed"), some 1, 1, 1) := by decide +kernel

end Blitzdg.Gmres
