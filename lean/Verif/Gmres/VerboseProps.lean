import Verif.Gmres.Verbose
import Verif.Gmres.Real

/-!
C155: the convergence history GMRES writes to the console.
-/

namespace Blitzdg.Gmres

set_option linter.unusedSectionVars false

/-! ### Specification -/

/-- A line of the history: numbers of the outer and the inner iteration, relative residual norm and rate of convergence. -/
structure Line (F : Type) where
  outer : Nat
  inner : Nat
  rel : F
  rate : F

section Spec

variable {F : Type}

/-- A line as it stands on the screen: columns of widths 10, 10, 13 and 9 with two blanks between them, numbers in scientific notation with two digits. -/
def Line.cells (l : Line F) : List (Look F) :=
  [.int l.outer 10, .text "  " 0, .int l.inner 10, .text "  " 0, .num l.rel true 2 13, .text "  " 0, .num l.rate true 2 9, .text "\n" 0]

/-- The heading and the line for the initial guess, with the rate 1. -/
def heading (rel : F) : List (Look F) :=
  [.text "outer iter  inner iter  relative rnrm  conv rate\n" 0, .int 0 10, .text "  " 0, .int 0 10, .text "  " 0, .num rel true 2 13, .text "  " 0, .int 1 9, .text "\n" 0]

/-- The history is on the screen, below what was there before. -/
def Shows (before after : Screen F) (rel : F) (lines : List (Line F)) : Prop := after.cells = before.cells ++ heading rel ++ lines.flatMap Line.cells

theorem cells_inj : ∀ {L L' : List (Line F)}, L.flatMap Line.cells = L'.flatMap Line.cells → L = L'
  | [], [], _ => rfl
  | [], _ :: _, h => by simp [Line.cells] at h
  | _ :: _, [], h => by simp [Line.cells] at h
  | ⟨a, b, c, d⟩ :: L, ⟨a', b', c', d'⟩ :: L', h => by
    simp only [List.flatMap_cons, Line.cells, List.cons_append, List.nil_append, List.cons.injEq, Look.int.injEq, Look.num.injEq, true_and, and_true] at h
    obtain ⟨h1, h2, h3, h4, h5⟩ := h
    have e1 : a = a' := by exact_mod_cast h1
    have e2 : b = b' := by exact_mod_cast h2
    rw [e1, e2, h3, h4, cells_inj h5]

/-- The lines on the screen determine the history. -/
theorem Shows.unique {s t : Screen F} {r r' : F} {L L' : List (Line F)} (h : Shows s t r L) (h' : Shows s t r' L') : r = r' ∧ L = L' := by
  unfold Shows at h h'
  rw [h, List.append_assoc, List.append_assoc, List.append_cancel_left_eq] at h'
  simp only [heading, List.cons_append, List.nil_append, List.cons.injEq, Look.num.injEq, true_and, and_true] at h'
  exact ⟨h'.1, cells_inj h'.2⟩

end Spec

section Generic

variable {σ F E : Type} {A : Arith F E} {mv pc : Callback σ E}

/-- A line as an output statement. -/
def Line.say (l : Line F) : Say F := .row l.outer l.inner l.rel l.rate

/-! ### The screen -/

theorem say_nil (s : Screen F) : s.say [] = s := rfl

theorem say_append (s : Screen F) (a b : List (Say F)) : s.say (a ++ b) = (s.say a).say b := by
  unfold Screen.say
  rw [List.flatMap_append, List.foldl_append]

theorem say_lines (lines : List (Line F)) : ∀ s : Screen F, s.fmt = ⟨true, 2, 0⟩ → s.say (lines.map Line.say) = ⟨⟨true, 2, 0⟩, s.cells ++ lines.flatMap Line.cells⟩ := by
  induction lines with
  | nil => intro s h; cases s; simp only at h; subst h; simp [Screen.say]
  | cons l lines ih =>
    intro s h
    rw [List.map_cons, ← List.singleton_append, say_append, ih]
    · simp [Screen.say, Line.say, Say.toks, Screen.put, Line.cells, List.flatMap_cons, h]
    · simp [Screen.say, Line.say, Say.toks, Screen.put]

theorem say_history (s : Screen F) (h : s.fmt.width = 0) (rel : F) (lines : List (Line F)) :
    s.say (.head rel :: lines.map Line.say) = ⟨⟨true, 2, 0⟩, s.cells ++ heading rel ++ lines.flatMap Line.cells⟩ := by
  rw [← List.singleton_append, say_append, say_lines]
  · simp [Screen.say, Say.toks, Screen.put, heading, h]
  · simp [Screen.say, Say.toks, Screen.put]

/-! ### Results -/

theorem innerV_snd (junk : Nat → E) (bInv tol dtol : F) (v : Bool) (k n : Nat) : ∀ (i its : Nat) (c : Cyc σ F E),
    (innerLoopV A mv pc junk bInv tol dtol v k n i its c).2 = innerLoop A mv pc junk tol dtol n i its c := by
  induction n with
  | zero => intro i its c; rfl
  | succ n ih =>
    intro i its c
    simp only [innerLoopV, innerLoop]
    cases innerStep A mv pc junk tol dtol i c with
    | ret f msg W => rfl
    | brk f c' => rfl
    | next c' => exact ih _ _ _

theorem innerV_quiet (junk : Nat → E) (bInv tol dtol : F) (k n : Nat) : ∀ (i its : Nat) (c : Cyc σ F E),
    (innerLoopV A mv pc junk bInv tol dtol false k n i its c).1 = [] := by
  induction n with
  | zero => intro i its c; rfl
  | succ n ih =>
    intro i its c
    simp only [innerLoopV]
    cases innerStep A mv pc junk tol dtol i c with
    | ret f msg W => rfl
    | brk f c' => rfl
    | next c' => exact ih _ _ _

variable (p : Params F) (b : E)

theorem outerStepV_snd (junk : Nat → E) (m : Nat) (bInv tol dtol : F) (v : Bool) (k : Nat) (S : St σ F E) :
    (outerStepV A mv pc p b junk m bInv tol dtol v k S).2 = outerStep A mv pc p b junk m bInv tol dtol k S := by
  unfold outerStepV outerStep
  simp only [innerV_snd]
  generalize innerLoop A mv pc junk tol dtol m 0 S.out.innerIts _ = I
  cases I <;> rfl

theorem outerV_snd (junk : Nat → Nat → E) (m : Nat) (bInv tol dtol : F) (v : Bool) (n : Nat) : ∀ (k : Nat) (S : St σ F E),
    (outerLoopV A mv pc p b junk m bInv tol dtol v n k S).2 = outerLoop A mv pc p b junk m bInv tol dtol n k S := by
  induction n with
  | zero => intro k S; rfl
  | succ n ih =>
    intro k S
    simp only [outerLoopV, outerLoop, outerStepV_snd]
    cases outerStep A mv pc p b (junk k) m bInv tol dtol k S with
    | ret R => rfl
    | brk S' t => rfl
    | next S' => exact ih _ _

theorem outerV_quiet (junk : Nat → Nat → E) (m : Nat) (bInv tol dtol : F) (n : Nat) : ∀ (k : Nat) (S : St σ F E),
    (outerLoopV A mv pc p b junk m bInv tol dtol false n k S).1 = [] := by
  induction n with
  | zero => intro k S; rfl
  | succ n ih =>
    intro k S
    have q : (outerStepV A mv pc p b (junk k) m bInv tol dtol false k S).1 = [] := innerV_quiet _ _ _ _ _ _ _ _ _
    simp only [outerLoopV, q]
    cases (outerStepV A mv pc p b (junk k) m bInv tol dtol false k S).2 with
    | ret R => rfl
    | brk S' t => rfl
    | next S' => exact ih _ _

theorem iterateV_snd (junk : Nat → Nat → E) (m : Nat) (v : Bool) (S : St σ F E) : (iterateV A mv pc p b junk m v S).2 = iterate A mv pc p b junk m S := by
  unfold iterateV iterate
  simp only [outerV_snd]
  split_ifs <;> rfl

theorem iterateV_quiet (junk : Nat → Nat → E) (m : Nat) (S : St σ F E) : (iterateV A mv pc p b junk m false S).1 = [] := by
  unfold iterateV
  simp only [outerV_quiet, Bool.false_eq_true, if_false]
  split_ifs <;> rfl

variable (N : Nat) (w0 pv0 : E) (junk : Nat → Nat → E) (x : E) (W : World σ E) (scr : Screen F)

/-- **C155, results.** Whatever the arithmetic and the callbacks: with the history switched on or off, the call returns the same result, leaves the same solution and makes the same calls of the operator and the
preconditioner; switched off, nothing is written and the format of the stream is not touched. -/
theorem C155_same (v : Bool) : (solveV A mv pc N w0 pv0 junk p v b x W scr).2 = solve A mv pc N w0 pv0 junk p b x W ∧
    (solveV A mv pc N w0 pv0 junk p false b x W scr).1 = scr := by
  constructor
  · unfold solveV solve
    simp only [iterateV_snd]
    split_ifs <;> rfl
  · unfold solveV
    simp only [iterateV_quiet, say_nil]
    split_ifs <;> rfl

/-! ### Lines -/

/-- Each rate is the quotient of the norm of its line and of the one before it. -/
def Linked (A : Arith F E) (bInv : F) : F → List (Line F) → Prop
  | _, [] => True
  | ρ, l :: L => ∃ ρ', l.rel = A.mul bInv ρ' ∧ l.rate = A.div ρ' ρ ∧ Linked A bInv ρ' L

theorem Linked.pair {bInv : F} : ∀ {L : List (Line F)} {ρ : F}, Linked A bInv ρ L → ∀ (j : Nat) (a c : Line F), L[j]? = some a → L[j + 1]? = some c →
    ∃ ρ ρ', a.rel = A.mul bInv ρ ∧ c.rel = A.mul bInv ρ' ∧ c.rate = A.div ρ' ρ := by
  intro L
  induction L with
  | nil => intro ρ _ j a c h; simp at h
  | cons l L ih =>
    rintro ρ ⟨ρ', h1, -, h3⟩ j a c ha hc
    cases j with
    | zero =>
      simp only [List.getElem?_cons_zero, Option.some.injEq] at ha
      subst ha
      cases L with
      | nil => simp at hc
      | cons l' L =>
        simp at hc
        subst hc
        obtain ⟨ρ'', g1, g2, -⟩ := h3
        exact ⟨ρ', ρ'', h1, g1, g2⟩
    | succ j => exact ih h3 j a c (by simpa using ha) (by simpa using hc)

/-- The ways an iteration can end without a line. -/
def Unfinished (f : Flag) : Prop := f = .preconFail ∨ f = .matvecFail ∨ f = .breakdown ∨ f = .infOrNan

theorem inner_lines (jk : Nat → E) (bInv tol dtol : F) (k n : Nat) : ∀ (i its : Nat) (c : Cyc σ F E), ∃ L : List (Line F),
    (innerLoopV A mv pc jk bInv tol dtol true k n i its c).1 = L.map Line.say ∧ (∀ j l, L[j]? = some l → l.outer = k + 1 ∧ l.inner = i + j + 1) ∧ Linked A bInv c.rnrm L ∧
    match innerLoop A mv pc jk tol dtol n i its c with
    | .ret f _ its' _ => i + L.length = its' ∧ L.length < n ∧ Unfinished f
    | .done f iu its' _ => i + L.length = iu ∧ L.length ≤ n ∧ (f = .unconverged → iu = i + n) ∧ (0 < n → its' + 1 = iu) := by
  induction n with
  | zero => intro i its c; exact ⟨[], rfl, by simp, trivial, by simp [innerLoop]⟩
  | succ n ih =>
    intro i its c
    simp only [innerLoopV, innerLoop]
    rcases innerStep_cases A mv pc jk tol dtol i c with
      ⟨_, _, msg, W, h, _⟩ | ⟨_, _, _, msg, W, h, _⟩ | ⟨_, _, _, f, msg, W, h, hf, _⟩ | ⟨_, _, _, f, c', h, hf, _⟩ | ⟨_, _, _, c', h, _⟩
    · simp only [h]
      exact ⟨[], rfl, by simp, trivial, by simp, by simp, .inl rfl⟩
    · simp only [h]
      exact ⟨[], rfl, by simp, trivial, by simp, by simp, .inr (.inl rfl)⟩
    · simp only [h]
      exact ⟨[], rfl, by simp, trivial, by simp, by simp, .inr (.inr hf)⟩
    · simp only [h]
      refine ⟨[⟨k + 1, i + 1, _, _⟩], rfl, ?_, ⟨_, rfl, rfl, trivial⟩, rfl, by simp, ?_, fun _ => by trivial⟩
      · intro j l hl
        cases j with
        | zero => simp at hl; subst hl; exact ⟨rfl, rfl⟩
        | succ j => simp at hl
      · intro e; rcases hf with hf | hf <;> rw [hf] at e <;> cases e
    · simp only [h]
      obtain ⟨L, e1, e2, e3, e4⟩ := ih (i + 1) i c'
      refine ⟨⟨k + 1, i + 1, A.mul bInv c'.rnrm, A.div c'.rnrm c.rnrm⟩ :: L, by simp [e1, Line.say], ?_, ⟨_, rfl, rfl, e3⟩, ?_⟩
      · intro j l hl
        cases j with
        | zero => simp at hl; subst hl; exact ⟨rfl, rfl⟩
        | succ j =>
          obtain ⟨g1, g2⟩ := e2 j l (by simpa using hl)
          exact ⟨g1, by omega⟩
      · have hs := inner_spec A mv pc jk tol dtol n (i + 1) i c'
        generalize innerLoop A mv pc jk tol dtol n (i + 1) i c' = R at e4 hs ⊢
        cases R with
        | ret f msg its' W' =>
          obtain ⟨g1, g2, g3⟩ := e4
          exact ⟨by simp; omega, by simp; omega, g3⟩
        | done f iu its' c'' =>
          obtain ⟨g1, g2, g3, -⟩ := e4
          obtain ⟨_, _, _, _, _, _, hs⟩ := hs
          refine ⟨by simp; omega, by simp; omega, fun e => by have := g3 e; omega, fun _ => ?_⟩
          rcases hs with ⟨_, h1, h2⟩ | ⟨_, _, _, h2, _⟩ <;> omega

theorem afterInner_out (tol dtol : F) (S : St σ F E) (f : Flag) (iu its : Nat) (c : Cyc σ F E) :
    match afterInner A mv pc p b tol dtol S f iu its c with
    | .ret R => ∃ o, R.out = some o ∧ o.outerIts = S.out.outerIts ∧ o.innerIts = its
    | .brk S' _ => S'.out.outerIts = S.out.outerIts ∧ S'.out.innerIts = its
    | .next S' => S'.out.outerIts = S.out.outerIts ∧ S'.out.innerIts = its ∧ f = .unconverged := by
  unfold afterInner
  simp only
  by_cases h1 : (!(callPc pc c.W (A.comb iu c.V (A.trsv iu c.H c.s)) c.pv).1) = true
  · simp only [if_pos h1]
    exact ⟨_, rfl, rfl, rfl⟩
  · simp only [if_neg h1]
    by_cases h2 : f ≠ .unconverged
    · simp only [if_pos h2]
      exact ⟨trivial, trivial⟩
    · simp only [if_neg h2]
      split_ifs with h3
      · exact ⟨_, rfl, rfl, rfl⟩
      · unfold afterResidual
        simp only
        split_ifs
        · exact ⟨_, rfl, rfl, rfl⟩
        · exact ⟨rfl, rfl⟩
        · exact ⟨rfl, rfl⟩
        · exact ⟨rfl, rfl⟩
        · exact ⟨rfl, rfl, not_not.1 h2⟩

/-- The lines of a run of cycles of `m` lines, from cycle `k` on. -/
structure Numbered (A : Arith F E) (bInv : F) (m k : Nat) (L : List (Line F)) : Prop where
  num : ∀ j l, L[j]? = some l → l.outer = k + j / m + 1 ∧ l.inner = j % m + 1
  link : ∀ j a c, L[j]? = some a → L[j + 1]? = some c → (j + 1) % m ≠ 0 → ∃ ρ ρ', a.rel = A.mul bInv ρ ∧ c.rel = A.mul bInv ρ' ∧ c.rate = A.div ρ' ρ

/-- What the numbers of iterations reported say about the number `n` of lines. -/
def Counts (m n : Nat) (o : GOut F) : Prop := n = o.outerIts * m + o.innerIts + 1 ∨ n = o.outerIts * m + o.innerIts ∧ Unfinished o.flag

theorem outer_lines (m : Nat) (hm : 0 < m) (bInv tol dtol : F) (n : Nat) : ∀ (k : Nat) (S : St σ F E), ∃ L : List (Line F),
    (outerLoopV A mv pc p b junk m bInv tol dtol true n k S).1 = L.map Line.say ∧ Numbered A bInv m k L ∧
    (∀ l, L[0]? = some l → ∃ ρ', l.rel = A.mul bInv ρ' ∧ l.rate = A.div ρ' S.rnrm) ∧
    match outerLoop A mv pc p b junk m bInv tol dtol n k S with
    | .ret R => ∃ o, R.out = some o ∧ Counts m (k * m + L.length) o
    | .brk S' _ => L = [] ∧ n = 0 ∧ S' = S ∨ k * m + L.length = S'.out.outerIts * m + S'.out.innerIts + 1
    | .next _ => False := by
  induction n with
  | zero => intro k S; exact ⟨[], rfl, ⟨by simp, by simp⟩, by simp, .inl ⟨rfl, rfl, rfl⟩⟩
  | succ n ih =>
    intro k S
    obtain ⟨L, e1, e2, e3, e4⟩ := inner_lines (A := A) (mv := mv) (pc := pc) (junk k) bInv tol dtol k m 0 S.out.innerIts
      { V := [A.vscale (A.div A.one S.rnrm) S.r], H := [], giv := [], s := S.rnrm :: List.replicate m A.zero, w := S.w, pv := S.pv
        rnrm := S.rnrm, W := S.W }
    have e0 : (outerStepV A mv pc p b (junk k) m bInv tol dtol true k S).1 = L.map Line.say := e1
    have hfirst : ∀ l, L[0]? = some l → ∃ ρ', l.rel = A.mul bInv ρ' ∧ l.rate = A.div ρ' S.rnrm := by
      intro l hl
      cases L with
      | nil => simp at hl
      | cons l' L =>
        simp at hl
        subst hl
        obtain ⟨ρ', h1, h2, -⟩ := e3
        exact ⟨ρ', h1, h2⟩
    have hlen : L.length ≤ m := by
      generalize innerLoop A mv pc (junk k) tol dtol m 0 S.out.innerIts _ = I at e4
      cases I with
      | ret f msg its W => exact e4.2.1.le
      | done f iu its c => exact e4.2.1
    have hnum : Numbered A bInv m k L := by
      refine ⟨fun j l hl => ?_, fun j a c ha hc _ => e3.pair j a c ha hc⟩
      have hj : j < m := by
        have := (List.getElem?_eq_some_iff.1 hl).1
        omega
      obtain ⟨g1, g2⟩ := e2 j l hl
      rw [Nat.div_eq_of_lt hj, Nat.mod_eq_of_lt hj]
      exact ⟨by omega, by omega⟩
    have hstep : match outerStep A mv pc p b (junk k) m bInv tol dtol k S with
        | .ret R => ∃ o, R.out = some o ∧ Counts m (k * m + L.length) o
        | .brk S' _ => k * m + L.length = S'.out.outerIts * m + S'.out.innerIts + 1
        | .next S' => L.length = m ∧ S'.out.outerIts = k ∧ S'.out.innerIts + 1 = m := by
      unfold outerStep
      simp only
      generalize innerLoop A mv pc (junk k) tol dtol m 0 S.out.innerIts _ = I at e4 ⊢
      cases I with
      | ret f msg its W =>
        obtain ⟨g1, g2, g3⟩ := e4
        refine ⟨_, rfl, .inr ⟨?_, g3⟩⟩
        simp only
        omega
      | done f iu its c =>
        obtain ⟨g1, g2, g3, g4⟩ := e4
        have ha := afterInner_out (A := A) (mv := mv) (pc := pc) p b tol dtol { S with out := { S.out with relres := A.mul bInv S.rnrm, outerIts := k } } f iu its c
        simp only
        generalize afterInner A mv pc p b tol dtol { S with out := { S.out with relres := A.mul bInv S.rnrm, outerIts := k } } f iu its c = R at ha ⊢
        have g5 := g4 hm
        cases R with
        | ret R =>
          obtain ⟨o, h1, h2, h3⟩ := ha
          refine ⟨o, h1, .inl ?_⟩
          simp only at h2
          rw [h2, h3]; omega
        | brk S' t =>
          obtain ⟨h2, h3⟩ := ha
          simp only at h2
          simp only
          rw [h2, h3]; omega
        | next S' =>
          obtain ⟨h2, h3, h4⟩ := ha
          have := g3 h4
          exact ⟨by omega, h2, by omega⟩
    simp only [outerLoopV, outerLoop, outerStepV_snd, e0]
    generalize outerStep A mv pc p b (junk k) m bInv tol dtol k S = R at hstep ⊢
    cases R with
    | ret R => exact ⟨L, rfl, hnum, hfirst, hstep⟩
    | brk S' t => exact ⟨L, rfl, hnum, hfirst, .inr hstep⟩
    | next S' =>
      obtain ⟨hL, hk, hi⟩ := hstep
      obtain ⟨L', f1, f2, -, f4⟩ := ih (k + 1) S'
      refine ⟨L ++ L', by simp [f1], ⟨?_, ?_⟩, ?_, ?_⟩
      · intro j l hl
        by_cases hj : j < m
        · rw [List.getElem?_append_left (by omega)] at hl
          exact hnum.num j l hl
        · rw [List.getElem?_append_right (by omega), hL] at hl
          obtain ⟨g1, g2⟩ := f2.num _ l hl
          have d : j / m = (j - m) / m + 1 := by rw [← Nat.sub_add_cancel (not_lt.1 hj), Nat.add_div_right _ hm, Nat.sub_add_cancel (not_lt.1 hj)]
          have r : j % m = (j - m) % m := Nat.mod_eq_sub_mod (not_lt.1 hj)
          rw [d, r]
          exact ⟨by omega, g2⟩
      · intro j a c ha hc hr
        by_cases hj : j + 1 < m
        · rw [List.getElem?_append_left (by omega)] at ha hc
          exact hnum.link j a c ha hc hr
        · have : j + 1 ≠ m := by rintro rfl; exact hr (Nat.mod_self _)
          rw [List.getElem?_append_right (by omega), hL] at ha hc
          rw [show j + 1 - m = j - m + 1 by omega] at hc
          refine f2.link _ a c ha hc ?_
          rwa [Nat.mod_eq_sub_mod (by omega), show j + 1 - m = j - m + 1 by omega] at hr
      · intro l hl
        rw [List.getElem?_append_left (by omega)] at hl
        exact hfirst l hl
      · simp only
        have hc : k * m + (L ++ L').length = (k + 1) * m + L'.length := by rw [List.length_append, hL]; ring
        generalize outerLoop A mv pc p b junk m bInv tol dtol n (k + 1) S' = R at f4 ⊢
        cases R with
        | ret R => rw [hc]; exact f4
        | brk S'' t =>
          right
          rcases f4 with ⟨g1, -, rfl⟩ | g
          · rw [hc, g1, hk]; simp; rw [Nat.add_mul]; omega
          · rw [hc]; exact g
        | next S'' => exact f4

theorem finish_out (bInv tol : F) (S : St σ F E) (t : Bool) : ∃ o, (finish A mv b bInv tol S t).out = some o ∧ o.outerIts = S.out.outerIts ∧ o.innerIts = S.out.innerIts := by
  unfold finish
  simp only
  split_ifs <;> exact ⟨_, rfl, rfl, rfl⟩

/-- What is on the screen after a call with the history on. -/
def History (A : Arith F E) (m : Nat) (scr scr' : Screen F) (x : E) (R : Res σ F E) : Prop :=
  (scr' = scr ∧ R.x = x) ∨ ∃ bInv ρ o L, R.out = some o ∧ scr'.fmt = ⟨true, 2, 0⟩ ∧ Shows scr scr' (A.mul bInv ρ) L ∧ Counts m L.length o ∧ Numbered A bInv m 0 L ∧
    ∀ l, L[0]? = some l → ∃ ρ', l.rel = A.mul bInv ρ' ∧ l.rate = A.div ρ' ρ

theorem iterate_history (hw : scr.fmt.width = 0) (hp : 0 < p.maxits) (m : Nat) (hm : 0 < m) (S : St σ F E) :
    History A m scr (scr.say (iterateV A mv pc p b junk m true S).1) S.x (iterate A mv pc p b junk m S) := by
  unfold iterateV iterate
  simp only
  by_cases h1 : (!A.fin S.rnrm) = true
  · rw [if_pos h1, if_pos h1]; exact .inl ⟨rfl, rfl⟩
  · rw [if_neg h1, if_neg h1]
    by_cases h2 : A.le S.rnrm (convTol A p b) = true
    · rw [if_pos h2, if_pos h2]; exact .inl ⟨rfl, rfl⟩
    · rw [if_neg h2, if_neg h2]
      obtain ⟨L, e1, e2, e3, e4⟩ := outer_lines (A := A) (mv := mv) (pc := pc) p b junk m hm (A.div A.one (bnorm A b)) (convTol A p b) (A.mul p.divTol S.rnrm) p.maxits.toNat 0 S
      right
      simp only [if_true, List.singleton_append, e1]
      rw [say_history scr hw]
      have hn : p.maxits.toNat ≠ 0 := by omega
      have key : ∃ o, (finishOf A mv p b (A.div A.one (bnorm A b)) (convTol A p b)
          (outerLoop A mv pc p b junk m (A.div A.one (bnorm A b)) (convTol A p b) (A.mul p.divTol S.rnrm) p.maxits.toNat 0 S)).out = some o ∧ Counts m L.length o := by
        generalize outerLoop A mv pc p b junk m (A.div A.one (bnorm A b)) (convTol A p b) (A.mul p.divTol S.rnrm) p.maxits.toNat 0 S = R at e4 ⊢
        cases R with
        | ret R =>
          obtain ⟨o, g1, g2⟩ := e4
          exact ⟨o, g1, by simpa using g2⟩
        | brk S' t =>
          obtain ⟨o, g1, g2, g3⟩ := finish_out (A := A) (mv := mv) b (A.div A.one (bnorm A b)) (convTol A p b) S' t
          refine ⟨o, g1, .inl ?_⟩
          rw [g2, g3]
          rcases e4 with ⟨-, h, -⟩ | h
          · exact absurd h hn
          · omega
        | next S' => exact e4.elim
      obtain ⟨o, g1, g2⟩ := key
      exact ⟨_, _, o, L, g1, rfl, rfl, g2, e2, e3⟩

/-- **C155, the history.** Whatever the arithmetic and the callbacks, for a system with at least one unknown: with the history on, either nothing is written and the solution is left as it was, or the screen shows the
heading, a line for the initial guess and one line for each inner iteration carried out, numbered in order with `min(N, kspaceSz)` lines to a cycle; the iteration numbers returned are those of the last line, unless
the last iteration failed before its line was written.  The rate in a line is the quotient of the residual norms of this line and the line before it in the cycle. -/
theorem C155_history (hN : 0 < N) (hw : scr.fmt.width = 0) :
    History A (min N p.kspaceSz.toNat) scr (solveV A mv pc N w0 pv0 junk p true b x W scr).1 x (solve A mv pc N w0 pv0 junk p b x W) := by
  unfold solveV solve
  by_cases hb : badParams A p = true
  · simp only [if_pos hb]
    exact .inl ⟨rfl, rfl⟩
  · simp only [if_neg hb]
    have hk : 1 ≤ p.kspaceSz ∧ 1 ≤ p.maxits := by
      unfold badParams at hb
      simp only [Bool.or_eq_true, decide_eq_true_eq, not_or, not_lt] at hb
      exact ⟨hb.1.1.1.1.1, hb.1.1.1.1.2⟩
    have hm : 0 < min N p.kspaceSz.toNat := by omega
    by_cases hx : A.nonzero x = true
    · simp only [if_pos hx]
      by_cases hc : (!(callMv mv W x w0).1) = true
      · simp only [if_pos hc]
        exact .inl ⟨rfl, rfl⟩
      · simp only [if_neg hc]
        exact iterate_history p b junk scr hw (by omega) _ hm _
    · simp only [if_neg hx]
      exact iterate_history p b junk scr hw (by omega) _ hm _

/-- **C155, the format of the stream, refuted.** A call that writes anything leaves `std::cout` in scientific notation with two digits, whatever its format was: the numbers the program writes afterwards are cut to three
digits. -/
theorem C155_format (hN : 0 < N) (hw : scr.fmt.width = 0) (h : (solveV A mv pc N w0 pv0 junk p true b x W scr).1 ≠ scr) :
    (solveV A mv pc N w0 pv0 junk p true b x W scr).1.fmt = ⟨true, 2, 0⟩ := by
  rcases C155_history (A := A) (mv := mv) (pc := pc) p b N w0 pv0 junk x W scr hN hw with ⟨e, -⟩ | ⟨_, _, _, _, -, e, -⟩
  · exact absurd e h
  · exact e

end Generic

/-! ### Exact arithmetic -/

section Exactly

variable {σ E : Type} [NormedAddCommGroup E] [InnerProductSpace ℝ E] {A : Arith ℝ E}

/-- The norms behind the lines go down from `ρ` to `e`, and the rates are their quotients. -/
def Falls (bInv : ℝ) : ℝ → List (Line ℝ) → ℝ → Prop
  | ρ, [], e => e = ρ
  | ρ, l :: L, e => ∃ ρ', 0 < ρ ∧ 0 ≤ ρ' ∧ ρ' ≤ ρ ∧ l.rel = bInv * ρ' ∧ l.rate = ρ' / ρ ∧ Falls bInv ρ' L e

theorem Falls.append {bInv : ℝ} {L' : List (Line ℝ)} {e e' : ℝ} (h' : Falls bInv e L' e') : ∀ {L : List (Line ℝ)} {ρ : ℝ}, Falls bInv ρ L e → Falls bInv ρ (L ++ L') e' := by
  intro L
  induction L with
  | nil => rintro ρ rfl; exact h'
  | cons l L ih =>
    rintro ρ ⟨ρ', h1, h2, h3, h4, h5, h6⟩
    exact ⟨ρ', h1, h2, h3, h4, h5, ih h6⟩

theorem after_le (hA : Exact A) {B : E →ₗ[ℝ] E} {r0 : E} {i : Nat} {c : Cyc σ ℝ E} {q : Nat → E} {u : E} (h : Inv A B r0 i c q u) (hi : i + 1 < c.s.length)
    (junk pv : E) (W : World σ E) (w : E) : 0 ≤ (after A junk i c w pv W).rnrm ∧ (after A junk i c w pv W).rnrm ≤ c.rnrm := by
  rw [rnrm_new hA h hi junk pv W w, s_new_last hA h hi junk pv W w, abs_neg, abs_mul, h.rn]
  refine ⟨by positivity, mul_le_of_le_one_left (abs_nonneg _) ?_⟩
  obtain ⟨-, -, g⟩ := gOf_spec hA h w
  have := sq_nonneg (gOf A i c w).2.1
  exact abs_le_one_iff_mul_self_le_one.2 (by nlinarith)

theorem inner_falls (hA : Exact A) {mv pc : Callback σ E} {L P : E →ₗ[ℝ] E} (hmv : Computes mv L) (hpc : Computes pc P) (junk : Nat → E) (bInv tol dtol : ℝ) (htol : 0 ≤ tol) {r0 : E} (k n : Nat) :
    ∀ (i its : Nat) (c : Cyc σ ℝ E) (q : Nat → E) (u : E), Inv A (L ∘ₗ P) r0 i c q u → i + n + 1 ≤ c.s.length → tol < c.rnrm →
      ∃ (M : List (Line ℝ)) (e : ℝ), (innerLoopV A mv pc junk bInv tol dtol true k n i its c).1 = M.map Line.say ∧ Falls bInv c.rnrm M e ∧
        match innerLoop A mv pc junk tol dtol n i its c with
        | .ret _ _ _ _ => True
        | .done _ _ _ c' => c'.rnrm = e := by
  induction n with
  | zero => intro i its c q u _ _ _; exact ⟨[], _, rfl, rfl, rfl⟩
  | succ n ih =>
    intro i its c q u h hs ht
    obtain ⟨W, hst⟩ := innerStep_exact hA hmv hpc junk tol dtol h
    simp only [innerLoopV, innerLoop, hst]
    have hw : (L ∘ₗ P) (c.V.getD i 0) = L (P (c.V.getD i 0)) := rfl
    by_cases hz : (gOf A i c (L (P (c.V.getD i 0)))).1 = 0
    · simp only [if_pos hz]
      exact ⟨[], _, rfl, rfl, trivial⟩
    · simp only [if_neg hz]
      obtain ⟨l0, l1⟩ := after_le hA h (by omega) (junk (i + 1)) (P (c.V.getD i 0)) W (L (P (c.V.getD i 0)))
      have hdz := dir_ne_zero hA h (by omega) (junk (i + 1)) (P (c.V.getD i 0)) W _ hz
      have hinv := after_inv hA h (by omega) (junk (i + 1)) (P (c.V.getD i 0)) W _ hw hz
      have hlen : (after A (junk (i + 1)) i c (L (P (c.V.getD i 0))) (P (c.V.getD i 0)) W).s.length = c.s.length := by
        rw [after_s, rotAt_length]
      generalize after A (junk (i + 1)) i c (L (P (c.V.getD i 0))) (P (c.V.getD i 0)) W = c' at *
      have hpos : 0 < c.rnrm := by linarith
      unfold innerTests
      simp only [hA.fin, Bool.not_true, Bool.false_eq_true, if_false]
      have one : Falls bInv c.rnrm [⟨k + 1, i + 1, A.mul bInv c'.rnrm, A.div c'.rnrm c.rnrm⟩] c'.rnrm := ⟨_, hpos, l0, l1, hA.mul _ _, hA.div _ _, rfl⟩
      by_cases h1 : A.le c'.rnrm tol = true
      · simp only [if_pos h1]
        exact ⟨_, _, rfl, one, rfl⟩
      · have h1' : tol < c'.rnrm := by rw [hA.le] at h1; exact not_le.1 h1
        simp only [if_neg h1]
        by_cases h2 : A.le dtol c'.rnrm = true
        · simp only [if_pos h2]
          exact ⟨_, _, rfl, one, rfl⟩
        · simp only [if_neg h2]
          obtain ⟨M, e, g1, g2, g3⟩ := ih (i + 1) i c' _ _ (hinv (hdz (by linarith))) (by omega) h1'
          refine ⟨(⟨k + 1, i + 1, A.mul bInv c'.rnrm, A.div c'.rnrm c.rnrm⟩ : Line ℝ) :: M, e, ?_, ?_, g3⟩
          · simp [g1, Line.say]
          · exact ⟨_, hpos, l0, l1, hA.mul _ _, hA.div _ _, g2⟩

theorem afterInner_x (hA : Exact A) {mv pc : Callback σ E} {P : E →ₗ[ℝ] E} (hpc : Computes pc P) (p : Params ℝ) (b : E) (tol dtol : ℝ) (S : St σ ℝ E) (f : Flag) (iu its : Nat) (c : Cyc σ ℝ E) :
    match afterInner A mv pc p b tol dtol S f iu its c with
    | .ret _ => True
    | .brk S' _ => S'.x = S.x + P (A.comb iu c.V (A.trsv iu c.H c.s))
    | .next S' => S'.x = S.x + P (A.comb iu c.V (A.trsv iu c.H c.s)) := by
  have q1 : ∀ v o, (callPc pc c.W v o).1 = true := fun v o => (hpc _ _ _).1
  have q2 : ∀ v o, (callPc pc c.W v o).2.1 = P v := fun v o => (hpc _ _ _).2
  unfold afterInner
  simp only [q1, q2, Bool.not_true, Bool.false_eq_true, if_false, hA.vadd]
  by_cases h2 : f ≠ .unconverged
  · simp only [if_pos h2]
  · simp only [if_neg h2]
    split_ifs with h3
    · trivial
    · unfold afterResidual
      simp only
      split_ifs <;> trivial

theorem outer_falls (hA : Exact A) {mv pc : Callback σ E} {L P : E →ₗ[ℝ] E} (hmv : Computes mv L) (hpc : Computes pc P) (p : Params ℝ) (b : E) (junk : Nat → Nat → E) (m : Nat)
    (bInv tol dtol ρ : ℝ) (htol : 0 ≤ tol) (n : Nat) : ∀ (k : Nat) (S : St σ ℝ E), OX L b tol ρ S →
      ∃ (M : List (Line ℝ)) (e : ℝ), (outerLoopV A mv pc p b junk m bInv tol dtol true n k S).1 = M.map Line.say ∧ Falls bInv ‖b - L S.x‖ M e ∧
        match outerLoop A mv pc p b junk m bInv tol dtol n k S with
        | .ret R => ∃ o, R.out = some o ∧ o.flag = .breakdown
        | .brk S' _ => e = ‖b - L S'.x‖
        | .next S' => e = ‖b - L S'.x‖ := by
  induction n with
  | zero => intro k S _; exact ⟨[], _, rfl, rfl, rfl⟩
  | succ n ih =>
    intro k S h
    have hr : b - L S.x ≠ 0 := by
      intro h0
      have := h.tol
      rw [h0, norm_zero] at this
      linarith
    have hcyc : ({ V := [A.vscale (A.div A.one S.rnrm) S.r], H := [], giv := [], s := S.rnrm :: List.replicate m A.zero, w := S.w, pv := S.pv
                   rnrm := S.rnrm, W := S.W } : Cyc σ ℝ E) = cycle0 A m (b - L S.x) S.w S.pv S.W := by
      unfold cycle0
      rw [hA.nrm, ← h.r, h.rn, ← h.r]
    have hrn : (cycle0 A m (b - L S.x) S.w S.pv S.W).rnrm = ‖b - L S.x‖ := hA.nrm _
    obtain ⟨M, e, e1, e2, e3⟩ := inner_falls hA hmv hpc (junk k) bInv tol dtol htol (r0 := b - L S.x) k m 0 S.out.innerIts (cycle0 A m (b - L S.x) S.w S.pv S.W) _ _
      (cycle0_inv hA (L ∘ₗ P) m (b - L S.x) S.w S.pv S.W hr) (by simp [cycle0]) (by rw [hrn]; exact h.tol)
    rw [hrn] at e2
    have hc := cycle_exact hA hmv hpc (junk k) tol dtol htol b S.x S.w S.pv S.W m m (Nat.le_refl _) hr S.out.innerIts
    have e0 : (outerStepV A mv pc p b (junk k) m bInv tol dtol true k S).1 = M.map Line.say := by
      rw [← e1, ← hcyc]
      rfl
    have hx : match outerStep A mv pc p b (junk k) m bInv tol dtol k S with
        | .ret _ => True
        | .brk S' _ => e = ‖b - L S'.x‖
        | .next S' => e = ‖b - L S'.x‖ := by
      unfold outerStep
      simp only
      rw [hcyc]
      generalize innerLoop A mv pc (junk k) tol dtol m 0 S.out.innerIts (cycle0 A m (b - L S.x) S.w S.pv S.W) = I at hc e3 ⊢
      cases I with
      | ret f msg its W => trivial
      | done f iu its c =>
        have ha := afterInner_x (mv := mv) hA hpc p b tol dtol { S with out := { S.out with relres := A.mul bInv S.rnrm, outerIts := k } } f iu its c
        simp only at e3 ⊢
        generalize afterInner A mv pc p b tol dtol { S with out := { S.out with relres := A.mul bInv S.rnrm, outerIts := k } } f iu its c = R at ha ⊢
        cases R with
        | ret R => trivial
        | brk S' t =>
          simp only at ha ⊢
          rw [ha, ← e3]
          exact hc.2.1
        | next S' =>
          simp only at ha ⊢
          rw [ha, ← e3]
          exact hc.2.1
    have hst := outerStep_exact hA hmv hpc p b (junk k) m bInv tol dtol ρ htol k S h
    simp only [outerLoopV, outerLoop, outerStepV_snd, e0]
    generalize outerStep A mv pc p b (junk k) m bInv tol dtol k S = R at hx hst ⊢
    cases R with
    | ret R =>
      obtain ⟨o, a1, a2, -⟩ := hst
      exact ⟨M, e, rfl, e2, o, a1, a2⟩
    | brk S' t => exact ⟨M, e, rfl, e2, hx⟩
    | next S' =>
      obtain ⟨a1, a2, a3, a4, a5, n', _, _, a6⟩ := hst
      obtain ⟨M', e', f1, f2, f3⟩ := ih (k + 1) S' ⟨a1, a2, a3, le_trans a6.le h.le, a4⟩
      simp only at hx
      exact ⟨M ++ M', e', by simp [f1], Falls.append (hx ▸ f2) e2, f3⟩

/-- What the history shows in exact arithmetic, starting from the relative residual `rel`: no line is above the one before it, and the rates are the quotients of successive lines. -/
def Decreasing : ℝ → List (Line ℝ) → Prop
  | _, [] => True
  | rel, l :: L => 0 ≤ l.rel ∧ l.rel ≤ rel ∧ l.rate = l.rel / rel ∧ 0 ≤ l.rate ∧ l.rate ≤ 1 ∧ Decreasing l.rel L

/-- The relative residual in the last line. -/
def lastRel : ℝ → List (Line ℝ) → ℝ
  | rel, [] => rel
  | _, l :: L => lastRel l.rel L

theorem Falls.decreasing {bInv : ℝ} (hb : 0 < bInv) : ∀ {L : List (Line ℝ)} {ρ e : ℝ}, Falls bInv ρ L e → Decreasing (bInv * ρ) L ∧ lastRel (bInv * ρ) L = bInv * e := by
  intro L
  induction L with
  | nil => rintro ρ e rfl; exact ⟨trivial, rfl⟩
  | cons l L ih =>
    rintro ρ e ⟨ρ', h1, h2, h3, h4, h5, h6⟩
    obtain ⟨g1, g2⟩ := ih h6
    refine ⟨⟨by rw [h4]; positivity, by rw [h4]; exact mul_le_mul_of_nonneg_left h3 hb.le, ?_, by rw [h5]; positivity, by rw [h5]; exact (div_le_one h1).2 h3, by rw [h4]; exact g1⟩, ?_⟩
    · rw [h4, h5]
      field_simp
    · change lastRel l.rel L = _
      rw [h4]; exact g2

variable (hA : Exact A) {mv pc : Callback σ E} {L P : E →ₗ[ℝ] E} (hmv : Computes mv L) (hpc : Computes pc P)
  (N : Nat) (w0 pv0 : E) (junk : Nat → Nat → E) (p : Params ℝ) (b x0 : E) (s : σ) (scr : Screen ℝ)

/-- The exact history of a call from the guess `x0`. -/
def ExactHistory (L : E →ₗ[ℝ] E) (p : Params ℝ) (b x0 : E) (scr scr' : Screen ℝ) (R : Res σ ℝ E) : Prop :=
  (‖b - L x0‖ ≤ max (p.relTol * scaleOf b) p.absTol → scr' = scr) ∧
  (max (p.relTol * scaleOf b) p.absTol < ‖b - L x0‖ → ∃ (M : List (Line ℝ)) (o : GOut ℝ), R.out = some o ∧ Shows scr scr' (‖b - L x0‖ / scaleOf b) M ∧ Decreasing (‖b - L x0‖ / scaleOf b) M ∧
    (o.flag ≠ .breakdown → lastRel (‖b - L x0‖ / scaleOf b) M = ‖b - L R.x‖ / scaleOf b))

theorem finish_x (bInv tol : ℝ) (S : St σ ℝ E) (t : Bool) : (finish A mv b bInv tol S t).x = S.x := by
  unfold finish
  simp only
  split_ifs <;> rfl

include hA hmv hpc in
theorem iterate_falls (hp : Valid p) (hw : scr.fmt.width = 0) (m : Nat) (S : St σ ℝ E) (hr : S.r = b - L S.x) (hrn : S.rnrm = ‖b - L S.x‖) (hf : S.out.flag = .unconverged) :
    ExactHistory L p b S.x scr (scr.say (iterateV A mv pc p b junk m true S).1) (iterate A mv pc p b junk m S) := by
  have ht := convTol_nonneg hA p b hp
  unfold ExactHistory
  rw [← convTol_eq hA p b]
  unfold iterateV iterate
  simp only [hA.fin, Bool.not_true, Bool.false_eq_true, if_false]
  by_cases h1 : A.le S.rnrm (convTol A p b) = true
  · rw [if_pos h1, if_pos h1]
    rw [hA.le, hrn] at h1
    exact ⟨fun _ => rfl, fun h => absurd h (not_lt.2 h1)⟩
  · rw [if_neg h1, if_neg h1]
    rw [hA.le, hrn, not_le] at h1
    refine ⟨fun h => absurd h1 (not_lt.2 h), fun _ => ?_⟩
    obtain ⟨M, e, e1, e2, e3⟩ := outer_falls hA hmv hpc p b junk m (A.div A.one (bnorm A b)) (convTol A p b) (A.mul p.divTol S.rnrm) ‖b - L S.x‖ ht p.maxits.toNat 0 S ⟨hr, hrn, h1, le_refl _, hf⟩
    have hs := scaleOf_pos b
    have hb : A.div A.one (bnorm A b) = 1 / scaleOf b := by rw [hA.div, hA.one, bnorm_eq hA]
    have hh : A.mul (A.div A.one (bnorm A b)) S.rnrm = ‖b - L S.x‖ / scaleOf b := by rw [hA.mul, hb, hrn]; ring
    obtain ⟨d1, d2⟩ := e2.decreasing (by rw [hb]; positivity)
    rw [hb, show 1 / scaleOf b * ‖b - L S.x‖ = ‖b - L S.x‖ / scaleOf b by ring] at d1 d2
    simp only [if_true, List.singleton_append, e1, hh]
    rw [say_history scr hw]
    refine ⟨M, ?_⟩
    generalize outerLoop A mv pc p b junk m (A.div A.one (bnorm A b)) (convTol A p b) (A.mul p.divTol S.rnrm) p.maxits.toNat 0 S = R at e3 ⊢
    cases R with
    | ret R =>
      obtain ⟨o, g1, g2⟩ := e3
      exact ⟨o, g1, rfl, d1, fun h => absurd g2 h⟩
    | brk S' t =>
      obtain ⟨o, g1, -⟩ := finish_out (A := A) (mv := mv) b (A.div A.one (bnorm A b)) (convTol A p b) S' t
      refine ⟨o, g1, rfl, d1, fun _ => ?_⟩
      simp only at e3
      change _ = ‖b - L (finish A mv b _ _ S' t).x‖ / _
      rw [finish_x, d2, e3]; ring
    | next S' =>
      obtain ⟨o, g1, -⟩ := finish_out (A := A) (mv := mv) b (A.div A.one (bnorm A b)) (convTol A p b) S' p.testTrue
      refine ⟨o, g1, rfl, d1, fun _ => ?_⟩
      simp only at e3
      change _ = ‖b - L (finish A mv b _ _ S' _).x‖ / _
      rw [finish_x, d2, e3]; ring

include hA hmv hpc in
/-- **C155, the norms shown.** In exact arithmetic nothing is written when the guess is already within the tolerance.  Otherwise the history starts with the relative residual of the guess, no line is above the one
before it, also across restarts, every rate is the quotient of a line by the one before it, between zero and one, and unless the solver breaks down the last line is the relative residual of the vector returned. -/
theorem C155_exact (hp : Valid p) (hw : scr.fmt.width = 0) :
    ExactHistory L p b x0 scr (solveV A mv pc N w0 pv0 junk p true b x0 ⟨s, []⟩ scr).1 (solve A mv pc N w0 pv0 junk p b x0 ⟨s, []⟩) := by
  unfold solveV solve
  simp only [valid_good hA p hp, Bool.false_eq_true, if_false]
  by_cases hx : A.nonzero x0 = true
  · simp only [if_pos hx]
    have c1 : (callMv mv ⟨s, []⟩ x0 w0).1 = true := (hmv _ _ _).1
    have c2 : (callMv mv ⟨s, []⟩ x0 w0).2.1 = L x0 := (hmv _ _ _).2
    simp only [c1, c2, Bool.not_true, Bool.false_eq_true, if_false]
    exact iterate_falls hA hmv hpc junk p b scr hp hw _
      { x := x0, r := A.vsub b (L x0), w := L x0, pv := pv0, rnrm := A.nrm (A.vsub b (L x0)), out := { flag := .unconverged, innerIts := 0, outerIts := 0, relres := A.zero, msg := "" }, W := (callMv mv ⟨s, []⟩ x0 w0).2.2 }
      (hA.vsub _ _) (by simp only [hA.nrm, hA.vsub]) rfl
  · simp only [if_neg hx]
    have h0 : x0 = 0 := by
      by_contra h
      exact hx ((hA.nonzero x0).2 h)
    subst h0
    exact iterate_falls hA hmv hpc junk p b scr hp hw _
      { x := 0, r := b, w := w0, pv := pv0, rnrm := A.nrm b, out := { flag := .unconverged, innerIts := 0, outerIts := 0, relres := A.zero, msg := "" }, W := ⟨s, []⟩ } (by simp) (by simp [hA.nrm]) rfl

end Exactly

/-- The rotation of the plane with the right hand side 1, from the guess 0: a history is shown and the stream is left in scientific notation with two digits. -/
example (s : Screen ℝ) (hs : s.fmt = ⟨false, 6, 0⟩) :
    ∃ t M, t = (solveV (realArith ℂ) (fun (s : Unit) v _ => (true, rot90 v, s)) (fun s v _ => (true, v, s)) 2 0 0 (fun _ _ => 0) exRealP true 1 0 ⟨(), []⟩ s).1 ∧
      Shows s t 1 M ∧ Decreasing 1 M ∧ t.fmt ≠ s.fmt := by
  have hw : s.fmt.width = 0 := by rw [hs]
  have hsc : scaleOf (1 : ℂ) = 1 := by simp [scaleOf]
  obtain ⟨-, h⟩ := C155_exact (realArith_exact ℂ) (mv := fun (s : Unit) v _ => (true, rot90 v, s)) (pc := fun s v _ => (true, v, s)) (L := rot90) (P := LinearMap.id)
    (fun _ _ _ => ⟨rfl, rfl⟩) (fun _ _ _ => ⟨rfl, rfl⟩) 2 0 0 (fun _ _ => 0) exRealP 1 0 () s exRealP_valid hw
  obtain ⟨M, o, -, h1, h2, -⟩ := h (by norm_num [exRealP, hsc])
  rw [hsc, map_zero, sub_zero, norm_one, div_one] at h1 h2
  refine ⟨_, M, rfl, h1, h2, ?_⟩
  rw [C155_format _ _ _ _ _ _ _ _ _ (by norm_num) hw, hs]
  · simp
  · intro h
    rw [h] at h1
    simp [Shows, heading] at h1

end Blitzdg.Gmres
