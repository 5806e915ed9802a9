import Verif.LU.Spec

/-! C36: ownership and refinement of `LUSolver`. -/

namespace Blitzdg.LU

/-- The library objects a solver object refers to. -/
def handles (s : Solver) : List Nat := s.symbolic.toList ++ s.numeric.toList

/-- The same for a possibly destroyed object. -/
def handlesO : Option Solver → List Nat
  | some s => handles s
  | none => []

/-- All references held by solver objects. -/
def owned (l : List (Option Solver)) : List Nat := l.flatMap handlesO

/-- Every object ever handed out is either released once or referred to exactly once (`own`: the references). -/
def Bal (h : Heap) (own : List Nat) : Prop := (h.freed ++ own).Perm (List.range h.objs.length)

/-- The abstract state a concrete solver object stands for. -/
def Rep (h : Heap) (s : Solver) : Spec → Prop
  | .empty => s.numeric = none
  | .singular m n => s.mat = some m ∧ s.order = n ∧ ∃ j, s.numeric = some j ∧ h.objs[j]? = some (.num m true)
  | .ready m n => s.mat = some m ∧ s.order = n ∧ ∃ j, s.numeric = some j ∧ h.objs[j]? = some (.num m false)

/-- The same for possibly destroyed objects. -/
def RepO (h : Heap) : Option Solver → Option Spec → Prop
  | some s, some a => Rep h s a
  | none, none => True
  | _, _ => False

theorem bal_nodup {h : Heap} {own : List Nat} (b : Bal h own) : (h.freed ++ own).Nodup :=
  b.nodup_iff.2 List.nodup_range

theorem bal_owned {h : Heap} {own : List Nat} (b : Bal h own) {i : Nat} (hi : i ∈ own) : i < h.objs.length ∧ i ∉ h.freed := by
  refine ⟨?_, ?_⟩
  · have := b.mem_iff.1 (List.mem_append_right _ hi)
    simpa using this
  · intro hf
    have := bal_nodup b
    rw [List.nodup_append] at this
    exact this.2.2 i hf i hi rfl

theorem bal_perm {h : Heap} {a b : List Nat} (hb : Bal h a) (p : a.Perm b) : Bal h b :=
  (List.Perm.append_left _ p).symm.trans hb

theorem free_spec {h : Heap} {i : Nat} {own : List Nat} (b : Bal h (i :: own)) :
    ∃ h', h.free i = .ok h' ∧ Bal h' own ∧ h'.objs = h.objs := by
  have := bal_owned b (List.mem_cons_self ..)
  refine ⟨{ h with freed := h.freed ++ [i] }, by simp [Heap.free, this], ?_, rfl⟩
  unfold Bal at *
  simpa using b

theorem freeOpt_spec {h : Heap} {o : Option Nat} {own : List Nat} (b : Bal h (o.toList ++ own)) :
    ∃ h', freeOpt o h = .ok h' ∧ Bal h' own ∧ h'.objs = h.objs := by
  cases o with
  | none => exact ⟨h, rfl, by simpa using b, rfl⟩
  | some i => exact free_spec (by simpa using b)

theorem freeMem_spec {h : Heap} {s : Solver} {own : List Nat} (b : Bal h (handles s ++ own)) :
    ∃ h', freeMem h s = .ok (h', { s with symbolic := none, numeric := none }) ∧ Bal h' own ∧ h'.objs = h.objs := by
  have b1 : Bal h (s.symbolic.toList ++ (s.numeric.toList ++ own)) := by simpa [handles] using b
  obtain ⟨h1, e1, b2, o1⟩ := freeOpt_spec b1
  obtain ⟨h2, e2, b3, o2⟩ := freeOpt_spec b2
  exact ⟨h2, by simp [freeMem, e1, e2], b3, by rw [o2, o1]⟩

theorem alloc_bal {h : Heap} {own : List Nat} (o : Obj) (b : Bal h own) :
    Bal (h.alloc o).2 (h.objs.length :: own) := by
  unfold Bal Heap.alloc at *
  simp only [List.length_append, List.length_cons, List.length_nil, Nat.zero_add, List.range_succ]
  refine (List.perm_middle).trans ?_
  exact (List.Perm.cons _ b).trans (by simpa using (List.perm_append_comm (l₁ := [h.objs.length])))

theorem use_alloc {h : Heap} {own : List Nat} (o : Obj) (b : Bal h own) :
    (h.alloc o).2.use h.objs.length = .ok o := by
  have : h.objs.length ∉ h.freed := by
    intro hf
    have := b.mem_iff.1 (List.mem_append_left _ hf)
    simp at this
  simp [Heap.use, Heap.alloc, this]

/-- Objects already handed out keep their contents. -/
def Ext (h h' : Heap) : Prop := ∀ (j : Nat) (o : Obj), h.objs[j]? = some o → h'.objs[j]? = some o

theorem Ext.of_eq {h h' : Heap} (e : h'.objs = h.objs) : Ext h h' := by
  intro j o hj; rw [e]; exact hj

theorem Ext.trans {a b c : Heap} (x : Ext a b) (y : Ext b c) : Ext a c := fun j o hj => y j o (x j o hj)

theorem Ext.alloc (h : Heap) (o : Obj) : Ext h (h.alloc o).2 := by
  intro j o' hj
  have : j < h.objs.length := by
    rw [List.getElem?_eq_some_iff] at hj; exact hj.1
  simp only [Heap.alloc]
  rw [List.getElem?_append_left this]; exact hj

theorem Rep.ext {h h' : Heap} {s : Solver} {a : Spec} (x : Ext h h') (r : Rep h s a) : Rep h' s a := by
  cases a with
  | empty => exact r
  | singular m n => obtain ⟨p, q, j, hj, e⟩ := r; exact ⟨p, q, j, hj, x j _ e⟩
  | ready m n => obtain ⟨p, q, j, hj, e⟩ := r; exact ⟨p, q, j, hj, x j _ e⟩

theorem RepO.ext {h h' : Heap} {s : Option Solver} {a : Option Spec} (x : Ext h h') (r : RepO h s a) : RepO h' s a := by
  cases s <;> cases a <;> simp only [RepO] at r ⊢
  exact r.ext x

theorem fresh_spec {h : Heap} {s : Solver} {own : List Nat} {n m : Nat} (lib : Lib) (b : Bal h own)
    (hs : s.symbolic = none) (hn : s.numeric = none) (ho : s.order = n) (hm : s.mat = some m) :
    ∃ h' s', factorizeFresh h s m lib = .ok (h', s', if lib = .good then .done else .threw) ∧ Bal h' (handles s' ++ own) ∧
      Ext h h' ∧ Rep h' s' (.after m n lib) := by
  cases lib with
  | symFail =>
    exact ⟨h, s, by simp [factorizeFresh], by simpa [handles, hs, hn] using b, fun _ _ e => e, hn⟩
  | numFail =>
    refine ⟨(h.alloc (.sym m)).2, { s with symbolic := some h.objs.length }, ?_, ?_, Ext.alloc _ _, hn⟩
    · simp only [factorizeFresh]
      have := use_alloc (.sym m) b
      simp only [Heap.alloc] at this ⊢
      simp [this]
    · simpa [handles, hn] using alloc_bal (.sym m) b
  | numSingular =>
    have b1 := alloc_bal (.sym m) b
    have b2 := alloc_bal (.num m true) b1
    refine ⟨((h.alloc (.sym m)).2.alloc (.num m true)).2,
      { s with symbolic := some h.objs.length, numeric := some (h.objs.length + 1) }, ?_, ?_,
      (Ext.alloc _ _).trans (Ext.alloc _ _), hm, ho, h.objs.length + 1, rfl, ?_⟩
    · simp only [factorizeFresh]
      have := use_alloc (.sym m) b
      simp only [Heap.alloc] at this ⊢
      simp [this]
    · have : ((h.alloc (.sym m)).2).objs.length = h.objs.length + 1 := by simp [Heap.alloc]
      rw [this] at b2
      exact bal_perm b2 (by simpa [handles] using List.Perm.swap _ _ _)
    · simp [Heap.alloc]
  | good =>
    have b1 := alloc_bal (.sym m) b
    have b2 := alloc_bal (.num m false) b1
    have l1 : ((h.alloc (.sym m)).2).objs.length = h.objs.length + 1 := by simp [Heap.alloc]
    rw [l1] at b2
    obtain ⟨h3, e3, b3, o3⟩ := free_spec (bal_perm b2 (List.Perm.swap _ _ _))
    refine ⟨h3, { s with symbolic := none, numeric := some (h.objs.length + 1) }, ?_, ?_,
      ((Ext.alloc _ _).trans (Ext.alloc _ _)).trans (Ext.of_eq o3), hm, ho, h.objs.length + 1, rfl, ?_⟩
    · simp only [factorizeFresh]
      have := use_alloc (.sym m) b
      simp only [Heap.alloc] at this e3 ⊢
      simp only [this, Out.bind_ok]
      simp only [e3, Out.bind_ok]
      simp
    · simpa [handles] using b3
    · rw [o3]; simp [Heap.alloc]

theorem factorize_spec {dims : Nat → Nat × Nat} {h : Heap} {s : Solver} {own : List Nat} {a : Spec} (m : Nat) (lib : Lib)
    (b : Bal h (handles s ++ own)) (r : Rep h s a) :
    ∃ h' s', factorize dims h s m lib =
        .ok (h', s', if (dims m).1 = (dims m).2 then (if lib = .good then .done else .threw) else .threw) ∧
      Bal h' (handles s' ++ own) ∧ Ext h h' ∧ Rep h' s' (if (dims m).1 = (dims m).2 then .after m (dims m).1 lib else a) := by
  by_cases hd : (dims m).1 = (dims m).2
  · obtain ⟨h1, e1, b1, o1⟩ := freeMem_spec (s := { s with order := (dims m).1, mat := some m }) b
    obtain ⟨h2, s2, e2, b2, x2, r2⟩ :=
      fresh_spec (h := h1) (s := { s with order := (dims m).1, mat := some m, symbolic := none, numeric := none }) (n := (dims m).1) (m := m)
        lib b1 rfl rfl rfl rfl
    refine ⟨h2, s2, ?_, b2, (Ext.of_eq o1).trans x2, ?_⟩
    · rw [factorize, if_neg (by simp [hd]), e1]
      simp only [Out.bind_ok, e2, if_pos hd]
    · rw [if_pos hd]; exact r2
  · refine ⟨h, s, ?_, b, fun _ _ e => e, ?_⟩
    · rw [factorize, if_pos hd, if_neg hd]
    · rw [if_neg hd]; exact r

theorem solve_spec {h : Heap} {s : Solver} {own : List Nat} {a : Spec} (dead : List Nat) (p q : Nat) (ok : Bool)
    (b : Bal h (handles s ++ own)) (r : Rep h s a) : solve dead h s p q ok = a.solve dead p q ok := by
  cases a with
  | empty => simp only [Rep] at r; simp [solve, r, Spec.solve]
  | singular m n =>
    obtain ⟨hm, ho, j, hj, e⟩ := r
    have hf : j ∉ h.freed := (bal_owned b (by simp [handles, hj])).2
    simp only [solve, hj, hm, ho, Spec.solve, Heap.use, hf, if_false, rd, e]
    by_cases h1 : p < n <;> by_cases h2 : q < n <;> by_cases h3 : m ∈ dead <;> simp [h1, h2, h3, umfSolve]
  | ready m n =>
    obtain ⟨hm, ho, j, hj, e⟩ := r
    have hf : j ∉ h.freed := (bal_owned b (by simp [handles, hj])).2
    simp only [solve, hj, hm, ho, Spec.solve, Heap.use, hf, if_false, rd, e]
    by_cases h1 : p < n <;> by_cases h2 : q < n <;> by_cases h3 : m ∈ dead <;> cases ok <;> simp [h1, h2, h3, umfSolve]

theorem owned_set {l : List (Option Solver)} {i : Nat} {s : Option Solver} (hi : l[i]? = some s) :
    ∃ rest, (owned l).Perm (handlesO s ++ rest) ∧ ∀ t, (owned (l.set i t)).Perm (handlesO t ++ rest) := by
  induction l generalizing i with
  | nil => simp at hi
  | cons x l ih =>
    cases i with
    | zero =>
      simp only [List.getElem?_cons_zero, Option.some.injEq] at hi
      subst hi
      exact ⟨owned l, by simp [owned], fun t => by simp [owned]⟩
    | succ i =>
      simp only [List.getElem?_cons_succ] at hi
      obtain ⟨rest, p, q⟩ := ih hi
      refine ⟨handlesO x ++ rest, ?_, fun t => ?_⟩
      · simp only [owned, List.flatMap_cons] at p ⊢
        exact (List.Perm.append_left _ p).trans (by rw [← List.append_assoc, ← List.append_assoc]; exact List.Perm.append_right _ List.perm_append_comm)
      · have := q t
        simp only [owned, List.set_cons_succ, List.flatMap_cons] at this ⊢
        exact (List.Perm.append_left _ this).trans (by rw [← List.append_assoc, ← List.append_assoc]; exact List.Perm.append_right _ List.perm_append_comm)

/-- The relation between the program state and the abstract one. -/
structure Sim (w : World) (a : SpecWorld) : Prop where
  len : w.solvers.length = a.solvers.length
  rep : ∀ (i : Nat) s t, w.solvers[i]? = some s → a.solvers[i]? = some t → RepO w.heap s t
  dead : w.dead = a.dead
  bal : Bal w.heap (owned w.solvers)

/-- The two outcomes agree: both undefined, or the same result in related states. -/
def Match (x : Out (World × Res)) (y : Out (SpecWorld × Res)) : Prop :=
  (x = .ub ∧ y = .ub) ∨ ∃ w a r, x = .ok (w, r) ∧ y = .ok (a, r) ∧ Sim w a

theorem sim_get {w : World} {a : SpecWorld} (S : Sim w a) (i : Nat) :
    (w.solvers[i]? = none ∧ a.solvers[i]? = none) ∨ (w.solvers[i]? = some none ∧ a.solvers[i]? = some none) ∨
      ∃ s t, w.solvers[i]? = some (some s) ∧ a.solvers[i]? = some (some t) ∧ Rep w.heap s t := by
  by_cases hi : i < w.solvers.length
  · have h1 : w.solvers[i]? = some w.solvers[i] := by simp [hi]
    have hi' : i < a.solvers.length := S.len ▸ hi
    have h2 : a.solvers[i]? = some a.solvers[i] := by simp [hi']
    have r := S.rep i _ _ h1 h2
    cases e1 : w.solvers[i] <;> cases e2 : a.solvers[i] <;> rw [e1, e2] at r <;> simp only [RepO] at r
    · right; left; rw [h1, h2, e1, e2]; exact ⟨rfl, rfl⟩
    · right; right; rw [h1, h2, e1, e2]; exact ⟨_, _, rfl, rfl, r⟩
  · left
    refine ⟨by simpa using hi, ?_⟩
    have : ¬ i < a.solvers.length := by rw [← S.len]; exact hi
    simpa using this

/-- Replacing solver `i`. -/
theorem sim_set {w : World} {a : SpecWorld} (S : Sim w a) {i : Nat} {s : Option Solver} {t : Option Spec} {h : Heap}
    (x : Ext w.heap h) (r : RepO h s t) (b : Bal h (owned (w.solvers.set i s))) :
    Sim { w with solvers := w.solvers.set i s, heap := h } { a with solvers := a.solvers.set i t } := by
  refine ⟨by simp [S.len], ?_, S.dead, b⟩
  intro j s' t' hs ht
  simp only [List.getElem?_set] at hs ht
  by_cases hij : i = j
  · subst hij
    by_cases hl : i < w.solvers.length
    · have hl' : i < a.solvers.length := S.len ▸ hl
      simp only [hl, hl', if_true, Option.some.injEq] at hs ht
      subst hs ht; exact r
    · simp [hl] at hs
  · simp only [hij, if_false] at hs ht
    exact (S.rep j _ _ hs ht).ext x

theorem step_spec {dims : Nat → Nat × Nat} {w : World} {a : SpecWorld} (S : Sim w a) (o : Op) (hc : ∀ i, o ≠ .copy i) :
    Match (step dims w o) (specStep dims a o) := by
  cases o with
  | copy i => exact absurd rfl (hc i)
  | create =>
    right
    refine ⟨_, _, .done, rfl, rfl, ?_⟩
    refine ⟨by simp [S.len], ?_, S.dead, ?_⟩
    · intro i s t hs ht
      by_cases hi : i < w.solvers.length
      · have hi' : i < a.solvers.length := S.len ▸ hi
        simp only [List.getElem?_append_left hi, List.getElem?_append_left hi'] at hs ht
        exact S.rep i s t hs ht
      · have hi' : ¬ i < a.solvers.length := by rw [← S.len]; exact hi
        simp only [List.getElem?_append_right (Nat.le_of_not_lt hi), List.getElem?_append_right (Nat.le_of_not_lt hi')] at hs ht
        rw [S.len] at hs
        cases hk : i - a.solvers.length with
        | zero =>
          rw [hk] at hs ht
          simp only [List.getElem?_cons_zero, Option.some.injEq] at hs ht
          subst hs ht; exact rfl
        | succ k => rw [hk] at hs; simp at hs
    · have : owned (w.solvers ++ [some Solver.new]) = owned w.solvers := by
        simp [owned, handlesO, handles, Solver.new]
      simp only [this]; exact S.bal
  | dropMat m =>
    right
    exact ⟨_, _, .done, rfl, rfl, S.len, S.rep, by simp [S.dead], S.bal⟩
  | factorize i m lib =>
    rcases sim_get S i with ⟨e1, e2⟩ | ⟨e1, e2⟩ | ⟨s, t, e1, e2, r⟩
    · right; exact ⟨w, a, .done, by simp [step, e1], by simp [specStep, e2], S⟩
    · right; exact ⟨w, a, .done, by simp [step, e1], by simp [specStep, e2], S⟩
    · by_cases hd : m ∈ w.dead
      · left; exact ⟨by simp [step, e1, hd], by simp [specStep, e2, ← S.dead, hd]⟩
      · obtain ⟨rest, p, q⟩ := owned_set e1
        obtain ⟨h', s', ef, b', x', r'⟩ := factorize_spec (dims := dims) m lib (bal_perm S.bal p) r
        have bset : Bal h' (owned (w.solvers.set i (some s'))) := bal_perm b' (q (some s')).symm
        right
        by_cases hsq : (dims m).1 = (dims m).2
        · rw [if_pos hsq] at r' ef
          refine ⟨_, _, if lib = .good then .done else .threw, ?_, ?_, sim_set S (s := some s') (t := some (.after m (dims m).1 lib)) x' r' bset⟩
          · simp only [step, e1, if_neg hd, ef, Out.bind_ok, Out.pure_eq]
          · simp only [specStep, e2, ← S.dead, if_neg hd, if_pos hsq]
        · rw [if_neg hsq] at r' ef
          refine ⟨_, _, .threw, ?_, ?_, sim_set S (s := some s') (t := some t) x' r' bset⟩
          · simp only [step, e1, if_neg hd, ef, Out.bind_ok, Out.pure_eq]
          · simp only [specStep, e2, ← S.dead, if_neg hd, if_neg hsq]
            have : a.solvers.set i (some t) = a.solvers := by
              obtain ⟨hl, he⟩ := List.getElem?_eq_some_iff.1 e2
              rw [← he]; exact List.set_getElem_self hl
            rw [this, S.dead]
  | solve i p q ok =>
    rcases sim_get S i with ⟨e1, e2⟩ | ⟨e1, e2⟩ | ⟨s, t, e1, e2, r⟩
    · right; exact ⟨w, a, .done, by simp [step, e1], by simp [specStep, e2], S⟩
    · right; exact ⟨w, a, .done, by simp [step, e1], by simp [specStep, e2], S⟩
    · obtain ⟨rest, p', _⟩ := owned_set e1
      have := solve_spec w.dead p q ok (bal_perm S.bal p') r
      simp only [step, specStep, e1, e2, this, ← S.dead]
      have hne : t.solve w.dead p q ok ≠ .throws := by
        cases t <;> simp only [Spec.solve] <;> (try split) <;> (try split) <;> (try split) <;> simp
      cases hs : t.solve w.dead p q ok with
      | ok res => right; exact ⟨w, a, res, rfl, rfl, S⟩
      | throws => exact absurd hs hne
      | ub => left; exact ⟨rfl, rfl⟩
  | destroy i =>
    rcases sim_get S i with ⟨e1, e2⟩ | ⟨e1, e2⟩ | ⟨s, t, e1, e2, r⟩
    · right; exact ⟨w, a, .done, by simp [step, e1], by simp [specStep, e2], S⟩
    · right; exact ⟨w, a, .done, by simp [step, e1], by simp [specStep, e2], S⟩
    · obtain ⟨rest, p, q⟩ := owned_set e1
      obtain ⟨h', ef, b', o'⟩ := freeMem_spec (bal_perm S.bal p)
      right
      refine ⟨_, _, .done, ?_, ?_,
        sim_set S (i := i) (s := none) (t := none) (Ext.of_eq o') trivial (bal_perm b' (q none).symm)⟩
      · simp only [step, e1, ef, Out.bind_ok, Out.pure_eq]
      · simp only [specStep, e2]

theorem run_spec {dims : Nat → Nat × Nat} {w : World} {a : SpecWorld} (S : Sim w a) (os : List Op) (hc : NoCopy os) :
    (run dims w os = .ub ∧ specRun dims a os = .ub) ∨
      ∃ w' a' rs, run dims w os = .ok (w', rs) ∧ specRun dims a os = .ok (a', rs) ∧ Sim w' a' := by
  induction os generalizing w a with
  | nil => right; exact ⟨w, a, [], rfl, rfl, S⟩
  | cons o os ih =>
    have hc' : NoCopy os := fun i hi => hc i (List.mem_cons_of_mem _ hi)
    rcases step_spec (dims := dims) S o (fun i e => hc i (e ▸ List.mem_cons_self ..)) with ⟨e1, e2⟩ | ⟨w1, a1, r, e1, e2, S1⟩
    · left; exact ⟨by simp [run, e1], by simp [specRun, e2]⟩
    · rcases ih S1 hc' with ⟨f1, f2⟩ | ⟨w2, a2, rs, f1, f2, S2⟩
      · left; exact ⟨by simp [run, e1, f1], by simp [specRun, e2, f2]⟩
      · right; exact ⟨w2, a2, r :: rs, by simp [run, e1, f1], by simp [specRun, e2, f2], S2⟩

theorem sim_init : Sim World.init { solvers := [], dead := [] } :=
  ⟨rfl, by intro i s t h; simp [World.init] at h, rfl, by simp [Bal, World.init, owned]⟩

/-- C36 (behaviour): every program that does not copy solver objects observes exactly what the ownership-free description prescribes: `solve` without
factors throws, with factors it solves with the matrix of the last successful `factorize`; the only undefined behaviour is using a matrix the
client has destroyed.  Missing (why partial): copies of solver objects, see `C36_copy_double_free`. -/
theorem C36_behaviour_partial (dims : Nat → Nat × Nat) (os : List Op) (hc : NoCopy os) :
    seen (run dims World.init os) = seen (specRun dims { solvers := [], dead := [] } os) := by
  rcases run_spec (dims := dims) sim_init os hc with ⟨e1, e2⟩ | ⟨w, a, rs, e1, e2, _⟩ <;> rw [e1, e2] <;> rfl

/-- C36 (no double release): after any program without copies, no library object has been released twice, and every released
or referenced object was handed out. -/
theorem C36_released_at_most_once_partial (dims : Nat → Nat × Nat) (os : List Op) (hc : NoCopy os) (w : World) (rs : List Res)
    (hr : run dims World.init os = .ok (w, rs)) : w.heap.freed.Nodup ∧ ∀ i ∈ w.heap.freed, i < w.heap.objs.length := by
  rcases run_spec (dims := dims) sim_init os hc with ⟨e1, _⟩ | ⟨w', a, rs', e1, _, S⟩
  · rw [hr] at e1; cases e1
  · rw [hr] at e1; cases e1
    refine ⟨(List.nodup_append.1 (bal_nodup S.bal)).1, fun i hi => ?_⟩
    simpa using S.bal.mem_iff.1 (List.mem_append_left _ hi)

/-- C36 (no leak): once every solver object has been destroyed, every object the library handed out has been released, exactly once. -/
theorem C36_no_leak_partial (dims : Nat → Nat × Nat) (os : List Op) (hc : NoCopy os) (w : World) (rs : List Res)
    (hr : run dims World.init os = .ok (w, rs)) (hd : ∀ s ∈ w.solvers, s = none) :
    ∀ i < w.heap.objs.length, w.heap.freed.count i = 1 := by
  rcases run_spec (dims := dims) sim_init os hc with ⟨e1, _⟩ | ⟨w', a, rs', e1, _, S⟩
  · rw [hr] at e1; cases e1
  · rw [hr] at e1; cases e1
    have ho : owned w.solvers = [] := by
      simp only [owned, List.flatMap_eq_nil_iff]
      intro s hs; rw [hd s hs]; rfl
    have hb := S.bal
    rw [ho] at hb
    simp only [Bal, List.append_nil] at hb
    intro i hi
    rw [hb.count_eq]
    have h1 : (List.range w.heap.objs.length).count i ≤ 1 := List.nodup_iff_count.1 List.nodup_range i
    have h2 : 0 < (List.range w.heap.objs.length).count i := List.count_pos_iff.2 (by simpa using hi)
    omega

/-- C36 (no undefined behaviour): a program without copies that keeps its matrices alive runs without undefined behaviour. -/
theorem C36_defined_partial (dims : Nat → Nat × Nat) (os : List Op) (hc : NoCopy os) (hm : ∀ m, Op.dropMat m ∉ os) :
    ∃ w rs, run dims World.init os = .ok (w, rs) ∧ rs.length = os.length := by
  have key : ∀ (os : List Op) (a : SpecWorld), a.dead = [] → (∀ m, Op.dropMat m ∉ os) →
      ∃ a' rs, specRun dims a os = .ok (a', rs) ∧ rs.length = os.length := by
    intro os
    induction os with
    | nil => intro a _ _; exact ⟨a, [], rfl, rfl⟩
    | cons o os ih =>
      intro a ha hm
      have hm' : ∀ m, Op.dropMat m ∉ os := fun m h => hm m (List.mem_cons_of_mem _ h)
      have hs : ∃ a1 r, specStep dims a o = .ok (a1, r) ∧ a1.dead = [] := by
        cases o with
        | create => exact ⟨_, _, rfl, ha⟩
        | copy i => exact ⟨_, _, rfl, ha⟩
        | dropMat m => exact absurd (List.mem_cons_self ..) (hm m)
        | factorize i m lib =>
          simp only [specStep, ha]
          split
          · by_cases hd : (dims m).1 = (dims m).2
            · simp [hd]
            · simp [hd, ha]
          · exact ⟨_, _, rfl, ha⟩
        | destroy i =>
          simp only [specStep]
          split
          · exact ⟨_, _, rfl, ha⟩
          · exact ⟨_, _, rfl, ha⟩
        | solve i p q ok =>
          simp only [specStep, ha]
          split
          · rename_i s _
            have : ∃ r, s.solve [] p q ok = .ok r := by
              cases s <;> simp only [Spec.solve] <;> (try split) <;> (try split) <;> (try split) <;> simp_all
            obtain ⟨r, hr⟩ := this
            exact ⟨a, r, by simp [hr], ha⟩
          · exact ⟨_, _, rfl, ha⟩
      obtain ⟨a1, r, e, h1⟩ := hs
      obtain ⟨a2, rs, e2, hl⟩ := ih a1 h1 hm'
      exact ⟨a2, r :: rs, by simp [specRun, e, e2], by simp [hl]⟩
  obtain ⟨a', rs, e, hl⟩ := key os { solvers := [], dead := [] } rfl hm
  rcases run_spec (dims := dims) sim_init os hc with ⟨_, e2⟩ | ⟨w, a, rs', e1, e2, _⟩
  · rw [e] at e2; cases e2
  · rw [e] at e2; cases e2
    exact ⟨w, rs, e1, hl⟩

/-- A concrete program: failed and successful factorisations, a refactorisation, solves, destruction. -/
example :
    let dims := fun m => if m = 7 then (2, 3) else (3, 3)
    let os := [Op.create, .solve 0 3 3 true, .factorize 0 1 .numFail, .solve 0 3 3 true, .factorize 0 2 .good, .factorize 0 7 .good,
      .solve 0 3 3 true, .solve 0 2 3 true, .factorize 0 4 .numSingular, .solve 0 3 3 true, .destroy 0]
    NoCopy os ∧ run dims World.init os =
      .ok ({ solvers := [none], heap := { objs := [.sym 1, .sym 2, .num 2 false, .sym 4, .num 4 true], freed := [0, 1, 2, 3, 4] }, dead := [] },
        [.done, .threw, .threw, .threw, .done, .threw, .solved 2, .threw, .threw, .threwDirty, .done]) := by
  refine ⟨fun i => by simp, by decide⟩

/-- C36 is false for copies: destroying a solver that holds factors and a copy of it releases an object twice. -/
theorem C36_copy_double_free (dims : Nat → Nat × Nat) (w : World) (i j : Nat) (s : Solver) (hs : w.solvers[i]? = some (some s))
    (hj : s.numeric = some j) : run dims w [.copy i, .destroy i, .destroy w.solvers.length] = .ub := by
  have hi : i < w.solvers.length := (List.getElem?_eq_some_iff.1 hs).1
  have h1 : (w.solvers ++ [some s])[i]? = some (some s) := by rw [List.getElem?_append_left hi]; exact hs
  have hne : i ≠ w.solvers.length := by omega
  simp only [run, step, hs, Out.bind_ok, h1]
  cases hf : freeMem w.heap s with
  | ub => rfl
  | throws =>
    exfalso
    revert hf
    unfold freeMem
    cases s.symbolic <;> simp only [freeOpt, hj, Heap.free] <;> (try split) <;> simp <;> (try split) <;> simp
  | ok p =>
    obtain ⟨h', s'⟩ := p
    have hmem : j ∈ h'.freed := by
      revert hf
      unfold freeMem
      cases s.symbolic with
      | none =>
        simp only [freeOpt, hj, Heap.free, Out.bind_ok]
        split
        · simp only [Out.bind_ok, Out.pure_eq, Out.ok.injEq, Prod.mk.injEq]; rintro ⟨rfl, _⟩; simp
        · simp
      | some k =>
        simp only [freeOpt, hj, Heap.free]
        split
        · simp only [Out.bind_ok]
          split
          · simp only [Out.bind_ok, Out.pure_eq, Out.ok.injEq, Prod.mk.injEq]; rintro ⟨rfl, _⟩; simp
          · simp
        · simp
    have h2 : ((w.solvers ++ [some s]).set i none)[w.solvers.length]? = some (some s) := by
      rw [List.getElem?_set_ne hne]; simp
    simp only [Out.bind_ok, Out.pure_eq, h2]
    have : freeMem h' s = .ub := by
      unfold freeMem
      cases s.symbolic with
      | none => simp [freeOpt, hj, Heap.free, hmem]
      | some k =>
        simp only [freeOpt, hj, Heap.free]
        split
        · simp [hmem]
        · rfl
    rw [this]
    rfl

/-- The hypotheses are met: a factorised solver. -/
example : run (fun _ => (3, 3)) World.init [.create, .factorize 0 1 .good, .copy 0, .destroy 0, .destroy 1] = .ub := by decide

end Blitzdg.LU
