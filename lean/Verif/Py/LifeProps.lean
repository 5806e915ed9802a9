import Verif.Py.Life

/-! C97: objects handed to Python and the objects they point to. -/

namespace Blitzdg.Py

/-- After the operations `ops`, giving up `x` would leave some live object pointing to it. -/
def Needed (s : List Obj) (x : Nat) : Prop := ∃ (y : Nat) (o : Obj), s[y]? = some o ∧ o.alive = true ∧ o.src = some x

/-- The program never gives up an object that a live one points to. -/
def Careful (ops : List Op) : Prop := ∀ pre x post s, ops = pre ++ Op.drop x :: post → run pre = .ok s → ¬ Needed s x

/-- Every live object points to a live one. -/
def Sound (s : List Obj) : Prop := ∀ (y : Nat) (o : Obj), s[y]? = some o → o.alive = true → ∀ x, o.src = some x → ∃ t : Obj, s[x]? = some t ∧ t.alive = true

theorem live_ok {k : Kind} {s : List Obj} {x : Nat} {o : Obj} (h : live k s x = .ok o) : s[x]? = some o ∧ o.alive = true := by
  unfold live at h
  cases hx : s[x]? with
  | none => rw [hx] at h; cases h
  | some o' =>
    rw [hx] at h
    simp only at h
    split at h
    · rename_i hc
      cases h
      simp at hc
      exact ⟨rfl, hc.1⟩
    · cases h

theorem live_ne_ub (k : Kind) (s : List Obj) (x : Nat) : live k s x ≠ .ub := by
  unfold live
  split
  · split <;> simp
  · simp

theorem deref_sound {s : List Obj} (h : Sound s) {y : Nat} {o : Obj} (hy : s[y]? = some o) (ha : o.alive = true) : deref s o = .ok () := by
  unfold deref
  cases hs : o.src with
  | none => rfl
  | some x =>
    obtain ⟨t, ht, hta⟩ := h y o hy ha x hs
    simp [ht, hta]

theorem sound_push {s : List Obj} (h : Sound s) (o : Obj) (ho : ∀ x, o.src = some x → ∃ t : Obj, s[x]? = some t ∧ t.alive = true) : Sound (s ++ [o]) := by
  intro y o' hy ha x hx
  have key : ∃ t : Obj, s[x]? = some t ∧ t.alive = true := by
    by_cases hl : y < s.length
    · rw [List.getElem?_append_left hl] at hy
      exact h y o' hy ha x hx
    · rw [List.getElem?_append_right (by omega)] at hy
      rw [List.getElem?_singleton] at hy
      split at hy
      · cases hy; exact ho x hx
      · cases hy
  obtain ⟨t, ht, hta⟩ := key
  have hlt : x < s.length := by
    rw [List.getElem?_eq_some_iff] at ht
    exact ht.1
  exact ⟨t, by rw [List.getElem?_append_left hlt]; exact ht, hta⟩

theorem sound_drop {s : List Obj} (h : Sound s) {x : Nat} {o : Obj} (hx : s[x]? = some o) (hn : ¬ Needed s x) : Sound (s.set x { o with alive := false }) := by
  have hlt : x < s.length := (List.getElem?_eq_some_iff.1 hx).1
  intro y o' hy ha z hz
  have hyx : y ≠ x := by
    intro e
    subst e
    rw [List.getElem?_set_self hlt] at hy
    cases hy
    exact absurd ha (by simp)
  rw [List.getElem?_set_ne (Ne.symm hyx)] at hy
  have hzx : z ≠ x := by
    intro e
    subst e
    exact hn ⟨y, o', hy, ha, hz⟩
  obtain ⟨t, ht, hta⟩ := h y o' hy ha z hz
  exact ⟨t, by rw [List.getElem?_set_ne (Ne.symm hzx)]; exact ht, hta⟩

theorem step_sound {s : List Obj} (h : Sound s) (op : Op) (hd : ∀ x, op = .drop x → ¬ Needed s x) : step s op ≠ .ub ∧ ∀ s', step s op = .ok s' → Sound s' := by
  have pushes : ∀ (k : Kind) (x : Nat) (o : Obj), (∀ z, o.src = some z → z = x) →
      (do let _ ← live k s x; pure (s ++ [o]) : Out (List Obj)) ≠ .ub ∧ ∀ s', (do let _ ← live k s x; pure (s ++ [o]) : Out (List Obj)) = .ok s' → Sound s' := by
    intro k x o ho
    cases hl : live k s x with
    | ub => exact absurd hl (live_ne_ub _ _ _)
    | throws => exact ⟨by simp, by simp⟩
    | ok t =>
      obtain ⟨h1, h2⟩ := live_ok hl
      refine ⟨by simp, fun s' hs' => ?_⟩
      simp only [Out.bind_ok, Out.pure_eq, Out.ok.injEq] at hs'
      subst hs'
      exact sound_push h o fun z hz => ⟨t, by rw [ho z hz]; exact h1, h2⟩
  cases op with
  | newMesh =>
    refine ⟨by simp [step], fun s' hs' => ?_⟩
    simp only [step, Out.ok.injEq] at hs'
    subst hs'
    exact sound_push h _ (by simp)
  | newProv m => exact pushes .mesh m ⟨.prov, some m, true⟩ (by simp)
  | newCtx p => exact pushes .prov p ⟨.dgctx, some p, true⟩ (by simp)
  | newVtk p => exact pushes .prov p ⟨.vtk, some p, true⟩ (by simp)
  | gauss p =>
    cases hl : live .prov s p with
    | ub => exact absurd hl (live_ne_ub _ _ _)
    | throws => exact ⟨by simp [step, hl], by simp [step, hl]⟩
    | ok t =>
      obtain ⟨h1, h2⟩ := live_ok hl
      have hdr := deref_sound h h1 h2
      refine ⟨by simp [step, hl, hdr], fun s' hs' => ?_⟩
      simp only [step, hl, hdr, Out.bind_ok, Out.pure_eq, Out.ok.injEq] at hs'
      subst hs'
      exact sound_push h _ (by simp)
  | prov p =>
    cases hl : live .prov s p with
    | ub => exact absurd hl (live_ne_ub _ _ _)
    | throws => exact ⟨by simp [step, hl], by simp [step, hl]⟩
    | ok t =>
      refine ⟨by simp [step, hl], fun s' hs' => ?_⟩
      simp only [step, hl, Out.bind_ok, Out.pure_eq, Out.ok.injEq] at hs'
      subst hs'
      exact h
  | use x =>
    cases hx : s[x]? with
    | none => exact ⟨by simp [step, hx], by simp [step, hx]⟩
    | some o =>
      by_cases ha : o.alive = true
      · have hdr := deref_sound h hx ha
        refine ⟨by simp [step, hx, ha, hdr], fun s' hs' => ?_⟩
        simp only [step, hx, ha, if_true, hdr, Out.bind_ok, Out.pure_eq, Out.ok.injEq] at hs'
        subst hs'
        exact h
      · exact ⟨by simp [step, hx, ha], by simp [step, hx, ha]⟩
  | drop x =>
    cases hx : s[x]? with
    | none => exact ⟨by simp [step, hx], by simp [step, hx]⟩
    | some o =>
      by_cases ha : o.alive = true
      · refine ⟨by simp [step, hx, ha], fun s' hs' => ?_⟩
        simp only [step, hx, ha, if_true, Out.ok.injEq] at hs'
        subst hs'
        exact sound_drop h hx (hd x rfl)
      · exact ⟨by simp [step, hx, ha], by simp [step, hx, ha]⟩

/-- **C97, what holds.** A program that never gives up an object while another one made from it is still held never touches destroyed storage, whatever it does in whatever order. -/
theorem C97_careful_partial (ops : List Op) (h : Careful ops) : run ops ≠ .ub := by
  suffices H : ∀ pre post, ops = pre ++ post → (run pre ≠ .ub ∧ ∀ s, run pre = .ok s → Sound s) → run (pre ++ post) ≠ .ub by
    refine H [] ops rfl ⟨by simp [run], fun s hs => ?_⟩
    simp only [run, loopM_nil, Out.ok.injEq] at hs
    subst hs
    intro y o hy
    simp at hy
  intro pre post
  induction post generalizing pre with
  | nil => intro _ hp; simpa using hp.1
  | cons op post ih =>
    intro he hp
    have := ih (pre ++ [op]) (by simp [he]) ?_
    · simpa using this
    · have hrun : run (pre ++ [op]) = (run pre >>= fun s => step s op) := by
        unfold run
        rw [loopM_append]
        congr 1
        funext s
        rw [loopM_cons]
        cases step s op <;> rfl
      rw [hrun]
      cases hr : run pre with
      | ub => exact absurd hr hp.1
      | throws => exact ⟨by simp, by simp⟩
      | ok s =>
        have hs := hp.2 s hr
        exact step_sound hs op fun x hx => by
          subst hx
          exact h pre x post s he hr

/-- **C97, refuted.** A DG context outlives its provisioner: `c = TriangleNodesProvisioner(N, mesh).dgContext(); c.x`. -/
theorem C97_context_dangles : run [.newMesh, .newProv 0, .newCtx 1, .use 2] = .ok [⟨.mesh, none, true⟩, ⟨.prov, some 0, true⟩, ⟨.dgctx, some 1, true⟩] ∧
    run [.newMesh, .newProv 0, .newCtx 1, .drop 1, .use 2] = .ub := ⟨rfl, rfl⟩

/-- **C97, refuted.** A provisioner outlives its mesh: the node data can still be used, but `buildGaussFaceNodes` reads the destroyed mesh; an outputter outlives its provisioner. -/
theorem C97_mesh_dangles : (∃ s, run [.newMesh, .newProv 0, .newCtx 1, .drop 0, .use 2, .prov 1] = .ok s) ∧ run [.newMesh, .newProv 0, .drop 0, .gauss 1] = .ub ∧
    run [.newMesh, .newProv 0, .newVtk 1, .drop 1, .use 2] = .ub := ⟨⟨_, rfl⟩, rfl, rfl⟩

/-- **C97, owning objects.** Gauss face and cubature contexts and exported arrays stay valid in every program, whatever has been given up. -/
theorem C97_owned (s : List Obj) (x : Nat) (o : Obj) (hx : s[x]? = some o) (ha : o.alive = true) (hs : o.src = none) : step s (.use x) = .ok s := by
  simp [step, hx, ha, deref, hs]

/-- In every state of every program the objects of class `owned` point to nothing else. -/
theorem C97_owned_src (ops : List Op) (s : List Obj) (h : run ops = .ok s) : ∀ (x : Nat) (o : Obj), s[x]? = some o → o.kind = .owned → o.src = none := by
  suffices H : ∀ (s0 s : List Obj) (ops : List Op), (∀ (x : Nat) (o : Obj), s0[x]? = some o → o.kind = .owned → o.src = none) → loopM step s0 ops = .ok s →
      ∀ (x : Nat) (o : Obj), s[x]? = some o → o.kind = .owned → o.src = none from H [] s ops (by simp) h
  intro s0 s ops
  induction ops generalizing s0 with
  | nil => intro h0 hr; simp only [loopM_nil, Out.ok.injEq] at hr; subst hr; exact h0
  | cons op ops ih =>
    intro h0 hr
    rw [loopM_cons] at hr
    obtain ⟨s1, h1, h2⟩ := Out.bind_eq_ok.1 hr
    refine ih s1 ?_ h2
    have push : ∀ o : Obj, (o.kind = .owned → o.src = none) → ∀ (x : Nat) (o' : Obj), (s0 ++ [o])[x]? = some o' → o'.kind = .owned → o'.src = none := by
      intro o ho x o' hx
      by_cases hl : x < s0.length
      · rw [List.getElem?_append_left hl] at hx
        exact h0 x o' hx
      · rw [List.getElem?_append_right (by omega), List.getElem?_singleton] at hx
        split at hx
        · cases hx; exact ho
        · cases hx
    cases op with
    | newMesh => simp only [step, Out.ok.injEq] at h1; subst h1; exact push _ (by simp)
    | newProv m =>
      obtain ⟨_, -, h1⟩ := Out.bind_eq_ok.1 h1
      simp only [Out.pure_eq, Out.ok.injEq] at h1; subst h1; exact push _ (by simp)
    | newCtx m =>
      obtain ⟨_, -, h1⟩ := Out.bind_eq_ok.1 h1
      simp only [Out.pure_eq, Out.ok.injEq] at h1; subst h1; exact push _ (by simp)
    | newVtk m =>
      obtain ⟨_, -, h1⟩ := Out.bind_eq_ok.1 h1
      simp only [Out.pure_eq, Out.ok.injEq] at h1; subst h1; exact push _ (by simp)
    | gauss m =>
      obtain ⟨_, -, h1⟩ := Out.bind_eq_ok.1 h1
      obtain ⟨_, -, h1⟩ := Out.bind_eq_ok.1 h1
      simp only [Out.pure_eq, Out.ok.injEq] at h1; subst h1; exact push _ (by simp)
    | prov m =>
      obtain ⟨_, -, h1⟩ := Out.bind_eq_ok.1 h1
      simp only [Out.pure_eq, Out.ok.injEq] at h1; subst h1; exact h0
    | use x =>
      simp only [step] at h1
      split at h1
      · split at h1
        · obtain ⟨_, -, h1⟩ := Out.bind_eq_ok.1 h1
          simp only [Out.pure_eq, Out.ok.injEq] at h1; subst h1; exact h0
        · cases h1
      · cases h1
    | drop x =>
      simp only [step] at h1
      split at h1
      · rename_i o hx
        split at h1
        · simp only [Out.ok.injEq] at h1
          subst h1
          intro y o' hy hk
          by_cases e : y = x
          · subst e
            rw [List.getElem?_set_self (List.getElem?_eq_some_iff.1 hx).1] at hy
            cases hy
            exact h0 y o hx hk
          · rw [List.getElem?_set_ne (Ne.symm e)] at hy
            exact h0 y o' hy hk
        · cases h1
      · cases h1

/-- A careful program that gives up everything it made, last first, with uses in between. -/
example : ∃ s, run [.newMesh, .newProv 0, .newCtx 1, .gauss 1, .use 2, .drop 2, .use 3, .drop 1, .use 3, .drop 0, .use 3] = .ok s := ⟨_, rfl⟩

end Blitzdg.Py
