import Verif.Mesh.History
import Verif.Mesh.ReadProps
import Verif.Py.ExportProps

/-!
A mesh manager over its lifetime (C136, C137).
-/

namespace Blitzdg.Mesh

open Blitzdg.Csv

set_option linter.unusedSectionVars false

variable {R : Type}

/-! ### Specification -/

/-- The manager holds the mesh `M`. -/
def Holds (s : Manager R) (M : MM R) : Prop :=
  s.dim = M.dim ∧ s.nv = M.nv ∧ s.nf = M.nf ∧ s.k = M.k ∧ s.vert = some M.vert ∧ s.e2v = some M.e2v ∧ s.tabs = some (M.e2e, M.e2f, M.bc)

/-- A call and the function of the manager's mesh it should be: the same outcome, and the returned mesh is held. -/
def Agree (x : Out (MM R)) (y : Res (Manager R)) : Prop :=
  match x, y with
  | .ok M, .done s => Holds s M
  | .throws, .threw _ => True
  | .ub, .ub => True
  | _, _ => False

/-- The arrays have the sizes the counters announce. -/
def Fits (s : Manager R) : Prop :=
  (∀ v, s.vert = some v → v.length = s.nv * s.dim) ∧ (∀ e, s.e2v = some e → e.length = s.k * s.nf) ∧
  (∀ t, s.tabs = some t → t.1.length = s.k * s.nf ∧ t.2.1.length = s.k * s.nf ∧ t.2.2.length = s.k * s.nf)

/-- The array `a` shows the `m` by `n` table held in `x`. -/
def Shows {β : Type} [Zero β] (x : Option (List β)) (m n : ℕ) (out : Out (Py.NdArray β)) : Prop :=
  ∀ l, x = some l → ∃ a, out = .ok a ∧ Py.SameRows a m n l

/-- A call that reads a table of vertices or elements. -/
def Call.Table : Call R → Prop
  | .readVertices _ => True
  | .readElements _ => True
  | _ => False

/-- A call that loads elements or vertices. -/
def Call.Loads : Call R → Prop
  | .partition _ => False
  | _ => True

/-! ### Lemmas -/

theorem loop_keeps {σ β : Type} {f : σ → β → Out σ} (P : σ → Prop) (hf : ∀ s x s', P s → f s x = .ok s' → P s') :
    ∀ (l : List β) (s s' : σ), P s → loopM f s l = .ok s' → P s' := by
  intro l
  induction l with
  | nil => intro s s' h e; cases e; exact h
  | cons x l ih =>
    intro s s' h e
    rw [loopM_cons] at e
    obtain ⟨t, h1, h2⟩ := Out.bind_eq_ok.1 e
    exact ih t s' (hf s x t h h1) h2

theorem loop_no_throw {σ β : Type} {f : σ → β → Out σ} (hf : ∀ s x, f s x ≠ .throws) : ∀ (l : List β) (s : σ), loopM f s l ≠ .throws := by
  intro l
  induction l with
  | nil => intro s h; cases h
  | cons x l ih =>
    intro s e
    rw [loopM_cons] at e
    cases h : f s x with
    | ok t => rw [h, Out.bind_ok] at e; exact ih t e
    | throws => exact hf s x h
    | ub => rw [h] at e; cases e

theorem bind_no_throw {α β : Type} {x : Out α} {f : α → Out β} (hx : x ≠ .throws) (hf : ∀ a, f a ≠ .throws) : (x >>= f) ≠ .throws := by
  cases x with
  | ok a => exact hf a
  | throws => exact absurd rfl hx
  | ub => intro h; cases h

theorem rd_no_throw {α : Type} (l : List α) (i : ℕ) : rd l i ≠ .throws := by
  unfold rd; cases l[i]? <;> simp

theorem wr_no_throw {α : Type} (l : List α) (i : ℕ) (a : α) : wr l i a ≠ .throws := by
  unfold wr; split_ifs <;> simp

theorem wr_len {α : Type} {l l' : List α} {i : ℕ} {a : α} (h : wr l i a = .ok l') : l'.length = l.length := by
  obtain ⟨_, rfl⟩ := wr_eq_ok.1 h; simp

theorem toIx_no_throw (v : Int) : toIx v ≠ .throws := by unfold toIx; split_ifs <;> simp

section
variable [Sub R] [Mul R] [Zero R] [LT R] [DecidableLT R]

theorem ccw_no_throw (vert : List R) (dim nf k : ℕ) (e2v : List Int) : ccw vert dim nf k e2v ≠ .throws := by
  unfold ccw
  refine loop_no_throw (fun s x => ?_) _ _
  have hc : ∀ (p d : ℕ), coord vert dim s p d ≠ .throws := fun p d =>
    bind_no_throw (bind_no_throw (rd_no_throw _ _) fun _ => toIx_no_throw _) fun _ => rd_no_throw _ _
  unfold ccwStep
  refine bind_no_throw (hc _ _) fun ax => bind_no_throw (hc _ _) fun ay => bind_no_throw (hc _ _) fun bx => bind_no_throw (hc _ _) fun b_y =>
    bind_no_throw (hc _ _) fun cx => bind_no_throw (hc _ _) fun cy => ?_
  split_ifs
  · exact bind_no_throw (rd_no_throw _ _) fun _ => bind_no_throw (rd_no_throw _ _) fun _ => bind_no_throw (wr_no_throw _ _ _) fun _ => wr_no_throw _ _ _
  · intro h; cases h

theorem ccw_len {vert : List R} {dim nf k : ℕ} {e2v e : List Int} (h : ccw vert dim nf k e2v = .ok e) : e.length = e2v.length := by
  unfold ccw at h
  refine loop_keeps (fun l => l.length = e2v.length) (fun s x s' hs hx => ?_) _ _ _ rfl h
  unfold ccwStep at hx
  obtain ⟨_, _, hx⟩ := Out.bind_eq_ok.1 hx
  obtain ⟨_, _, hx⟩ := Out.bind_eq_ok.1 hx
  obtain ⟨_, _, hx⟩ := Out.bind_eq_ok.1 hx
  obtain ⟨_, _, hx⟩ := Out.bind_eq_ok.1 hx
  obtain ⟨_, _, hx⟩ := Out.bind_eq_ok.1 hx
  obtain ⟨_, _, hx⟩ := Out.bind_eq_ok.1 hx
  split_ifs at hx
  · obtain ⟨_, _, hx⟩ := Out.bind_eq_ok.1 hx
    obtain ⟨_, _, hx⟩ := Out.bind_eq_ok.1 hx
    obtain ⟨_, h1, hx⟩ := Out.bind_eq_ok.1 hx
    rw [wr_len hx, wr_len h1, hs]
  · cases hx; exact hs

end

theorem conn_len {wrap : Bool} {nv nf k : ℕ} {e2v : List Int} {a b : List ℕ} {s : List ℕ × List ℕ} (h : buildConnectivity wrap nv nf k e2v a b = .ok s) :
    s.1.length = a.length ∧ s.2.length = b.length := by
  unfold buildConnectivity at h
  obtain ⟨_, _, h⟩ := Out.bind_eq_ok.1 h
  obtain ⟨_, _, h⟩ := Out.bind_eq_ok.1 h
  obtain ⟨_, _, h⟩ := Out.bind_eq_ok.1 h
  obtain ⟨_, _, h⟩ := Out.bind_eq_ok.1 h
  obtain ⟨t, h1, h2⟩ := Out.bind_eq_ok.1 h
  have q1 := loop_keeps (fun (s : List ℕ × List ℕ) => s.1.length = a.length ∧ s.2.length = b.length) (fun s x s' hs hx => by
    unfold defaults at hx
    obtain ⟨_, e1, hx⟩ := Out.bind_eq_ok.1 hx
    obtain ⟨_, e2, hx⟩ := Out.bind_eq_ok.1 hx
    cases hx
    exact ⟨by rw [wr_len e1, hs.1], by rw [wr_len e2, hs.2]⟩) _ _ _ (by exact ⟨rfl, rfl⟩) h1
  exact loop_keeps (fun (s : List ℕ × List ℕ) => s.1.length = a.length ∧ s.2.length = b.length) (fun s x s' hs hx => by
    unfold connect at hx
    obtain ⟨_, e1, hx⟩ := Out.bind_eq_ok.1 hx
    obtain ⟨_, e2, hx⟩ := Out.bind_eq_ok.1 hx
    cases hx
    exact ⟨by rw [wr_len e1, hs.1], by rw [wr_len e2, hs.2]⟩) _ _ _ q1 h2

theorem bc_len {tag nf k : ℕ} {e bc t : List ℕ} (h : buildBCTable tag nf k e bc = .ok t) : t.length = bc.length := by
  unfold buildBCTable at h
  refine loop_keeps (fun (l : List ℕ) => l.length = bc.length) (fun s x s' hs hx => ?_) _ _ _ (by simp) h
  obtain ⟨_, _, hx⟩ := Out.bind_eq_ok.1 hx
  split_ifs at hx
  · rw [wr_len hx, hs]
  · cases hx; exact hs

theorem wrI_len {α : Type} {l l' : List α} {i : Int} {a : α} (h : wrI l i a = .ok l') : l'.length = l.length := by
  unfold wrI at h
  split_ifs at h
  exact wr_len h

theorem node_len {cv : Conv R} {s s' : List R × Reader} {i : ℕ} (h : nodeStep cv s i = .ok s') : s'.1.length = s.1.length := by
  unfold nodeStep at h
  obtain ⟨⟨ts, r⟩, _, h⟩ := Out.bind_eq_ok.1 h
  simp only at h
  split at h
  · obtain ⟨_, _, h⟩ := Out.bind_eq_ok.1 h
    obtain ⟨_, _, h⟩ := Out.bind_eq_ok.1 h
    obtain ⟨_, _, h⟩ := Out.bind_eq_ok.1 h
    obtain ⟨_, _, h⟩ := Out.bind_eq_ok.1 h
    obtain ⟨_, e1, h⟩ := Out.bind_eq_ok.1 h
    obtain ⟨_, e2, h⟩ := Out.bind_eq_ok.1 h
    obtain ⟨_, e3, h⟩ := Out.bind_eq_ok.1 h
    cases h
    show List.length _ = _
    rw [wrI_len e3, wrI_len e2, wrI_len e1]
  · cases h

theorem append_loop_len {β : Type} {γ : Type} {g : β → Out (List γ)} {n : ℕ} (hg : ∀ b v, g b = .ok v → v.length = n) (l : List β) (acc out : List γ)
    (h : loopM (fun acc b => do let v ← g b; pure (acc ++ v)) acc l = .ok out) : out.length = acc.length + l.length * n := by
  induction l generalizing acc with
  | nil => cases h; simp
  | cons b l ih =>
    rw [loopM_cons] at h
    obtain ⟨a1, h1, h2⟩ := Out.bind_eq_ok.1 h
    obtain ⟨v, h3, h4⟩ := Out.bind_eq_ok.1 h1
    cases h4
    rw [ih _ h2, List.length_append, hg b v h3, List.length_cons]
    ring

theorem table_len {tris quads : List (List Int)} {t : ℕ × ℕ × List Int} (h : elemTable tris quads = .ok t) : t.2.2.length = t.2.1 * t.1 := by
  unfold elemTable at h
  obtain ⟨e, h1, h2⟩ := Out.bind_eq_ok.1 h
  cases h2
  have := append_loop_len (g := elemVerts (if quads.isEmpty then 3 else 4)) (n := if quads.isEmpty then 3 else 4) (fun b v hv => by
    unfold elemVerts at hv
    have := append_loop_len (g := fun i => do let v ← rd b (5 + i); pure [v - 1]) (n := 1) (fun i v hv => by
      obtain ⟨_, _, hv⟩ := Out.bind_eq_ok.1 hv
      cases hv; rfl) (List.range (if quads.isEmpty then 3 else 4)) [] v (by
        rw [← hv]
        congr 1
        funext acc i
        cases rd b (5 + i) <;> rfl)
    simpa using this) _ _ _ h1
  simpa using this

/-- `P` holds of the state a call leaves, however it ends. -/
def Res.All (P : Manager R → Prop) : Res (Manager R) → Prop
  | .done s => P s
  | .threw s => P s
  | .ub => True

theorem Res.All.after {P : Manager R → Prop} {α : Type} {s : Manager R} {x : Out α} {f : α → Res (Manager R)} (hs : P s)
    (hf : ∀ a, x = .ok a → (f a).All P) : (Res.after s x f).All P := by
  cases x with
  | ok a => exact hf a rfl
  | throws => exact hs
  | ub => trivial

theorem Res.All.after' {P : Manager R → Prop} {α : Type} {s : Manager R} {x : Out α} {f : α → Res (Manager R)} (hx : x ≠ .throws)
    (hf : ∀ a, x = .ok a → (f a).All P) : (Res.after s x f).All P := by
  cases x with
  | ok a => exact hf a rfl
  | throws => exact absurd rfl hx
  | ub => trivial

theorem Agree.after {α : Type} {s : Manager R} {x : Out α} {f : α → Out (MM R)} {g : α → Res (Manager R)} (h : ∀ a, x = .ok a → Agree (f a) (g a)) :
    Agree (x >>= f) (Res.after s x g) := by
  cases x with
  | ok a => exact h a rfl
  | throws => trivial
  | ub => trivial

theorem connectX_fits (wrap : Bool) (st : Manager R) (e2v : List Int) (hv : ∀ v, st.vert = some v → v.length = st.nv * st.dim)
    (he : e2v.length = st.k * st.nf) : (connectX wrap st e2v).All Fits := by
  unfold connectX
  have h0 : Fits { st with e2v := some e2v, tabs := some (List.replicate (st.k * st.nf) 0, List.replicate (st.k * st.nf) 0, List.replicate (st.k * st.nf) 0) } :=
    ⟨hv, fun e h => by cases h; exact he, fun t h => by cases h; simp⟩
  refine .after h0 fun ef h1 => .after h0 fun bc h2 => ?_
  obtain ⟨q1, q2⟩ := conn_len h1
  exact ⟨hv, fun e h => by cases h; exact he, fun t h => by
    cases h
    exact ⟨by simpa using q1, by simpa using q2, by simpa using bc_len h2⟩⟩

section
variable [Sub R] [Mul R] [Zero R] [LT R] [DecidableLT R]

theorem finishX_fits (wrap : Bool) (st : Manager R) (vert : List R) (e2v : List Int) (hv : ∀ v, st.vert = some v → v.length = st.nv * st.dim)
    (he : e2v.length = st.k * st.nf) : (finishX wrap st vert e2v).All Fits :=
  .after' (ccw_no_throw _ _ _ _ _) fun _ h => connectX_fits wrap st _ hv (by rw [ccw_len h, he])

theorem nodesX_all {P : Manager R → Prop} (cv : Conv R) (st : Manager R) (n : ℕ) (f : List R × Reader → Res (Manager R))
    (hP : ∀ v : List R, v.length = n → P { st with vert := some v }) (hf : ∀ s, s.1.length = n → (f s).All P) (l : List ℕ) :
    ∀ s : List R × Reader, s.1.length = n → (nodesX cv st s l f).All P := by
  induction l with
  | nil => exact fun s hs => hf s hs
  | cons i l ih => exact fun s hs => .after (hP _ hs) fun s' h => ih s' (by rw [node_len h, hs])

theorem readMeshX_fits (cv : Conv R) (wrap : Bool) (junk : R) (st : Manager R) (file : Option Str) (h : Fits st) :
    (readMeshX cv wrap junk st file).All Fits := by
  unfold readMeshX
  refine .after h fun r _ => .after h fun r _ => .after h fun r _ => .after h fun r _ => .after h fun nr _ => ?_
  split_ifs
  · trivial
  · have hP : ∀ v : List R, v.length = nr.1.toNat * 3 → Fits { st with nv := nr.1.toNat, dim := 3, vert := some v } :=
      fun v hv => ⟨fun w e => by cases e; exact hv, h.2.1, h.2.2⟩
    refine nodesX_all cv _ (nr.1.toNat * 3) _ hP (fun s hs => ?_) _ _ (by simp)
    unfold elementsX
    refine .after (hP _ hs) fun r _ => .after (hP _ hs) fun mr _ => ?_
    split_ifs
    · exact hP _ hs
    · refine .after (hP _ hs) fun tq _ => .after (hP _ hs) fun t ht => ?_
      exact finishX_fits wrap _ _ _ (fun w e => by cases e; exact hs) (table_len ht)

theorem View.raw_length {α : Type} (v : Py.View α) (l : List α) (h : v.raw = .ok l) : l.length = v.s0 * v.s1 := by
  unfold Py.View.raw at h
  have := append_loop_len (g := fun k => do let x ← rd v.mem (v.off + k); pure [x]) (n := 1) (fun i v hv => by
      obtain ⟨_, _, hv⟩ := Out.bind_eq_ok.1 hv
      cases hv; rfl) (List.range (v.s0 * v.s1)) [] l (by
        rw [← h]
        congr 1
        funext acc i
        cases rd v.mem (v.off + i) <;> rfl)
  simpa using this

theorem buildMeshX_fits (wrap : Bool) (st : Manager R) (ev : Py.View ℕ) (vv : Py.View R) (h : Fits st) : (buildMeshX wrap st ev vv).All Fits := by
  unfold buildMeshX
  refine .after h fun verts h1 => .after h fun words h2 => .after h fun e2v h3 => ?_
  refine finishX_fits wrap _ _ _ (fun w e => by cases e; exact View.raw_length _ _ h1) ?_
  have := append_loop_len (g := fun w => do let v ← Py.castInt (Py.decode64 w); pure [v]) (n := 1) (fun i v hv => by
      obtain ⟨_, _, hv⟩ := Out.bind_eq_ok.1 hv
      cases hv; rfl) words [] e2v (by
        rw [← h3]
        congr 1
        funext acc i
        cases Py.castInt (Py.decode64 i) <;> rfl)
  rw [this, View.raw_length _ _ h2]
  simp

end

theorem partition_fits (metis : Metis) (st : Manager R) (n : Int) (h : Fits st) : (partitionMesh metis st n).All Fits := by
  unfold partitionMesh
  refine .after h fun p _ => ?_
  split
  · trivial
  · split <;> exact h

theorem convAll_len {β : Type} (conv : Str → Option β) (ts : List Str) (h : (convAll conv ts).1 = true) : (convAll conv ts).2.length = ts.length := by
  induction ts with
  | nil => rfl
  | cons t ts ih =>
    unfold convAll at h ⊢
    cases e : conv t with
    | none => rw [e] at h; cases h
    | some v => rw [e] at h; simp only at h ⊢; rw [List.length_cons, List.length_cons, ih h]

theorem nonempty_ncols (n : ℕ) : ∀ r : Reader, (nonemptyLoop n r).2.ncols = r.ncols := by
  induction n with
  | zero => intro r; rfl
  | succ n ih =>
    intro r
    have hr : (readLine r).2.ncols = r.ncols := by
      unfold readLine
      split_ifs
      · rfl
      · cases getline r.rest <;> rfl
    unfold nonemptyLoop
    split
    · rename_i l r' e
      rw [e] at hr
      split_ifs
      · rw [ih, hr]
      · exact hr
    · rename_i r' e
      rw [e] at hr
      exact hr

theorem parseRow_row {β : Type} (conv : Str → Option β) (r r' : Reader) (vs : List β) (h : parseRow conv r = (.row, vs, r')) :
    (vs.length : Int) = r.ncols ∧ r'.ncols = r.ncols := by
  have hn := nonempty_ncols (r.rest.length + 1) r
  unfold parseRow getNonemptyLine at h
  split at h
  · rename_i l r1 e
    rw [e] at hn
    simp only at h
    split_ifs at h with h1 h2
    · cases h
    · cases h
      exact ⟨by rw [convAll_len _ _ h2]; exact not_not.1 h1, hn⟩
    · cases h
  · simp at h

theorem readLoopX_len {β : Type} (conv : Str → Option β) (fuel : ℕ) : ∀ (n : ℕ) (data : List β) (r : Reader) (m : ℕ) (out : List β),
    data.length = n * r.ncols.toNat → readLoopX conv fuel n data r = (m, some out) → out.length = m * r.ncols.toNat := by
  induction fuel with
  | zero => intro n data r m out h e; cases e; exact h
  | succ fuel ih =>
    intro n data r m out h e
    unfold readLoopX at e
    split at e
    · rename_i vs r' e1
      obtain ⟨q1, q2⟩ := parseRow_row conv r r' vs e1
      rw [← q2]
      refine ih _ _ _ _ _ ?_ e
      rw [List.length_append, h, q2]
      have : vs.length = r.ncols.toNat := by omega
      rw [this]; ring
    · cases e; exact h
    · cases e

theorem readVerticesX_done (cv : Conv R) (st s : Manager R) (file : Option Str) (h : Fits st) (e : readVerticesX cv st file = .done s) : Fits s := by
  unfold readVerticesX csvreadX Res.after at e
  cases ho : openReader file 0 ['\t', ' '] with
  | throws => rw [ho] at e; cases e
  | ub => rw [ho] at e; cases e
  | ok r =>
    rw [ho] at e
    simp only at e
    split at e
    · cases e
    · rename_i n data hl
      split_ifs at e
      cases e
      exact ⟨fun v hv => by cases hv; exact readLoopX_len _ _ _ _ _ _ _ (by simp) hl, h.2.1, h.2.2⟩

theorem readElementsX_done (cv : Conv R) (wrap : Bool) (st s : Manager R) (file : Option Str) (h : Fits st) (e : readElementsX cv wrap st file = .done s) : Fits s := by
  unfold readElementsX csvreadX Res.after at e
  cases ho : openReader file 0 ['\t', ' '] with
  | throws => rw [ho] at e; cases e
  | ub => rw [ho] at e; cases e
  | ok r =>
    rw [ho] at e
    simp only at e
    split at e
    · cases e
    · rename_i n data hl
      have hd := readLoopX_len _ _ _ _ _ _ _ (by simp) hl
      split_ifs at e with h1 h2
      · have := connectX_fits wrap { st with k := n, nf := r.ncols.toNat } data h.1 hd
        rw [e] at this
        exact this
      · cases e
        exact ⟨h.1, fun e he => by cases he; exact hd, fun t ht => by cases ht; simp⟩

section
variable [Sub R] [Mul R] [Zero R] [LT R] [DecidableLT R]

theorem call_fits (cv : Conv R) (wrap : Bool) (metis : Metis) (st : Manager R) (c : Call R) (h : Fits st) :
    (∀ s, call cv wrap metis st c = .done s → Fits s) ∧ (¬ c.Table → ∀ s, call cv wrap metis st c = .threw s → Fits s) := by
  have key : ∀ x : Res (Manager R), x.All Fits → (∀ s, x = .done s → Fits s) ∧ (¬ c.Table → ∀ s, x = .threw s → Fits s) := by
    intro x hx
    exact ⟨fun s e => by rw [e] at hx; exact hx, fun _ s e => by rw [e] at hx; exact hx⟩
  cases c with
  | readVertices f => exact ⟨fun s e => readVerticesX_done cv st s f h e, fun hn => absurd trivial hn⟩
  | readElements f => exact ⟨fun s e => readElementsX_done cv wrap st s f h e, fun hn => absurd trivial hn⟩
  | readMesh j f => exact key _ (readMeshX_fits cv wrap j st f h)
  | buildMesh ev vv => exact key _ (buildMeshX_fits wrap st ev vv h)
  | partition n => exact key _ (partition_fits metis st n h)

/-- Programs in which no table read has thrown keep the sizes right. -/
theorem history_fits (cv : Conv R) (wrap : Bool) (metis : Metis) (calls : List (Call R)) : ∀ (st s : Manager R) (threw : List Bool), Fits st →
    history cv wrap metis st calls = some (s, threw) → (∀ p ∈ calls.zip threw, p.1.Table → p.2 = false) → Fits s := by
  induction calls with
  | nil => intro st s threw h e _; cases e; exact h
  | cons c cs ih =>
    intro st s threw h e ht
    unfold history at e
    obtain ⟨c1, c2⟩ := call_fits cv wrap metis st c h
    split at e
    · rename_i s1 hc
      obtain ⟨⟨s2, fl⟩, e1, e2⟩ := Option.map_eq_some_iff.1 e
      cases e2
      exact ih s1 s2 fl (c1 s1 hc) e1 fun p hp => ht p (by simp [hp])
    · rename_i s1 hc
      obtain ⟨⟨s2, fl⟩, e1, e2⟩ := Option.map_eq_some_iff.1 e
      cases e2
      have hn : ¬ c.Table := fun hc' => by
        have := ht (c, true) (by simp) hc'
        cases this
      exact ih s1 s2 fl (c2 hn s1 hc) e1 fun p hp => ht p (by simp [hp])
    · cases e

end

theorem new_fits : Fits (Manager.new : Manager R) := by
  refine ⟨fun _ h => ?_, fun _ h => ?_, fun _ h => ?_⟩ <;> exact absurd h (by simp [Manager.new])

/-! ### The calls and the meshes they should leave -/

theorem readLoopX_eq {β : Type} (conv : Str → Option β) (fuel : ℕ) : ∀ (n : ℕ) (data : List β) (r : Reader),
    readLoop conv fuel n data r = match (readLoopX conv fuel n data r).2 with
      | some d => .ok ((readLoopX conv fuel n data r).1, d)
      | none => .throws := by
  induction fuel with
  | zero => intro n data r; rfl
  | succ fuel ih =>
    intro n data r
    unfold readLoop readLoopX
    split <;> rename_i e <;> simp [e, ih]

theorem csvreadX_eq {β S : Type} (conv : Str → Option β) (file : Option Str) (s : S) (set : ℕ → ℕ → S) (f : ℕ → ℕ → List β → Res S) :
    match csvread conv file 0 ['\t', ' '] with
    | .ok (n, c, data) => csvreadX conv file s set f = f n c.toNat data
    | .throws => ∃ s', csvreadX conv file s set f = .threw s'
    | .ub => csvreadX conv file s set f = .ub := by
  unfold csvread csvreadX Res.after
  cases openReader file 0 ['\t', ' '] with
  | throws => exact ⟨_, rfl⟩
  | ub => rfl
  | ok r =>
    rw [Out.bind_ok, readLoopX_eq]
    rcases h : readLoopX conv (r.rest.length + 1) 0 [] r with ⟨n, _ | d⟩
    · simp only [h]
      exact ⟨_, rfl⟩
    · simp only [h, Out.bind_ok]
      split_ifs <;> simp

theorem connect_agree (wrap : Bool) (st : Manager R) (vert : List R) (e2v : List Int) (hv : st.vert = some vert) :
    Agree (do
      let (e, f) ← buildConnectivity wrap st.nv st.nf st.k e2v (List.replicate (st.k * st.nf) 0) (List.replicate (st.k * st.nf) 0)
      let bc ← buildBCTable wall st.nf st.k e (List.replicate (st.k * st.nf) 0)
      pure { dim := st.dim, nv := st.nv, nf := st.nf, k := st.k, vert := vert, e2v := e2v, e2e := e, e2f := f, bc := bc }) (connectX wrap st e2v) := by
  unfold connectX
  refine .after fun ef _ => .after fun bc _ => ?_
  exact ⟨rfl, rfl, rfl, rfl, hv, rfl, rfl⟩

section
variable [Sub R] [Mul R] [Zero R] [LT R] [DecidableLT R]

theorem finish_agree (wrap : Bool) (st : Manager R) (vert : List R) (e2v : List Int) (hv : st.vert = some vert) :
    Agree (finish wrap st.dim st.nv st.nf st.k vert e2v) (finishX wrap st vert e2v) := by
  unfold finish finishX
  exact .after fun e _ => connect_agree wrap st vert e hv

theorem nodes_agree (cv : Conv R) (st : Manager R) (f : List R × Reader → Out (MM R)) (g : List R × Reader → Res (Manager R)) (h : ∀ s, Agree (f s) (g s))
    (l : List ℕ) : ∀ s, Agree (loopM (nodeStep cv) s l >>= f) (nodesX cv st s l g) := by
  induction l with
  | nil => exact fun s => h s
  | cons i l ih =>
    intro s
    rw [loopM_cons]
    unfold nodesX
    cases nodeStep cv s i with
    | ok s' => exact ih s'
    | throws => trivial
    | ub => trivial

/-- **C136, `readMesh`.** On a manager in any state the call has the outcome `readMesh` has on a mesh with that number of vertices, and when it returns the manager holds
exactly the mesh read. -/
theorem C136_readMesh (cv : Conv R) (wrap : Bool) (junk : R) (st : Manager R) (M : MM R) (hM : M.nv = st.nv) (file : Option Str) :
    Agree (readMesh cv wrap junk M file) (readMeshX cv wrap junk st file) := by
  unfold readMesh readMeshX
  refine .after fun r _ => .after fun r _ => .after fun r _ => .after fun r _ => ?_
  rw [hM]
  refine .after fun nr _ => ?_
  obtain ⟨nv, r4⟩ := nr
  simp only
  split_ifs
  · trivial
  · refine nodes_agree cv _ _ _ (fun s => ?_) _ _
    unfold elementsX
    refine .after fun r _ => .after fun mr _ => ?_
    obtain ⟨m, r5⟩ := mr
    simp only
    split_ifs
    · trivial
    · refine .after fun tq _ => .after fun t _ => ?_
      exact finish_agree wrap { st with nv := nv.toNat, dim := 3, vert := some s.1, nf := t.1, k := t.2.1 } s.1 t.2.2 rfl

/-- **C136, `buildMesh`.** -/
theorem C136_buildMesh (wrap : Bool) (st : Manager R) (ev : Py.View ℕ) (vv : Py.View R) :
    Agree (Py.buildMeshNumpy wrap ev vv) (buildMeshX wrap st ev vv) := by
  unfold Py.buildMeshNumpy buildMeshX
  refine .after fun verts _ => .after fun words _ => .after fun e2v _ => ?_
  exact finish_agree wrap { st with dim := vv.s1, nv := vv.s0, nf := ev.s1, k := ev.s0, vert := some verts } verts e2v rfl

end

/-! ### A mesh that has been read does not depend on what was there before -/

theorem readLine_rest (r r' : Reader) (l : Str) (h : readLine r = (some l, r')) : r'.rest.length < r.rest.length := by
  unfold readLine at h
  split_ifs at h
  · cases h
  cases hr : r.rest with
  | nil => rw [hr] at h; cases h
  | cons c t =>
    rw [hr] at h
    simp only [getline] at h
    cases h
    simp only [List.length_drop, List.length_cons]
    have := (List.dropWhile_sublist (l := c :: t) (· != '\n')).length_le
    simp only [List.length_cons] at this
    omega

theorem nonempty_none (n : ℕ) : ∀ r r' : Reader, r.rest.length < n → nonemptyLoop n r = (none, r') → r'.failed = true := by
  induction n with
  | zero => intro r r' h; omega
  | succ n ih =>
    intro r r' h e
    unfold nonemptyLoop at e
    split at e
    · rename_i l r1 e1
      split_ifs at e
      · exact ih r1 r' (by have := readLine_rest _ _ _ e1; omega) e
      · cases e
    · rename_i r1 e1
      cases e
      unfold readLine at e1
      split_ifs at e1 with hf
      · cases e1; exact hf
      · split at e1
        · cases e1; rfl
        · cases e1

theorem parseRow_eof {β : Type} (conv : Str → Option β) (r r' : Reader) (vs : List β) (h : parseRow conv r = (.eof, vs, r')) : r'.failed = true := by
  unfold parseRow getNonemptyLine at h
  split at h
  · simp only at h
    split_ifs at h <;> cases h
  · rename_i r1 e
    cases h
    exact nonempty_none _ _ _ (by omega) e

theorem failed_parseRow {β : Type} (conv : Str → Option β) (r : Reader) (hf : r.failed = true) : parseRow conv r = (.eof, [], r) := by
  unfold parseRow getNonemptyLine nonemptyLoop readLine
  simp [hf]

theorem readCount_old (cv : Conv R) (old : Int) (r r' : Reader) (n : Int) (h : readCount cv old r = .ok (n, r')) :
    (∀ old', readCount cv old' r = .ok (n, r')) ∨ r'.failed = true := by
  unfold readCount rowToks parseRowValues at h ⊢
  rw [if_neg (by simp [setNumCols])] at h ⊢
  rcases hp : parseRow (fun t => some t) (setNumCols 1 r) with ⟨_ | _ | _, ts, r1⟩ <;> rw [hp] at h <;> simp only at h ⊢
  · left
    intro old'
    simp only [Out.bind_ok] at h ⊢
    split at h
    · exact h
    · rename_i e; cases e
    · cases h
  · right
    simp only [Out.bind_ok] at h
    cases h
    exact parseRow_eof _ _ _ _ hp
  · cases h

theorem failed_node (cv : Conv R) (s : List R × Reader) (i : ℕ) (hf : s.2.failed = true) (s' : List R × Reader) : nodeStep cv s i ≠ .ok s' := by
  intro h
  unfold nodeStep rowToks parseRowValues at h
  split_ifs at h
  · cases h
  · rw [failed_parseRow _ _ hf] at h
    cases h

theorem failed_expect (m : Str) (r r' : Reader) (hf : r.failed = true) : expectLine m (skipLines 1 r) ≠ .ok r' := by
  have hs : skipLines 1 r = r := by
    unfold skipLines
    simp [skipLoop, readLine, hf]
  intro h
  rw [hs] at h
  unfold expectLine readLine at h
  simp [hf] at h

section
variable [Sub R] [Mul R] [Zero R] [LT R] [DecidableLT R]

/-- If a mesh is read, it is the mesh any other manager reads from that file. -/
theorem readMesh_any (cv : Conv R) (wrap : Bool) (junk : R) (st st' M : MM R) (file : Option Str) (h : readMesh cv wrap junk st file = .ok M) :
    readMesh cv wrap junk st' file = .ok M := by
  unfold readMesh at h ⊢
  obtain ⟨r0, h0, h⟩ := Out.bind_eq_ok.1 h
  obtain ⟨r1, h1, h⟩ := Out.bind_eq_ok.1 h
  obtain ⟨r2, h2, h⟩ := Out.bind_eq_ok.1 h
  simp only at h
  obtain ⟨r3, h3, h⟩ := Out.bind_eq_ok.1 h
  obtain ⟨⟨n, r4⟩, h4, h⟩ := Out.bind_eq_ok.1 h
  rw [h0, Out.bind_ok, h1, Out.bind_ok, h2, Out.bind_ok]
  simp only
  rw [h3, Out.bind_ok]
  rcases readCount_old cv _ _ _ _ h4 with hc | hc
  · rw [hc, Out.bind_ok]
    exact h
  · exfalso
    simp only at h
    split_ifs at h
    obtain ⟨⟨v, r5⟩, h5, h⟩ := Out.bind_eq_ok.1 h
    obtain ⟨r6, h6, h⟩ := Out.bind_eq_ok.1 h
    cases hn : n.toNat with
    | zero =>
      rw [hn] at h5
      cases h5
      exact failed_expect _ (setNumCols 4 r4) _ hc h6
    | succ m =>
      rw [hn, List.range_succ_eq_map, loopM_cons] at h5
      obtain ⟨_, h7, _⟩ := Out.bind_eq_ok.1 h5
      exact failed_node cv (_, setNumCols 4 r4) 0 hc _ h7

/-- **C136, reading again.** Whatever happened to the manager before, failed calls included: `readMesh` returns exactly for the files a new manager can read, and the manager then holds
the mesh a new manager would hold. -/
theorem C136_reload (cv : Conv R) (wrap : Bool) (junk : R) (st : Manager R) (file : Option Str) (M : MM R) :
    readMesh cv wrap junk MM.new file = .ok M ↔ ∃ s, readMeshX cv wrap junk st file = .done s ∧ Holds s M := by
  obtain ⟨M0, hM0⟩ : ∃ M0 : MM R, M0.nv = st.nv := ⟨{ (MM.new : MM R) with nv := st.nv }, rfl⟩
  have ha := C136_readMesh cv wrap junk st M0 hM0 file
  constructor
  · intro h
    rw [readMesh_any cv wrap junk MM.new M0 M file h] at ha
    cases hx : readMeshX cv wrap junk st file with
    | done s => rw [hx] at ha; exact ⟨s, rfl, ha⟩
    | threw s => rw [hx] at ha; exact ha.elim
    | ub => rw [hx] at ha; exact ha.elim
  · rintro ⟨s, hs, hh⟩
    rw [hs] at ha
    cases hx : readMesh cv wrap junk M0 file with
    | ok M' =>
      rw [hx] at ha
      have hM' := readMesh_any cv wrap junk M0 MM.new M' file hx
      rw [hM']
      obtain ⟨a1, a2, a3, a4, a5, a6, a7⟩ := ha
      obtain ⟨b1, b2, b3, b4, b5, b6, b7⟩ := hh
      cases M; cases M'
      simp only at a1 a2 a3 a4 a5 a6 a7 b1 b2 b3 b4 b5 b6 b7
      rw [a1] at b1; rw [a2] at b2; rw [a3] at b3; rw [a4] at b4; rw [a5] at b5; rw [a6] at b6; rw [a7] at b7
      cases b1; cases b2; cases b3; cases b4; cases b5; cases b6; cases b7
      rfl
    | throws => rw [hx] at ha; exact ha.elim
    | ub => rw [hx] at ha; exact ha.elim

/-- **C136, the two table files.** After `readVertices` and `readElements` have returned, the manager holds the mesh a new manager would hold. -/
theorem C136_reload_tables (cv : Conv R) (wrap : Bool) (st s1 s2 : Manager R) (f g : Option Str) (h1 : readVerticesX cv st f = .done s1)
    (h2 : readElementsX cv wrap s1 g = .done s2) :
    ∃ M1 M2, readVertices cv MM.new f = .ok M1 ∧ readElements cv wrap M1 g = .ok M2 ∧ Holds s2 M2 := by
  unfold readVerticesX at h1
  have e1 := csvreadX_eq cv.real f st (fun n c => { st with nv := n, dim := c }) (fun n c data => .done { st with nv := n, dim := c, vert := some data })
  unfold readElementsX at h2
  cases hc : csvread cv.real f 0 ['\t', ' '] with
  | throws => rw [hc] at e1; obtain ⟨_, e1⟩ := e1; rw [e1] at h1; cases h1
  | ub => rw [hc] at e1; rw [e1] at h1; cases h1
  | ok t =>
    obtain ⟨n, c, data⟩ := t
    rw [hc] at e1
    simp only at e1
    rw [e1] at h1
    cases h1
    refine ⟨{ (MM.new : MM R) with nv := n, dim := c.toNat, vert := data }, ?_⟩
    have hv : readVertices cv MM.new f = .ok { (MM.new : MM R) with nv := n, dim := c.toNat, vert := data } := by
      unfold readVertices; rw [hc]; rfl
    have e2 := csvreadX_eq cv.int g ({ st with nv := n, dim := c.toNat, vert := some data } : Manager R)
      (fun n' c' => { st with nv := n, dim := c.toNat, vert := some data, k := n', nf := c' })
      (fun n' c' d =>
        let z := List.replicate (n' * c') 0
        let st : Manager R := { st with nv := n, dim := c.toNat, vert := some data, k := n', nf := c' }
        if c' = 3 then connectX wrap st d else .done { st with e2v := some d, tabs := some (z, z, z) })
    cases hd : csvread cv.int g 0 ['\t', ' '] with
    | throws => rw [hd] at e2; obtain ⟨_, e2⟩ := e2; erw [e2] at h2; cases h2
    | ub => rw [hd] at e2; erw [e2] at h2; cases h2
    | ok t =>
      obtain ⟨n', c', d⟩ := t
      rw [hd] at e2
      simp only at e2
      erw [e2] at h2
      unfold readElements
      rw [hd, Out.bind_ok]
      simp only
      by_cases h3 : c'.toNat = 3
      · rw [if_pos h3] at h2 ⊢
        have ha := connect_agree wrap { st with nv := n, dim := c.toNat, vert := some data, k := n', nf := c'.toNat } data d rfl
        rw [h2] at ha
        rw [h3] at ha ⊢
        cases hb : buildConnectivity wrap n 3 n' d (List.replicate (n' * 3) 0) (List.replicate (n' * 3) 0) with
        | ok ef =>
          simp only [hb, Out.bind_ok] at ha ⊢
          cases hb2 : buildBCTable wall 3 n' ef.1 (List.replicate (n' * 3) 0) with
          | ok bc =>
            simp only [hb2, Out.bind_ok] at ha ⊢
            exact ⟨_, hv, rfl, ha⟩
          | throws => simp only [hb2] at ha; exact ha.elim
          | ub => simp only [hb2] at ha; exact ha.elim
        | throws => simp only [hb] at ha; exact ha.elim
        | ub => simp only [hb] at ha; exact ha.elim
      · rw [if_neg h3] at h2 ⊢
        cases h2
        exact ⟨_, hv, rfl, rfl, rfl, rfl, rfl, rfl, rfl, rfl⟩

end

/-! ### C136: the exported arrays -/

section
variable [Sub R] [Mul R] [Zero R] [LT R] [DecidableLT R]

/-- **C136 (partial).** After any sequence of calls on a new manager in which no table file was rejected (mesh files may have been), every array the manager has is exported with the
announced shape and entry for entry.  Missing: sequences with a rejected table file, for which the export writes outside its array (`C136_rejected_table`). -/
theorem C136_exports_partial (cv : Conv R) (wrap : Bool) (metis : Metis) (calls : List (Call R)) (s : Manager R) (threw : List Bool)
    (h : history cv wrap metis Manager.new calls = some (s, threw)) (ht : ∀ p ∈ calls.zip threw, p.1.Table → p.2 = false) :
    Shows s.vert s.nv s.dim s.verticesNumpy ∧ Shows s.e2v s.k s.nf s.elementsNumpy ∧ Shows (s.tabs.map (·.2.2)) s.k s.nf s.bcTypeNumpy := by
  obtain ⟨f1, f2, f3⟩ := history_fits cv wrap metis calls Manager.new s threw new_fits h ht
  refine ⟨fun l hl => ?_, fun l hl => ?_, fun l hl => ?_⟩
  · unfold Manager.verticesNumpy
    rw [hl]
    exact Py.export_rows l _ _ (f1 l hl)
  · unfold Manager.elementsNumpy
    rw [hl]
    exact Py.export_rows l _ _ (f2 l hl)
  · obtain ⟨t, ht, rfl⟩ := Option.map_eq_some_iff.1 hl
    unfold Manager.bcTypeNumpy
    rw [ht]
    exact Py.export_rows _ _ _ (f3 t ht).2.2

end

/-- What a rejected table of vertices leaves: nothing has changed (the file could not be opened), or the vertices are the old ones and the two counters describe the part of the new file
before the rejected row. -/
theorem C136_rejected_state (cv : Conv R) (st s : Manager R) (file : Option Str) (h : readVerticesX cv st file = .threw s) :
    s = st ∨ ∃ r n, openReader file 0 ['\t', ' '] = .ok r ∧ readLoopX cv.real (r.rest.length + 1) 0 [] r = (n, none) ∧
      s = { st with nv := n, dim := r.ncols.toNat } := by
  unfold readVerticesX csvreadX Res.after at h
  cases ho : openReader file 0 ['\t', ' '] with
  | throws => rw [ho] at h; cases h; exact .inl rfl
  | ub => rw [ho] at h; cases h
  | ok r =>
    rw [ho] at h
    simp only at h
    split at h
    · rename_i n hl
      cases h
      exact .inr ⟨r, n, rfl, hl, rfl⟩
    · split_ifs at h

/-- **C136, refutation.** When the part of a rejected vertex file before its bad row has fewer numbers than the vertices held, exporting the vertices writes outside the exported array. -/
theorem C136_rejected_table [Zero R] (cv : Conv R) (st s : Manager R) (file : Option Str) (v : List R) (h : readVerticesX cv st file = .threw s) (hv : st.vert = some v)
    (hl : s.nv * s.dim < v.length) : s.verticesNumpy = .ub := by
  have hv' : s.vert = some v := by
    rcases C136_rejected_state cv st s file h with rfl | ⟨r, n, -, -, rfl⟩
    · exact hv
    · exact hv
  unfold Manager.verticesNumpy
  rw [hv']
  exact Py.exportTo_ub _ _ (by simpa using hl)

/-! ### C137: partitions -/

/-- What is assumed of METIS: if it succeeds it returns a part for each element and each vertex, numbered below the number of parts. -/
def MetisOk (metis : Metis) : Prop :=
  ∀ ne nv p e n m, metis ne nv p e n = some m → m.1.length = ne ∧ m.2.length = nv ∧ (∀ x ∈ m.1, (x : Int) < n) ∧ ∀ x ∈ m.2, (x : Int) < n

/-- The element `i` as the pointer array `p` delimits it in `e`. -/
def Delimits (p : List ℕ) (e : List Int) (k nf : ℕ) : Prop :=
  p.length = k + 1 ∧ ∀ i < k, (e.take (p.getD (i + 1) 0)).drop (p.getD i 0) = (List.range nf).map fun j => e.getD (i * nf + j) 0

section
variable [Sub R] [Mul R] [Zero R] [LT R] [DecidableLT R]

/-- **C137 (partial).** After any sequence of calls in which no table file was rejected and which has left elements in the manager, `partitionMesh` returns; METIS has been given every element with
its vertices; if METIS succeeds, the exported maps have one part number below the number of parts for each element and each vertex; if METIS fails, both exported maps are zero.
Missing: reporting the failure (`C137_failure_silent`), and maps of a mesh loaded later (`C137_stale`). -/
theorem C137_partition_partial (cv : Conv R) (wrap : Bool) (metis : Metis) (hm : MetisOk metis) (calls : List (Call R)) (st : Manager R) (threw : List Bool)
    (h : history cv wrap metis Manager.new calls = some (st, threw)) (ht : ∀ p ∈ calls.zip threw, p.1.Table → p.2 = false)
    (e : List Int) (he : st.e2v = some e) (n : Int) :
    ∃ s p a b, partitionMesh metis st n = .done s ∧ Delimits p e st.k st.nf ∧ s.elementPartsNumpy = .ok a ∧ s.vertexPartsNumpy = .ok b ∧
      s.k = st.k ∧ s.nv = st.nv ∧
      a.shape = [st.k] ∧ a.data.length = st.k ∧ b.shape = [st.nv] ∧ b.data.length = st.nv ∧
      (∀ m, metis st.k st.nv p e n = some m → a.data = m.1 ∧ b.data = m.2 ∧ (∀ x ∈ a.data, (x : Int) < n) ∧ ∀ x ∈ b.data, (x : Int) < n) ∧
      (metis st.k st.nv p e n = none → a.data = List.replicate st.k 0 ∧ b.data = List.replicate st.nv 0) := by
  obtain ⟨_, f2, _⟩ := history_fits cv wrap metis calls Manager.new st threw new_fits h ht
  obtain ⟨p, hp, q1, -, -, q4⟩ := C26_eptr st.nf st.k e (by rw [f2 e he, Nat.mul_comm]) (List.replicate (st.k + 1) 0) (by simp)
  unfold partitionMesh Res.after
  rw [hp]
  simp only [he]
  cases hr : metis st.k st.nv p e n with
  | some m =>
    obtain ⟨m1, m2, m3, m4⟩ := hm _ _ _ _ _ _ hr
    refine ⟨_, p, ⟨[st.k], m.1⟩, ⟨[st.nv], m.2⟩, rfl, ⟨q1, q4⟩, Py.exportTo_eq _ _ (by simp [m1]), Py.exportTo_eq _ _ (by simp [m2]), rfl, rfl, rfl, m1, rfl, m2, ?_, ?_⟩
    · intro m' h'; rw [hr] at h'; cases h'; exact ⟨rfl, rfl, m3, m4⟩
    · intro h'; rw [hr] at h'; cases h'
  | none =>
    refine ⟨_, p, ⟨[st.k], List.replicate st.k 0⟩, ⟨[st.nv], List.replicate st.nv 0⟩, rfl, ⟨q1, q4⟩, Py.exportTo_eq _ _ (by simp), Py.exportTo_eq _ _ (by simp),
      rfl, rfl, rfl, by simp, rfl, by simp, ?_, fun _ => ⟨rfl, rfl⟩⟩
    intro m' h'; rw [hr] at h'; cases h'

/-- No call but `partitionMesh` touches the maps, however it ends. -/
theorem C137_maps_kept (cv : Conv R) (wrap : Bool) (metis : Metis) (st : Manager R) (c : Call R) (hc : c.Loads) :
    (call cv wrap metis st c).All fun s => s.epart = st.epart ∧ s.vpart = st.vpart := by
  have hcon : ∀ (t : Manager R) (e : List Int), t.epart = st.epart ∧ t.vpart = st.vpart → (connectX wrap t e).All fun s => s.epart = st.epart ∧ s.vpart = st.vpart :=
    fun t e h => .after h fun _ _ => .after h fun _ _ => h
  have hfin : ∀ (t : Manager R) (v : List R) (e : List Int), t.epart = st.epart ∧ t.vpart = st.vpart → (finishX wrap t v e).All fun s => s.epart = st.epart ∧ s.vpart = st.vpart :=
    fun t v e h => .after h fun _ _ => hcon _ _ h
  have h0 : st.epart = st.epart ∧ st.vpart = st.vpart := ⟨rfl, rfl⟩
  cases c with
  | readVertices f =>
    refine Res.All.after h0 fun r _ => ?_
    split
    · exact h0
    · split_ifs
      · exact h0
      · trivial
  | readElements f =>
    refine Res.All.after h0 fun r _ => ?_
    split
    · exact h0
    · split_ifs
      · simp only
        split_ifs
        · exact hcon _ _ h0
        · exact h0
      · trivial
  | readMesh j f =>
    refine .after h0 fun r _ => .after h0 fun r _ => .after h0 fun r _ => .after h0 fun r _ => .after h0 fun nr _ => ?_
    split_ifs
    · trivial
    · refine nodesX_all cv _ (nr.1.toNat * 3) _ (fun _ _ => h0) (fun s hs => ?_) _ _ (by simp)
      refine .after h0 fun r _ => .after h0 fun mr _ => ?_
      split_ifs
      · exact h0
      · exact .after h0 fun tq _ => .after h0 fun t ht => hfin _ _ _ h0
  | buildMesh ev vv => exact .after h0 fun _ _ => .after h0 fun _ _ => .after h0 fun _ _ => hfin _ _ _ h0
  | partition n => exact hc.elim

/-- **C137, refutation.** Loading another mesh keeps the maps of the old one: with fewer elements in the new mesh their export writes outside the array, with more the export gives part 0 to elements
that were never assigned. -/
theorem C137_stale (cv : Conv R) (wrap : Bool) (metis : Metis) (st s : Manager R) (c : Call R) (hc : c.Loads) (p : List ℕ) (hp : st.epart = some p)
    (h : call cv wrap metis st c = .done s) :
    (s.k < p.length → s.elementPartsNumpy = .ub) ∧
    (p.length ≤ s.k → s.elementPartsNumpy = .ok ⟨[s.k], p ++ List.replicate (s.k - p.length) 0⟩) := by
  have hk := C137_maps_kept cv wrap metis st c hc
  rw [h] at hk
  have he : s.epart = some p := hk.1.trans hp
  unfold Manager.elementPartsNumpy
  rw [he]
  refine ⟨fun hl => Py.exportTo_ub _ _ (by simpa using hl), fun hl => ?_⟩
  show Py.exportTo [s.k] p = _
  unfold Py.exportTo
  rw [Py.copyInto_ok _ _ (by simpa [Py.npZeros] using hl)]
  simp [Py.npZeros]

/-- Before the first `partitionMesh` the maps are null pointers: exporting them is undefined. -/
theorem C137_null (cv : Conv R) (wrap : Bool) (metis : Metis) (calls : List (Call R)) : ∀ (st s : Manager R) (threw : List Bool), st.epart = none → st.vpart = none →
    (∀ c ∈ calls, c.Loads) → history cv wrap metis st calls = some (s, threw) → s.elementPartsNumpy = .ub ∧ s.vertexPartsNumpy = .ub := by
  induction calls with
  | nil =>
    intro st s threw h1 h2 _ h
    cases h
    unfold Manager.elementPartsNumpy Manager.vertexPartsNumpy
    rw [h1, h2]
    exact ⟨rfl, rfl⟩
  | cons c cs ih =>
    intro st s threw h1 h2 hc h
    have hk := C137_maps_kept cv wrap metis st c (hc c (by simp))
    unfold history at h
    split at h
    · rename_i s1 e1
      rw [e1] at hk
      obtain ⟨⟨s2, fl⟩, e2, e3⟩ := Option.map_eq_some_iff.1 h
      cases e3
      exact ih s1 s2 fl (hk.1.trans h1) (hk.2.trans h2) (fun c' h' => hc c' (by simp [h'])) e2
    · rename_i s1 e1
      rw [e1] at hk
      obtain ⟨⟨s2, fl⟩, e2, e3⟩ := Option.map_eq_some_iff.1 h
      cases e3
      exact ih s1 s2 fl (hk.1.trans h1) (hk.2.trans h2) (fun c' h' => hc c' (by simp [h'])) e2
    · cases h

end

/-- **C137, refutation.** A failing METIS is not reported: the call returns, and leaves exactly the state it leaves when METIS succeeds and puts everything into part 0. -/
theorem C137_failure_silent (st : Manager R) (e : List Int) (he : st.e2v = some e) (n : Int) :
    ∃ s, partitionMesh (fun _ _ _ _ _ => none) st n = .done s ∧
      partitionMesh (fun ne nv _ _ _ => some (List.replicate ne 0, List.replicate nv 0)) st n = .done s := by
  have hp : ∃ p, eptr st.nf st.k (List.replicate (st.k + 1) 0) = .ok p := by
    obtain ⟨p, hp, -⟩ := C26_eptr st.nf st.k (List.replicate (st.nf * st.k) 0) (by simp) (List.replicate (st.k + 1) 0) (by simp)
    exact ⟨p, hp⟩
  obtain ⟨p, hp⟩ := hp
  unfold partitionMesh Res.after
  rw [hp]
  simp only [he]
  exact ⟨_, rfl, rfl⟩

/-! ### Concrete programs -/

/-- A METIS that accepts two parts only. -/
def exMetis : Metis := fun ne nv _ _ n =>
  if n = 2 then some ((List.range ne).map (· % 2), (List.range nv).map (· % 2)) else none

theorem exMetis_ok : MetisOk exMetis := by
  intro ne nv p e n m h
  unfold exMetis at h
  split_ifs at h with hn
  cases h
  subst hn
  refine ⟨by simp, by simp, ?_, ?_⟩ <;>
  · intro x hx
    obtain ⟨y, -, rfl⟩ := List.mem_map.1 hx
    omega

/-- The file of C61 with one node and one triangle less. -/
def exSmall : Str :=
  "$MeshFormat\n2.2 0 8\n$EndMeshFormat\n$Nodes\n3\n1 0 0 0\n2 1 0 0\n3 1 1 0\n$EndNodes\n$Elements\n1\n2 2 2 0 6 1 3 2\n$EndElements\n".toList

/-- The same file with a spoilt marker. -/
def exSpoilt : Str :=
  "$MeshFormat\n2.2 0 8\n$EndMeshFormat\n$Nodes\n3\n1 0 0 0\n2 1 0 0\n3 1 1 0\n$EndNodes\n$Element\n1\n2 2 2 0 6 1 3 2\n$EndElements\n".toList

/-- The hypotheses of `C136_exports_partial` and `C137_partition_partial`: reading, partitioning, a rejected mesh file, reading again. -/
example : history exConv false exMetis Manager.new [.readMesh 77 (some exText), .partition 2, .readMesh 77 (some exSpoilt), .readMesh 77 (some exText), .partition 2] =
    some ({ dim := 3, nv := 4, nf := 3, k := 2, vert := some [0, 0, 0, 1, 0, 0, 1, 1, 0, 0, 1, 0], e2v := some [0, 1, 2, 0, 2, 3],
            tabs := some ([0, 0, 1, 0, 1, 1], [0, 1, 0, 2, 1, 2], [3, 3, 0, 0, 3, 3]), epart := some [0, 1], vpart := some [0, 1, 0, 1] },
          [false, false, true, false, false]) := by decide +kernel

/-- **C136, refutation.** A rejected mesh file does not leave the mesh as it was: the elements are the old ones, the vertices are the three of the rejected file, and the second element has a vertex
number that no longer exists. -/
theorem C136_rejected_mesh : ∃ s, history exConv false exMetis Manager.new [.readMesh 77 (some exText), .readMesh 77 (some exSpoilt)] = some (s, [false, true]) ∧
    s.nv = 3 ∧ s.e2v = some [0, 1, 2, 0, 2, 3] ∧ s.vert = some [0, 0, 0, 1, 0, 0, 1, 1, 0] :=
  ⟨{ dim := 3, nv := 3, nf := 3, k := 2, vert := some [0, 0, 0, 1, 0, 0, 1, 1, 0], e2v := some [0, 1, 2, 0, 2, 3],
     tabs := some ([0, 0, 1, 0, 1, 1], [0, 1, 0, 2, 1, 2], [3, 3, 0, 0, 3, 3]), epart := none, vpart := none }, by decide +kernel, rfl, rfl, rfl⟩

/-- **C136, refutation.** Three vertices are read; a second file is rejected at its second row; exporting the vertices is now undefined. -/
theorem C136_rejected_program : ∃ s, history exConv false exMetis Manager.new [.readVertices (some "0 0\n1 0\n0 1\n".toList), .readVertices (some "0 0\n1\n0 1\n".toList)] =
    some (s, [false, true]) ∧ s.verticesNumpy = .ub :=
  ⟨{ dim := 2, nv := 1, nf := 0, k := 0, vert := some [0, 0, 1, 0, 0, 1], e2v := none, tabs := none, epart := none, vpart := none }, by decide +kernel, by
    unfold Manager.verticesNumpy
    exact Py.exportTo_ub _ _ (by decide)⟩

/-- **C137, refutation.** Two triangles are partitioned, then a file with one triangle is read: exporting the element map is undefined. -/
theorem C137_stale_program : ∃ s, history exConv false exMetis Manager.new [.readMesh 77 (some exText), .partition 2, .readMesh 77 (some exSmall)] =
    some (s, [false, false, false]) ∧ s.elementPartsNumpy = .ub ∧ s.vertexPartsNumpy = .ub :=
  ⟨{ dim := 3, nv := 3, nf := 3, k := 1, vert := some [0, 0, 0, 1, 0, 0, 1, 1, 0], e2v := some [0, 1, 2],
     tabs := some ([0, 0, 0], [0, 1, 2], [3, 3, 3]), epart := some [0, 1], vpart := some [0, 1, 0, 1] }, by decide +kernel, by
    unfold Manager.elementPartsNumpy Manager.vertexPartsNumpy
    exact ⟨Py.exportTo_ub _ _ (by decide), Py.exportTo_ub _ _ (by decide)⟩⟩

/-- The hypotheses of `C136_reload_tables`. -/
example : ∃ s1 s2, readVerticesX exConv { (Manager.new : Manager ℚ) with nv := 9, vert := some [5] } (some "0 0\n1 0\n0 1\n".toList) = .done s1 ∧
    readElementsX exConv false s1 (some "0 1 2\n".toList) = .done s2 ∧ s2.e2v = some [0, 1, 2] :=
  ⟨{ dim := 2, nv := 3, nf := 0, k := 0, vert := some [0, 0, 1, 0, 0, 1], e2v := none, tabs := none, epart := none, vpart := none },
   { dim := 2, nv := 3, nf := 3, k := 1, vert := some [0, 0, 1, 0, 0, 1], e2v := some [0, 1, 2], tabs := some ([0, 0, 0], [0, 1, 2], [3, 3, 3]), epart := none, vpart := none },
   rfl, rfl, rfl⟩

end Blitzdg.Mesh
