import Verif.SW.FullRun
import Verif.SW.SimpleRunProps
import Verif.SW.SetupProps

/-!
C144: what src/sw2d starts from, what it writes, and how it ends.
-/

namespace Blitzdg.SW

open Blitzdg.Nodes1D (Lapack)
open Blitzdg.Sparse (DMat)
open Blitzdg.DG2D

variable {la : Lapack} {eps ztol tol : ℝ} {N : ℕ} {m : Mesh} {P : ℕ → ℕ} {x : List ℝ} {bt : List Int} {g : Grid}

/-! ### The start -/

/-- Some face is tagged as a wall in the mesh. -/
def HasWall (m : Mesh) : Prop := ∃ e < 3 * m.K, m.bcType[e]? = some 3

/-- Some face is tagged as open in the mesh or has both its ends in the list. -/
def HasOpen (m : Mesh) (obc : ℕ → Bool) : Prop := ∃ e < 3 * m.K, m.bcType[e]? = some 2 ∨ m.EndsIn obc e

/-- Depth at node `i` of element `k` for the values in the depth file. -/
noncomputable def fileDepth (g : Grid) (vals : List ℝ) (i k : ℕ) : ℝ := if k * g.np + i < vals.length then max 150 (vals.getD (k * g.np + i) 0) else 150

/-- Bed and fields the loop is entered with: the depths of the file, slopes filtered, water at rest with a level surface. -/
structure FullStartOk (g : Grid) (vals : List ℝ) (F : Matrix (Fin g.np) (Fin g.np) ℝ) (b : Bed) (q : Fields) : Prop where
  fits : q.Fits g
  fitsH : Fits g b.H
  bed : b = g.bed F b.H
  depth : ∀ i < g.np, ∀ k < g.K, b.H.at' i k = fileDepth g vals i k
  state : ∀ i k, q.at' i k = ⟨b.H.at' i k, 0, 0⟩

theorem FullStartOk.deep {vals : List ℝ} {F : Matrix (Fin g.np) (Fin g.np) ℝ} {b : Bed} {q : Fields} (h : FullStartOk g vals F b q) : ∀ i < g.np, ∀ k < g.K, 150 ≤ q.h.at' i k := by
  intro i hi k hk
  have := congrArg State.h (h.state i k)
  simp only [Fields.at'] at this
  rw [this, h.depth i hi k hk]
  unfold fileDepth
  split_ifs
  · exact le_max_left _ _
  · exact le_rfl

/-- **C144, start.** On every mesh, for every order and every depth file with at most one value per node the filter, the depth and its slopes are computed without an error; the water is at rest, its surface is level, and it is at least 150 deep everywhere. -/
theorem C144_start (h : Provisioned la eps ztol tol N m P g) (vals : List ℝ) (hv : vals.length ≤ g.np * g.K) :
    ∃ (F : Matrix (Fin g.np) (Fin g.np) ℝ) (b : Bed) (q : Fields), g.filter (0.90 * g.N) 4 = .ok (fun i j => some (F i j)) ∧ g.startFull F vals = .ok (b, q) ∧ FullStartOk g vals F b q ∧
      ∀ i < g.np, ∀ k < g.K, 150 ≤ q.h.at' i k := by
  obtain ⟨x, hg, hN, hKe, -⟩ := h.spec
  have hN1 := h.order
  have hNr : (1 : ℝ) ≤ g.N := by rw [hN]; exact_mod_cast hN1
  obtain ⟨F, hF, -⟩ := C85_product h (0.90 * g.N) (by positivity) (by rw [← hN]; intro hh; nlinarith) 4 (by norm_num)
  obtain ⟨H, h1, h2, h3, h4⟩ := C91_depth_partial vals g.np g.K hv
  have hok : FullStartOk g vals F (g.bed F H) ⟨⟨g.np, g.K, fun i k => H.at' i k + 0⟩, ⟨g.np, g.K, fun i k => (H.at' i k + 0) * 0⟩, ⟨g.np, g.K, fun i k => (H.at' i k + 0) * 0⟩⟩ := by
    refine ⟨⟨⟨rfl, rfl⟩, ⟨rfl, rfl⟩, rfl, rfl⟩, ⟨h2, h3⟩, rfl, fun i hi k hk => ?_, fun i k => ?_⟩
    · exact h4 i hi k hk
    · simp [Fields.at', Grid.bed]
  refine ⟨F, _, _, hF, ?_, hok, hok.deep⟩
  unfold Grid.startFull
  rw [h1]
  rfl

/-- What the tag map looks like after the set-up. -/
theorem reopen_tags (h : Provisioned la eps ztol tol N m P g) (obc : ℕ → Bool) : ∃ bc, g.reopen m obc = .ok { g with bc := bc } ∧
    (HasWall m → ∃ L, bc 3 = some L ∧ (∀ c ∈ L, c < g.nf) ∧ ∀ e < 3 * g.K, ∀ i ≤ g.N, g.fn e i ∈ L ↔ m.bcType[e]? = some 3) ∧ (¬ HasWall m → bc 3 = none) ∧
    (HasOpen m obc → ∃ L, bc 2 = some L ∧ (∀ c ∈ L, c < g.nf) ∧ ∀ e < 3 * g.K, ∀ i ≤ g.N, g.fn e i ∈ L ↔ (m.bcType[e]? = some 2 ∨ m.EndsIn obc e)) ∧ (¬ HasOpen m obc → bc 2 = none) := by
  obtain ⟨x, hg, hN, hK, -⟩ := h.spec
  obtain ⟨bt', h1, h2, h3⟩ := retag_ok m h.mesh.lenEv obc m.bcType h.mesh.lenBc
  have hl : 3 * g.K ≤ bt'.length := by rw [h2, hK]; exact h.mesh.lenBc
  obtain ⟨bc, h4, h5⟩ := buildBCHash_ok (g.N + 1) (3 * g.K) bt' g.bc hl
  refine ⟨bc, ?_, ?_⟩
  · unfold Grid.reopen
    rw [h1]
    simp only [Out.bind_ok, h4, Out.pure_eq]
  have m1 : ∀ t c, c ∈ placesFrom t 0 (tagsOfNodes (g.N + 1) (3 * g.K) bt') ↔ OnFaceWithTag (g.N + 1) (3 * g.K) bt' t c := fun t c => mem_places _ _ _ hl t c
  have key : ∀ t : Int, t ≠ 0 → (∃ e < 3 * m.K, m.bcType[e]? = some t ∨ bt'[e]? = some t) →
      ∃ L, bc t = some L ∧ (∀ c ∈ L, c < g.nf) ∧ ∀ e < 3 * g.K, ∀ i ≤ g.N, g.fn e i ∈ L ↔ m.bcType[e]? = some t ∨ bt'[e]? = some t := by
    intro t ht ⟨e0, he0, hor⟩
    set L0 := (g.bc t).getD [] with hL0
    set L1 := placesFrom t 0 (tagsOfNodes (g.N + 1) (3 * g.K) bt') with hL1
    have m0 : ∀ c, c ∈ L0 ↔ OnFaceWithTag (g.N + 1) (3 * g.K) m.bcType t c := by
      intro c
      by_cases hex : ∃ c, OnFaceWithTag (g.N + 1) (3 * g.K) m.bcType t c
      · obtain ⟨l, hl⟩ := hg.bcSome t ht hex
        rw [hL0, hl]
        exact hg.bc t ht l hl c
      · rw [hL0, hg.bcNone t ht hex]
        constructor
        · intro h; simp at h
        · intro h; exact absurd ⟨c, h⟩ hex
    have hbc : bc t = some (L0 ++ L1) := by
      rw [h5]
      by_cases hp : L1 = []
      · rw [if_pos (Or.inr hp), hp, List.append_nil]
        have he : m.bcType[e0]? = some t := by
          rcases hor with h | h
          · exact h
          · have : g.fn e0 0 ∈ L1 := (m1 t _).2 ((tagged_iff (by omega) (by omega)).2 h)
            rw [hp] at this; simp at this
        obtain ⟨l, hl⟩ := hg.bcSome t ht ⟨g.fn e0 0, (tagged_iff (by omega) (by omega)).2 he⟩
        rw [hL0, hl]; rfl
      · rw [if_neg (by rintro (h | h); exacts [ht h, hp h])]
    refine ⟨_, hbc, fun c hc => ?_, fun e he i hi => ?_⟩
    · have : OnFaceWithTag (g.N + 1) (3 * g.K) m.bcType t c ∨ OnFaceWithTag (g.N + 1) (3 * g.K) bt' t c := by
        rcases List.mem_append.1 hc with h | h
        · exact Or.inl ((m0 c).1 h)
        · exact Or.inr ((m1 t c).1 h)
      obtain ⟨e, i, he, hi, rfl⟩ : ∃ e i, e < 3 * g.K ∧ i < g.N + 1 ∧ c = e * (g.N + 1) + i := by
        rcases this with ⟨e, i, a, b, -, c⟩ | ⟨e, i, a, b, -, c⟩
        · exact ⟨e, i, a, b, c⟩
        · exact ⟨e, i, a, b, c⟩
      have := fn_lt (g := g) he (show i ≤ g.N by omega)
      unfold Grid.fn at this
      rwa [Nat.mul_comm] at this
    · rw [List.mem_append, m0, m1, tagged_iff he hi, tagged_iff he hi]
  have keyNone : ∀ t : Int, t ≠ 0 → (¬ ∃ e < 3 * m.K, m.bcType[e]? = some t ∨ bt'[e]? = some t) → bc t = none := by
    intro t ht hno
    rw [h5, if_pos (Or.inr ?_)]
    · apply hg.bcNone t ht
      rintro ⟨c, e, i, he, -, h, -⟩
      exact hno ⟨e, by omega, Or.inl h⟩
    · apply List.eq_nil_iff_forall_not_mem.2
      intro c hc
      obtain ⟨e, i, he, -, h, -⟩ := (m1 t c).1 hc
      exact hno ⟨e, by omega, Or.inr h⟩
  have e3 : ∀ e < 3 * m.K, (m.bcType[e]? = some 3 ∨ bt'[e]? = some 3) ↔ m.bcType[e]? = some 3 := by
    intro e he
    rw [h3 e he]
    split_ifs <;> simp
  have e2 : ∀ e < 3 * m.K, (m.bcType[e]? = some 2 ∨ bt'[e]? = some 2) ↔ (m.bcType[e]? = some 2 ∨ m.EndsIn obc e) := by
    intro e he
    rw [h3 e he]
    by_cases h : m.EndsIn obc e
    · simp [h]
    · simp [h]
  refine ⟨?_, ?_, ?_, ?_⟩
  · rintro ⟨e, he, hw⟩
    obtain ⟨L, a, b, c⟩ := key 3 (by norm_num) ⟨e, he, Or.inl hw⟩
    exact ⟨L, a, b, fun e he i hi => (c e he i hi).trans (e3 e (by omega))⟩
  · intro hw
    apply keyNone 3 (by norm_num)
    rintro ⟨e, he, h⟩
    exact hw ⟨e, he, (e3 e he).1 h⟩
  · rintro ⟨e, he, hw⟩
    obtain ⟨L, a, b, c⟩ := key 2 (by norm_num) ⟨e, he, (e2 e he).2 hw⟩
    exact ⟨L, a, b, fun e he i hi => (c e he i hi).trans (e2 e (by omega))⟩
  · intro hw
    apply keyNone 2 (by norm_num)
    rintro ⟨e, he, h⟩
    exact hw ⟨e, he, (e2 e he).1 h⟩

/-- The sponge coefficient: `S (1 - d/R)` at distance `d < R` from the nearest open boundary node, zero farther away. -/
def SpongeOk (g : Grid) (O : ℕ → Prop) (S R : ℝ) (c : DMat ℝ) : Prop := Fits g c ∧ ∀ i < g.np, ∀ k < g.K,
  (∃ e < 3 * g.K, O e ∧ ∃ j ≤ g.N, toFaceNode g i k e j < R ∧ (∀ e' < 3 * g.K, O e' → ∀ j' ≤ g.N, toFaceNode g i k e j ≤ toFaceNode g i k e' j') ∧ c.at' i k = S * (1 - toFaceNode g i k e j / R)) ∨
  ((∀ e < 3 * g.K, O e → ∀ j ≤ g.N, R ≤ toFaceNode g i k e j) ∧ c.at' i k = 0)

/-- Open boundary and sponge layer, case by case. -/
theorem openAndSponge_cases (h : Provisioned la eps ztol tol N m P g) (hK : 0 < m.K) (obc : ℕ → Bool) :
    (¬ HasOpen m obc → g.openAndSponge m obc = .throws) ∧ (HasOpen m obc → 5 ≤ N → g.openAndSponge m obc = .ub) ∧
    (HasOpen m obc → N ≤ 4 → ∃ (bc : TagMap) (c : DMat ℝ), g.openAndSponge m obc = .ok ({ g with bc := bc }, c) ∧ SpongeOk g (fun e => m.bcType[e]? = some 2 ∨ m.EndsIn obc e) 10000 1000 c ∧
      (¬ HasWall m → bc 3 = none) ∧ (HasWall m → Tags g bc (fun e => m.bcType[e]? = some 3) (fun e => m.bcType[e]? = some 2 ∨ m.EndsIn obc e))) := by
  obtain ⟨bc, h1, h2, h3, h4, h5⟩ := reopen_tags h obc
  have hsp : ∀ bc' : TagMap, bc' 2 = bc 2 → ({ g with bc := bc } : Grid).buildSponge 10000 1000 = ({ g with bc := bc' } : Grid).buildSponge 10000 1000 := by
    intro bc' hb
    unfold Grid.buildSponge tagNodes
    simp only [hb]
    rfl
  have hdummy : HasOpen m obc → Tags g (fun t => if t = 3 then some [] else bc t) (fun _ => False) (fun e => m.bcType[e]? = some 2 ∨ m.EndsIn obc e) := fun ho =>
    ⟨⟨[], rfl, by simp, by simp⟩, h4 ho⟩
  refine ⟨fun ho => ?_, fun ho hN => ?_, fun ho hN => ?_⟩
  · unfold Grid.openAndSponge
    rw [h1, Out.bind_ok]
    unfold Grid.buildSponge tagNodes
    simp only [h5 ho]
    rfl
  · unfold Grid.openAndSponge
    rw [h1, Out.bind_ok, hsp (fun t => if t = 3 then some [] else bc t) rfl, C87_overflow h hK hN (hdummy ho)]
    rfl
  · obtain ⟨c, c1, c2, c3⟩ := C87_coeff_partial h hN (hdummy ho) 10000 1000 (by norm_num)
    refine ⟨bc, c, ?_, ⟨c2, c3⟩, h3, fun hw => ⟨h2 hw, h4 ho⟩⟩
    unfold Grid.openAndSponge
    rw [h1, Out.bind_ok, hsp (fun t => if t = 3 then some [] else bc t) rfl, c1]
    rfl

/-- The program up to the open boundary. -/
theorem mainFull_eq (h : Provisioned la eps ztol tol N m P g) (vals : List ℝ) (hv : vals.length ≤ g.np * g.K) :
    ∃ (F : Matrix (Fin g.np) (Fin g.np) ℝ) (b : Bed) (q : Fields), g.filter (0.90 * g.N) 4 = .ok (fun i j => some (F i j)) ∧ FullStartOk g vals F b q ∧ ∀ obc n, g.mainFull m obc vals n =
      match g.openAndSponge m obc with
      | .throws => .ok (⟨⟨fun _ => q, 0⟩, 0, [(0, g.firstFields)]⟩, .threw)
      | .ub => .ok (⟨⟨fun _ => q, 0⟩, 0, [(0, g.firstFields)]⟩, .undefined)
      | .ok (g', c) => .ok (g'.loopFull physFull 0.25 b c (24 * 3600) n ⟨⟨fun _ => q, 0⟩, 0, [(0, g.firstFields), (0, g.staticFields b c)]⟩) := by
  obtain ⟨F, b, q, h1, h2, h3, -⟩ := C144_start h vals hv
  refine ⟨F, b, q, h1, h3, fun obc n => ?_⟩
  unfold Grid.mainFull asMatrix
  rw [h1]
  simp only [Out.bind_ok, Option.isSome_some, implies_true, if_true, Option.getD_some]
  cases g.openAndSponge m obc <;> (show (g.startFull F vals >>= _) = _; rw [h2]; rfl)

/-! ### Runs that stop before the loop -/

/-- Elevation and velocities of water at rest. -/
def RestFields (g : Grid) (f : List (String × DMat ℝ)) : Prop := ∃ eta u v : DMat ℝ, f = [("eta", eta), ("u", u), ("v", v)] ∧ Fits g eta ∧ Fits g u ∧ Fits g v ∧
  ∀ i < g.np, ∀ k < g.K, eta.at' i k = 0 ∧ u.at' i k = 0 ∧ v.at' i k = 0

theorem first_rest (g : Grid) : RestFields g g.firstFields := ⟨_, _, _, rfl, ⟨rfl, rfl⟩, ⟨rfl, rfl⟩, ⟨rfl, rfl⟩, fun _ _ _ _ => ⟨rfl, rfl, rfl⟩⟩

/-- **C144, a depth file that is too long.** With more values in the depth file than nodes in the mesh the program writes past the end of an array before it writes any file. -/
theorem C144_long_file (h : Provisioned la eps ztol tol N m P g) (obc : ℕ → Bool) (vals : List ℝ) (hv : g.np * g.K < vals.length) (n : ℕ) : g.mainFull m obc vals n = .ub := by
  obtain ⟨F, b, q, h1, -⟩ := C144_start h [] (by simp)
  unfold Grid.mainFull asMatrix
  rw [h1]
  simp only [Out.bind_ok, Option.isSome_some, implies_true, if_true, Option.getD_some, Grid.startFull, C91_overflow vals g.np g.K hv]
  rfl

/-- **C144, no open face.** If no face is tagged as open and none has both ends listed, the program writes elevation and velocities of water at rest under number 0 and raises. -/
theorem C144_no_open (h : Provisioned la eps ztol tol N m P g) (hK : 0 < m.K) (obc : ℕ → Bool) (ho : ¬ HasOpen m obc) (vals : List ℝ) (hv : vals.length ≤ g.np * g.K) (n : ℕ) :
    ∃ r f, g.mainFull m obc vals n = .ok (r, .threw) ∧ r.calls = [(0, f)] ∧ RestFields g f := by
  obtain ⟨F, b, q, -, -, h3⟩ := mainFull_eq h vals hv
  refine ⟨_, g.firstFields, by rw [h3, (openAndSponge_cases h hK obc).1 ho], rfl, first_rest g⟩

/-- **C144, high order.** From order five on the sponge layer is set up outside its arrays; elevation and velocities of water at rest have been written under number 0. -/
theorem C144_high_order (h : Provisioned la eps ztol tol N m P g) (hK : 0 < m.K) (obc : ℕ → Bool) (ho : HasOpen m obc) (hN : 5 ≤ N) (vals : List ℝ) (hv : vals.length ≤ g.np * g.K) (n : ℕ) :
    ∃ r f, g.mainFull m obc vals n = .ok (r, .undefined) ∧ r.calls = [(0, f)] ∧ RestFields g f := by
  obtain ⟨F, b, q, -, -, h3⟩ := mainFull_eq h vals hv
  refine ⟨_, g.firstFields, by rw [h3, (openAndSponge_cases h hK obc).2.1 ho hN], rfl, first_rest g⟩

/-! ### The loop -/

/-- What is written of a state: elevation above the bed's level and velocities. -/
noncomputable def snapshot (g : Grid) (H : DMat ℝ) (q : Fields) : List (String × DMat ℝ) :=
  [("eta", ⟨g.np, g.K, fun i k => (q.at' i k).h - H.at' i k⟩), ("u", ⟨g.np, g.K, fun i k => (q.at' i k).hu / (q.at' i k).h⟩), ("v", ⟨g.np, g.K, fun i k => (q.at' i k).hv / (q.at' i k).h⟩)]

/-- Every twentieth state with its number, `c` of them. -/
noncomputable def snapshots (g : Grid) (H : DMat ℝ) (S : ℕ → SimFull) (c : ℕ) : List Written := (List.range c).map fun j => (20 * j, snapshot g H ((S (20 * j)).σ 0))

theorem output_snapshots {b : Bed} {S : ℕ → SimFull} {r : FullRun} {pre : List Written} (hs : r.s = S r.count) (hf : r.calls = pre ++ snapshots g b.H S ((r.count + 19) / 20)) :
    (g.outputFull b r).calls = pre ++ snapshots g b.H S (r.count / 20 + 1) ∧ (g.outputFull b r).s = r.s ∧ (g.outputFull b r).count = r.count := by
  unfold Grid.outputFull
  split_ifs with hc
  · refine ⟨?_, rfl, rfl⟩
    show r.calls ++ _ = _
    rw [hf]
    unfold snapshots
    rw [List.range_succ, List.map_append, show (r.count + 19) / 20 = r.count / 20 by omega, List.append_assoc]
    congr 2
    simp only [List.map_cons, List.map_nil]
    rw [show 20 * (r.count / 20) = r.count by omega, ← hs]
    rfl
  · refine ⟨?_, rfl, rfl⟩
    rw [hf, show (r.count + 19) / 20 = r.count / 20 + 1 by omega]

/-- The end of a run of the loop entered with state `s` after the calls `pre`: `S j` is the state after `j` passes. -/
structure RanFull (g : Grid) (ph : Phys) (CFL : ℝ) (b : Bed) (c : DMat ℝ) (T : ℝ) (n : ℕ) (pre : List Written) (s : SimFull) (r : FullRun) (e : Left) (S : ℕ → SimFull) : Prop where
  first : S 0 = s
  atMost : r.count ≤ n
  last : S r.count = r.s
  passes : Passes SimFull.t (g.passFull ph CFL b c 0) T r.count S
  finished : e = .finished → T ≤ r.s.t ∧ r.calls = pre ++ snapshots g b.H S ((r.count + 19) / 20)
  goingOn : e = .goingOn → r.count = n ∧ r.calls = pre ++ snapshots g b.H S ((r.count + 19) / 20)
  threw : e = .threw → r.s.t < T ∧ ((g.dtFull ph.g CFL (r.s.σ 0) = .throws ∧ r.calls = pre ++ snapshots g b.H S ((r.count + 19) / 20)) ∨
    (g.passFull ph CFL b c 0 r.s = .throws ∧ r.calls = pre ++ snapshots g b.H S (r.count / 20 + 1)))
  undefined : e = .undefined → r.s.t < T ∧ (g.dtFull ph.g CFL (r.s.σ 0) = .ub ∨ g.passFull ph CFL b c 0 r.s = .ub)

theorem loopFull_ran (ph : Phys) (CFL : ℝ) (b : Bed) (c : DMat ℝ) (T : ℝ) (n m : ℕ) (S : ℕ → SimFull) (pre : List Written) (hS : Passes SimFull.t (g.passFull ph CFL b c 0) T m S) (r : FullRun) (hc : r.count = m)
    (hs : r.s = S m) (hf : r.calls = pre ++ snapshots g b.H S ((m + 19) / 20)) :
    ∃ S', RanFull g ph CFL b c T (m + n) pre (S 0) (g.loopFull ph CFL b c T n r).1 (g.loopFull ph CFL b c T n r).2 S' := by
  induction n generalizing m S r with
  | zero => exact ⟨S, rfl, hc.le, by rw [← hc] at hs; exact hs.symm, by rw [← hc] at hS; exact hS, nofun, fun _ => ⟨hc, by rw [← hc] at hf; exact hf⟩, nofun, nofun⟩
  | succ n ih =>
    unfold Grid.loopFull
    split_ifs with ht
    · obtain ⟨o1, o2, o3⟩ := output_snapshots (g := g) (b := b) (S := S) (r := r) (pre := pre) (by rw [hc]; exact hs) (by rw [hc]; exact hf)
      have hr : S r.count = r.s := by rw [← hc] at hs; exact hs.symm
      have hp : Passes SimFull.t (g.passFull ph CFL b c 0) T r.count S := by rw [← hc] at hS; exact hS
      have hf' : r.calls = pre ++ snapshots g b.H S ((r.count + 19) / 20) := by rw [← hc] at hf; exact hf
      cases hdt : g.dtFull ph.g CFL (r.s.σ 0) with
      | throws => exact ⟨S, rfl, by show r.count ≤ _; omega, hr, hp, nofun, nofun, fun _ => ⟨ht, Or.inl ⟨hdt, hf'⟩⟩, nofun⟩
      | ub => exact ⟨S, rfl, by show r.count ≤ _; omega, hr, hp, nofun, nofun, nofun, fun _ => ⟨ht, Or.inl hdt⟩⟩
      | ok dt =>
        simp only []
        cases hst : g.passFull ph CFL b c 0 (g.outputFull b r).s with
        | ok s' =>
          obtain ⟨S', hS'⟩ : ∃ S' : ℕ → SimFull, (∀ j ≤ m, S' j = S j) ∧ S' (m + 1) = s' := ⟨fun j => if j ≤ m then S j else s', fun j hj => if_pos hj, if_neg (by omega)⟩
          have hpass : Passes SimFull.t (g.passFull ph CFL b c 0) T (m + 1) S' := by
            intro j hj
            rcases Nat.lt_or_ge j m with hjc | hjc
            · rw [hS'.1 j (by omega), hS'.1 (j + 1) (by omega)]
              exact hS j hjc
            · obtain rfl : j = m := by omega
              rw [hS'.1 j le_rfl, hS'.2, ← hs]
              rw [o2] at hst
              exact ⟨ht, hst⟩
          obtain ⟨S'', h''⟩ := ih (m + 1) S' hpass ⟨s', (g.outputFull b r).count + 1, (g.outputFull b r).calls⟩ (by show _ + 1 = _; rw [o3, hc]) hS'.2.symm (by
            show (g.outputFull b r).calls = _
            rw [o1, hc, show (m + 1 + 19) / 20 = m / 20 + 1 by omega]
            congr 1
            unfold snapshots
            apply List.map_congr_left
            intro j hj
            rw [List.mem_range] at hj
            rw [hS'.1 (20 * j) (by omega)])
          refine ⟨S'', ?_⟩
          rw [hS'.1 0 (by omega), show m + 1 + n = m + (n + 1) by omega] at h''
          exact h''
        | throws =>
          refine ⟨S, rfl, by show (g.outputFull b r).count ≤ _; omega, by show S (g.outputFull b r).count = _; rw [o3, o2, hr], by show Passes _ _ _ (g.outputFull b r).count _; rw [o3]; exact hp, nofun, nofun, fun _ => ⟨?_, Or.inr ⟨hst, ?_⟩⟩, nofun⟩
          · show (g.outputFull b r).s.t < T
            rw [o2]; exact ht
          · show (g.outputFull b r).calls = pre ++ snapshots g b.H S ((g.outputFull b r).count / 20 + 1)
            rw [o1, o3]
        | ub =>
          refine ⟨S, rfl, by show (g.outputFull b r).count ≤ _; omega, by show S (g.outputFull b r).count = _; rw [o3, o2, hr], by show Passes _ _ _ (g.outputFull b r).count _; rw [o3]; exact hp, nofun, nofun, nofun, fun _ => ⟨?_, Or.inr hst⟩⟩
          show (g.outputFull b r).s.t < T
          rw [o2]; exact ht
    · exact ⟨S, rfl, by show r.count ≤ _; omega, by rw [← hc] at hs; exact hs.symm, by rw [← hc] at hS; exact hS, fun _ => ⟨not_lt.1 ht, by rw [← hc] at hf; exact hf⟩, nofun, nofun, nofun⟩

/-- `q'` are the fields one pass after `q`: a damped step of size `dt`, and from there a damped step of half the size with the rates found there (the second stage finds its two operands in the same memory). -/
def PassedOn (g : Grid) (ph : Phys) (b : Bed) (c : DMat ℝ) (t dt : ℝ) (q q' : Fields) : Prop :=
  ∃ q1 r r' : Fields, g.rhsFull ph b t q = .ok r ∧ g.rhsFull ph b t q1 = .ok r' ∧
    (∀ i k, q1.at' i k = ⟨q.h.at' i k + dt * r.h.at' i k, sponge (c.at' i k) (q.hu.at' i k + dt * r.hu.at' i k), sponge (c.at' i k) (q.hv.at' i k + dt * r.hv.at' i k)⟩) ∧
    ∀ i k, q'.at' i k = ⟨q1.h.at' i k + dt / 2 * r'.h.at' i k, sponge (c.at' i k) (q1.hu.at' i k + dt / 2 * r'.hu.at' i k), sponge (c.at' i k) (q1.hv.at' i k + dt / 2 * r'.hv.at' i k)⟩

/-- Largest elevation, as the program computes it. -/
theorem etaOf_far (hK : 0 < g.K) (H : DMat ℝ) (q : Fields) : 0 ≤ g.etaOf H q ∧ (1e8 < g.etaOf H q ↔ ∃ i < g.np, ∃ k < g.K, 1e8 < |q.h.at' i k - H.at' i k|) := by
  unfold Grid.etaOf
  set l := (List.range (g.np * g.K)).map (fun c => |q.h.at' (c / g.K) (c % g.K) - H.at' (c / g.K) (c % g.K)|) with hl
  rcases eq_or_ne l [] with h0 | hne
  · rw [h0]
    refine ⟨by unfold listMax; simp, ⟨fun h => ?_, ?_⟩⟩
    · unfold listMax at h; norm_num at h
    · rintro ⟨i, hi, k, hk, -⟩
      exfalso
      have := congrArg List.length h0
      rw [hl, List.length_map, List.length_range, List.length_nil] at this
      rcases Nat.mul_eq_zero.1 this with h | h <;> omega
  · obtain ⟨h1, h2⟩ := listMax_spec l hne
    have h3 := h2
    rw [hl] at h3
    obtain ⟨c, hc, hce⟩ := List.mem_map.1 h3
    rw [List.mem_range] at hc
    rw [← hl] at hce
    refine ⟨by rw [← hce]; exact abs_nonneg _, fun h => ⟨c / g.K, (Nat.div_lt_iff_lt_mul hK).2 hc, c % g.K, Nat.mod_lt _ hK, by rw [hce]; exact h⟩, ?_⟩
    rintro ⟨i, hi, k, hk, h⟩
    refine lt_of_lt_of_le h (h1 _ ?_)
    rw [hl]
    refine List.mem_map.2 ⟨i * g.K + k, List.mem_range.2 (by nlinarith), ?_⟩
    rw [show (i * g.K + k) / g.K = i by rw [Nat.mul_comm, Nat.mul_add_div hK, Nat.div_eq_of_lt hk, Nat.add_zero], show (i * g.K + k) % g.K = k by rw [Nat.mul_comm, Nat.mul_add_mod, Nat.mod_eq_of_lt hk]]

/-- A pass on fields of the shape of the grid. -/
theorem passFull_outcome (h : Provisioned la eps ztol tol N m P g) (hK : 0 < m.K) {bc : TagMap} {W O : ℕ → Prop} (hT : Tags g bc W O) (ph : Phys) (CFL : ℝ) (b : Bed) (hb : Fits g b.H) (c : DMat ℝ) (s : SimFull)
    (hq : (s.σ 0).Fits g) : ∃ dt, g.dtFull ph.g CFL (s.σ 0) = .ok dt ∧
      ((∃ s', ({ g with bc := bc } : Grid).passFull ph CFL b c 0 s = .ok s' ∧ (s'.σ 0).Fits g ∧ s'.t = s.t + dt ∧ PassedOn { g with bc := bc } ph b c s.t dt (s.σ 0) (s'.σ 0) ∧
          ∀ i < g.np, ∀ k < g.K, |(s.σ 0).h.at' i k - b.H.at' i k| ≤ 1e8) ∨
        ({ g with bc := bc } : Grid).passFull ph CFL b c 0 s = .throws ∧ ∃ i < g.np, ∃ k < g.K, 1e8 < |(s.σ 0).h.at' i k - b.H.at' i k|) := by
  classical
  obtain ⟨x, hg, -, hKe, -⟩ := h.spec
  have hK' : 0 < g.K := by omega
  obtain ⟨dt, hdt⟩ : ∃ dt, g.dtFull ph.g CFL (s.σ 0) = .ok dt := by
    obtain ⟨fs, f1, -, -⟩ := flat_ok (g := g) ⟨3 * (g.N + 1), g.K, g.fscale⟩ ⟨rfl, rfl⟩
    obtain ⟨uM, uP, u1, -, -, -⟩ := hg.traces_ok ⟨g.np, g.K, fun i k => (s.σ 0).hu.at' i k / (s.σ 0).h.at' i k⟩ ⟨rfl, rfl⟩
    obtain ⟨vM, vP, v1, -, -, -⟩ := hg.traces_ok ⟨g.np, g.K, fun i k => (s.σ 0).hv.at' i k / (s.σ 0).h.at' i k⟩ ⟨rfl, rfl⟩
    obtain ⟨hM, hP, h1, -, -, -⟩ := hg.traces_ok (s.σ 0).h hq.1
    unfold Grid.dtFull
    rw [f1]
    simp only [Out.bind_ok, u1, v1, h1, Out.pure_eq]
    exact ⟨_, rfl⟩
  have hdt' : ({ g with bc := bc } : Grid).dtFull ph.g CFL (s.σ 0) = .ok dt := hdt
  obtain ⟨-, -, -, -, r, r1, r2, -⟩ := hg.rhsFull_ok hK' hT ph b s.t (s.σ 0) hq hb
  obtain ⟨q1, hq1⟩ : ∃ q1, q1 = (Fields.axpy dt r (s.σ 0)).sponged c := ⟨_, rfl⟩
  have hfit1 : q1.Fits g := by rw [hq1]; exact hq
  obtain ⟨-, -, -, -, r', r1', r2', -⟩ := hg.rhsFull_ok hK' hT ph b s.t q1 hfit1 hb
  obtain ⟨q', hq'⟩ : ∃ q', q' = (Fields.combine dt r' q1 q1).sponged c := ⟨_, rfl⟩
  have hfit2 : q'.Fits g := by rw [hq']; exact hfit1
  have hstep : stepSw2d (({ g with bc := bc } : Grid).rhsFull ph b s.t) dt c 0 s.σ = .ok ((s.σ.set 0 q1).set 0 q') := by
    unfold stepSw2d stepFull copyFields
    rw [r1]
    simp only [Out.bind_ok]
    have hset : (Store.set s.σ 0 ((Fields.axpy dt r (s.σ 0)).sponged c)) 0 = q1 := by rw [hq1]; rfl
    rw [hset, r1', hq', ← hq1]
    rfl
  obtain ⟨hnn, hfar⟩ := etaOf_far hK' b.H (s.σ 0)
  have hpass : ({ g with bc := bc } : Grid).passFull ph CFL b c 0 s = if |g.etaOf b.H (s.σ 0)| > 1e8 then .throws else .ok ⟨(s.σ.set 0 q1).set 0 q', s.t + dt⟩ := by
    unfold Grid.passFull
    rw [hdt']
    simp only [Out.bind_ok, hstep]
    rfl
  refine ⟨dt, hdt, ?_⟩
  rw [hpass, abs_of_nonneg hnn]
  by_cases h3 : 1e8 < g.etaOf b.H (s.σ 0)
  · rw [if_pos h3]
    exact Or.inr ⟨rfl, hfar.1 h3⟩
  · rw [if_neg h3]
    refine Or.inl ⟨_, rfl, hfit2, rfl, ⟨q1, r, r', r1, r1', fun i k => ?_, fun i k => ?_⟩, fun i hi k hk => ?_⟩
    · rw [hq1]; rfl
    · show q'.at' i k = _
      rw [hq']
      simp only [Fields.at', Fields.sponged, Fields.combine]
      congr 1
      · ring
      · congr 1; ring
      · congr 1; ring
    · by_contra hh
      exact h3 (hfar.2 ⟨i, hi, k, hk, not_le.1 hh⟩)

/-- The fields of every state of a run have the shape of the grid. -/
theorem ranFull_fits (h : Provisioned la eps ztol tol N m P g) (hK : 0 < m.K) {bc : TagMap} {W O : ℕ → Prop} (hT : Tags g bc W O) {ph : Phys} {CFL : ℝ} {b : Bed} (hb : Fits g b.H) {c : DMat ℝ} {T : ℝ} {n : ℕ} {S : ℕ → SimFull}
    (h0 : ((S 0).σ 0).Fits g) (hS : Passes SimFull.t (({ g with bc := bc } : Grid).passFull ph CFL b c 0) T n S) : ∀ j ≤ n, ((S j).σ 0).Fits g := by
  intro j
  induction j with
  | zero => exact fun _ => h0
  | succ j ih =>
    intro hj
    obtain ⟨dt, -, ⟨s', h1, h2, -⟩ | ⟨h1, -⟩⟩ := passFull_outcome h hK hT ph CFL b hb c (S j) (ih (by omega))
    · have := (hS j (by omega)).2
      rw [h1, Out.ok.injEq] at this
      rw [← this]
      exact h2
    · have := (hS j (by omega)).2
      rw [h1] at this
      cases this

/-- The fields that do not change: depth, slopes, sponge coefficient and coordinates of the nodes. -/
def Chart (g : Grid) (b : Bed) (c : DMat ℝ) (f : List (String × DMat ℝ)) : Prop := ∃ X Y : DMat ℝ, f = [("H", b.H), ("Hx", b.Hx), ("Hy", b.Hy), ("Sponge", c), ("x", X), ("y", Y)] ∧ Fits g X ∧ Fits g Y ∧
  ∀ i < g.np, ∀ k < g.K, X.at' i k = gridX (g.tri k) g.n i ∧ Y.at' i k = gridY (g.tri k) g.n i

theorem static_chart (g : Grid) (b : Bed) (c : DMat ℝ) : Chart g b c (g.staticFields b c) := ⟨_, _, rfl, ⟨rfl, rfl⟩, ⟨rfl, rfl⟩, fun _ _ _ _ => ⟨rfl, rfl⟩⟩

/-- What a run with open faces and walls amounts to. -/
structure RunOk (g : Grid) (m : Mesh) (obc : ℕ → Bool) (vals : List ℝ) (n : ℕ) (r : FullRun) (e : Left) (b : Bed) (c : DMat ℝ) (bc : TagMap) (dt : ℕ → ℝ) (S : ℕ → SimFull) : Prop where
  tags : Tags g bc (fun e => m.bcType[e]? = some 3) (fun e => m.bcType[e]? = some 2 ∨ m.EndsIn obc e)
  depth : ∀ i < g.np, ∀ k < g.K, b.H.at' i k = fileDepth g vals i k
  slopes : ∃ F : Matrix (Fin g.np) (Fin g.np) ℝ, g.filter (0.90 * g.N) 4 = .ok (fun i j => some (F i j)) ∧ b.Hx.at' = filterInPlace F (g.slopeX b.H) ∧ b.Hy.at' = filterInPlace F (g.slopeY b.H)
  layer : SpongeOk g (fun e => m.bcType[e]? = some 2 ∨ m.EndsIn obc e) 10000 1000 c
  clock0 : (S 0).t = 0
  rest : ∀ i k, ((S 0).σ 0).at' i k = ⟨b.H.at' i k, 0, 0⟩
  fits : ∀ j ≤ r.count, ((S j).σ 0).Fits g
  step : ∀ j ≤ r.count, g.dtFull 9.81 0.25 ((S j).σ 0) = .ok (dt j)
  passes : ∀ j < r.count, (S j).t < 24 * 3600 ∧ (S (j + 1)).t = (S j).t + dt j ∧ PassedOn { g with bc := bc } ⟨9.81, 2.5e-3, 1.0070e-4⟩ b c (S j).t (dt j) ((S j).σ 0) ((S (j + 1)).σ 0)
  atMost : r.count ≤ n
  last : S r.count = r.s
  defined : e ≠ .undefined
  finished : e = .finished → 24 * 3600 ≤ r.s.t
  threw : e = .threw → r.s.t < 24 * 3600 ∧ ∃ i < g.np, ∃ k < g.K, 1e8 < |(r.s.σ 0).h.at' i k - b.H.at' i k|
  tame : ∀ j < r.count, ∀ i < g.np, ∀ k < g.K, |((S j).σ 0).h.at' i k - b.H.at' i k| ≤ 1e8
  goingOn : e = .goingOn → r.count = n
  calls : ∃ f f', RestFields g f ∧ Chart g b c f' ∧ r.calls = [(0, f), (0, f')] ++ snapshots g b.H S (match e with | .threw => r.count / 20 + 1 | _ => (r.count + 19) / 20)

/-- **C144, a run.** With a wall, an open face, order at most four and a depth file that is not too long, nothing undefined happens, however many passes are made.  The program writes elevation and velocities of water at rest, then depth, slopes, sponge and
coordinates, all under number 0, and in the loop elevation and velocities of the states after 0, 20, 40, ... passes under these numbers.  Each pass advances the clock by the Courant step of the state it starts from and the fields as `PassedOn` says.  An exception
means that the surface has moved by more than 1e8 somewhere, one pass earlier. -/
theorem C144_run (h : Provisioned la eps ztol tol N m P g) (hK : 0 < m.K) (obc : ℕ → Bool) (hw : HasWall m) (ho : HasOpen m obc) (hN : N ≤ 4) (vals : List ℝ) (hv : vals.length ≤ g.np * g.K) (n : ℕ) :
    ∃ (r : FullRun) (e : Left) (b : Bed) (c : DMat ℝ) (bc : TagMap) (dt : ℕ → ℝ) (S : ℕ → SimFull), g.mainFull m obc vals n = .ok (r, e) ∧ RunOk g m obc vals n r e b c bc dt S := by
  obtain ⟨F, b, q, h1, h2, h3⟩ := mainFull_eq h vals hv
  obtain ⟨bc, c, h4, h5, -, h6⟩ := (openAndSponge_cases h hK obc).2.2 ho hN
  have hT := h6 hw
  obtain ⟨S, hS⟩ := loopFull_ran (g := { g with bc := bc }) physFull 0.25 b c (24 * 3600) n 0 (fun _ => ⟨fun _ => q, 0⟩) [(0, g.firstFields), (0, g.staticFields b c)] (fun j hj => by omega)
    ⟨⟨fun _ => q, 0⟩, 0, [(0, g.firstFields), (0, g.staticFields b c)]⟩ rfl rfl (by simp [snapshots])
  rw [zero_add] at hS
  obtain ⟨⟨r, e⟩, hre⟩ : ∃ p, p = ({ g with bc := bc } : Grid).loopFull physFull 0.25 b c (24 * 3600) n ⟨⟨fun _ => q, 0⟩, 0, [(0, g.firstFields), (0, g.staticFields b c)]⟩ := ⟨_, rfl⟩
  rw [← hre] at hS
  simp only at hS
  have hfit := ranFull_fits h hK hT h2.fitsH (by rw [hS.first]; exact h2.fits) hS.passes
  have hout := fun j (hj : j ≤ r.count) => passFull_outcome h hK hT physFull 0.25 b h2.fitsH c (S j) (hfit j hj)
  choose! dt hdt hpo using hout
  have hlastout := hpo r.count le_rfl
  have hlastdt := hdt r.count le_rfl
  rw [hS.last] at hlastout hlastdt
  have hnext : ∀ j < r.count, (S (j + 1)).t = (S j).t + dt j ∧ PassedOn { g with bc := bc } physFull b c (S j).t (dt j) ((S j).σ 0) ((S (j + 1)).σ 0) ∧
      ∀ i < g.np, ∀ k < g.K, |((S j).σ 0).h.at' i k - b.H.at' i k| ≤ 1e8 := by
    intro j hj
    have hp := (hS.passes j hj).2
    rcases hpo j hj.le with ⟨s', a1, -, a2, a3, a4⟩ | ⟨a1, -⟩
    · rw [a1, Out.ok.injEq] at hp
      rw [← hp]
      exact ⟨a2, a3, a4⟩
    · rw [a1] at hp; cases hp
  refine ⟨r, e, b, c, bc, dt, S, by rw [h3, h4]; exact congrArg Out.ok hre.symm, hT, h2.depth, ⟨F, h1, by rw [h2.bed]; rfl, by rw [h2.bed]; rfl⟩, h5, by rw [hS.first], by rw [hS.first]; exact h2.state, hfit, hdt,
    fun j hj => ⟨(hS.passes j hj).1, (hnext j hj).1, (hnext j hj).2.1⟩, hS.atMost, hS.last, fun he => ?_, fun he => (hS.finished he).1, fun he => ?_, fun j hj => (hnext j hj).2.2, fun he => (hS.goingOn he).1, g.firstFields, g.staticFields b c, first_rest g, static_chart g b c, ?_⟩
  · rcases (hS.undefined he).2 with h7 | h7
    · have h8 : g.dtFull physFull.g 0.25 (r.s.σ 0) = .ub := h7
      rw [hlastdt] at h8; cases h8
    · rcases hlastout with ⟨s', a1, -⟩ | ⟨a1, -⟩ <;> rw [a1] at h7 <;> cases h7
  · obtain ⟨h7, h8⟩ := hS.threw he
    refine ⟨h7, ?_⟩
    rcases hlastout with ⟨s', a1, -⟩ | ⟨-, a2⟩
    · rcases h8 with ⟨h8, -⟩ | ⟨h8, -⟩
      · have h9 : g.dtFull physFull.g 0.25 (r.s.σ 0) = .throws := h8
        rw [hlastdt] at h9; cases h9
      · rw [a1] at h8; cases h8
    · exact a2
  · cases e with
    | finished => exact (hS.finished rfl).2
    | goingOn => exact (hS.goingOn rfl).2
    | undefined =>
      exfalso
      rcases (hS.undefined rfl).2 with h7 | h7
      · have h8 : g.dtFull physFull.g 0.25 (r.s.σ 0) = .ub := h7
        rw [hlastdt] at h8; cases h8
      · rcases hlastout with ⟨s', a1, -⟩ | ⟨a1, -⟩ <;> rw [a1] at h7 <;> cases h7
    | threw =>
      rcases (hS.threw rfl).2 with ⟨h8, -⟩ | ⟨-, h8⟩
      · have h9 : g.dtFull physFull.g 0.25 (r.s.σ 0) = .throws := h8
        rw [hlastdt] at h9; cases h9
      · exact h8

/-- **C144, no wall.** With an open face but no wall the program gets to the first pass and raises there, after writing elevation and velocities of water at rest, the static fields, and once more elevation and velocities of water at rest, all under number 0. -/
theorem C144_no_wall (h : Provisioned la eps ztol tol N m P g) (hK : 0 < m.K) (obc : ℕ → Bool) (hw : ¬ HasWall m) (ho : HasOpen m obc) (hN : N ≤ 4) (vals : List ℝ) (hv : vals.length ≤ g.np * g.K) (n : ℕ) (hn : 0 < n) :
    ∃ r f f' f'' b c, g.mainFull m obc vals n = .ok (r, .threw) ∧ r.calls = [(0, f), (0, f'), (0, f'')] ∧ RestFields g f ∧ Chart g b c f' ∧ RestFields g f'' ∧ (∀ i < g.np, ∀ k < g.K, b.H.at' i k = fileDepth g vals i k) ∧
      SpongeOk g (fun e => m.bcType[e]? = some 2 ∨ m.EndsIn obc e) 10000 1000 c := by
  obtain ⟨F, b, q, -, h2, h3⟩ := mainFull_eq h vals hv
  obtain ⟨bc, c, h4, h5, h6, -⟩ := (openAndSponge_cases h hK obc).2.2 ho hN
  obtain ⟨n, rfl⟩ : ∃ k, n = k + 1 := ⟨n - 1, by omega⟩
  have hwet : Wet g q := fun i hi k hk => by linarith [h2.deep i hi k hk]
  obtain ⟨dt, hdt, -⟩ := C83_full h hK 9.81 0.25 (by norm_num) (by norm_num) q h2.fits hwet
  have hdt' : ({ g with bc := bc } : Grid).dtFull physFull.g 0.25 q = .ok dt := hdt
  have hpass : ({ g with bc := bc } : Grid).passFull physFull 0.25 b c 0 ⟨fun _ => q, 0⟩ = .throws := by
    unfold Grid.passFull
    rw [hdt']
    simp only [Out.bind_ok]
    unfold stepSw2d stepFull
    rw [tags_none _ _ _ _ _ (Or.inl (h6 hw))]
    rfl
  refine ⟨⟨⟨fun _ => q, 0⟩, 0, [(0, g.firstFields), (0, g.staticFields b c), (0, snapshot g b.H q)]⟩, g.firstFields, g.staticFields b c, snapshot g b.H q, b, c, ?_, rfl, first_rest g, static_chart g b c, ?_, h2.depth, h5⟩
  · rw [h3, h4]
    simp only []
    unfold Grid.loopFull
    rw [if_pos (by norm_num)]
    simp only [hdt']
    have hs : (({ g with bc := bc } : Grid).outputFull b ⟨⟨fun _ => q, 0⟩, 0, [(0, g.firstFields), (0, g.staticFields b c)]⟩).s = ⟨fun _ => q, 0⟩ := rfl
    rw [hs, hpass]
    rfl
  · refine ⟨_, _, _, rfl, ⟨rfl, rfl⟩, ⟨rfl, rfl⟩, ⟨rfl, rfl⟩, fun i _ k _ => ?_⟩
    simp only [h2.state]
    simp

/-- **C144, the first pass.** The test for blow-up is made on the surface from which the pass started; it is level at the start, so an exception needs at least one pass. -/
theorem C144_first (h : Provisioned la eps ztol tol N m P g) (hK : 0 < m.K) (obc : ℕ → Bool) (hw : HasWall m) (ho : HasOpen m obc) (hN : N ≤ 4) (vals : List ℝ) (hv : vals.length ≤ g.np * g.K) (n : ℕ) (r : FullRun)
    (hr : g.mainFull m obc vals n = .ok (r, .threw)) : 0 < r.count := by
  obtain ⟨r', e, b, c, bc, dt, S, h1, h2⟩ := C144_run h hK obc hw ho hN vals hv n
  rw [hr] at h1
  obtain ⟨rfl, rfl⟩ : r = r' ∧ Left.threw = e := by simpa using h1
  obtain ⟨-, i, hi, k, hk, h3⟩ := h2.threw rfl
  rcases Nat.eq_zero_or_pos r.count with h0 | h0
  · exfalso
    have h4 := h2.last
    rw [h0] at h4
    have h5 := congrArg State.h (h2.rest i k)
    simp only [Fields.at'] at h5
    rw [← h4, h5, sub_self, abs_zero] at h3
    norm_num at h3
  · exact h0

/-- **C144, the last state.** A run that reaches the final time, a day, has made at least one pass and ends less than one step after it; its last state is not written. -/
theorem C144_last (h : Provisioned la eps ztol tol N m P g) (hK : 0 < m.K) (obc : ℕ → Bool) (hw : HasWall m) (ho : HasOpen m obc) (hN : N ≤ 4) (vals : List ℝ) (hv : vals.length ≤ g.np * g.K) (n : ℕ) (r : FullRun)
    (hr : g.mainFull m obc vals n = .ok (r, .finished)) : 0 < r.count ∧ 24 * 3600 ≤ r.s.t ∧ (∃ (q : Fields) (t dt : ℝ), g.dtFull 9.81 0.25 q = .ok dt ∧ t < 24 * 3600 ∧ r.s.t = t + dt) ∧ ∀ f ∈ r.calls, f.1 < r.count := by
  obtain ⟨r', e, b, c, bc, dt, S, h1, h2⟩ := C144_run h hK obc hw ho hN vals hv n
  rw [hr] at h1
  obtain ⟨rfl, rfl⟩ : r = r' ∧ Left.finished = e := by simpa using h1
  have h3 := h2.finished rfl
  have h0 : 0 < r.count := by
    rcases Nat.eq_zero_or_pos r.count with h0 | h0
    · exfalso
      have h4 := h2.last
      rw [h0] at h4
      rw [← h4, h2.clock0] at h3
      norm_num at h3
    · exact h0
  refine ⟨h0, h3, ?_, fun f hf => ?_⟩
  · obtain ⟨h5, h6, -⟩ := h2.passes (r.count - 1) (by omega)
    rw [show r.count - 1 + 1 = r.count by omega, h2.last] at h6
    exact ⟨_, _, _, h2.step (r.count - 1) (by omega), h5, h6⟩
  · obtain ⟨f0, f1, -, -, hc⟩ := h2.calls
    rw [hc] at hf
    rcases List.mem_append.1 hf with hf | hf
    · simp only [List.mem_cons, List.not_mem_nil, or_false] at hf
      rcases hf with rfl | rfl <;> exact h0
    · obtain ⟨j, hj, rfl⟩ := List.mem_map.1 hf
      rw [List.mem_range] at hj
      simp only at hj
      show 20 * j < r.count
      omega

/-- **C144, the end.** If in all states of a run there is water everywhere, waves and current together never get faster than `v` at a face node, and `R` bounds the ratios of face length to area, then the loop is left within `T/δ + 1` passes, `T` being a day and `δ`
the Courant step of these bounds. -/
theorem C144_ends (h : Provisioned la eps ztol tol N m P g) (hK : 0 < m.K) {obc : ℕ → Bool} {vals : List ℝ} {n : ℕ} {r : FullRun} {e : Left} {b : Bed} {c : DMat ℝ} {bc : TagMap} {dt : ℕ → ℝ} {S : ℕ → SimFull}
    (hrun : RunOk g m obc vals n r e b c bc dt S) {v R : ℝ} (hv : 0 < v) (hR : ∀ e < 3 * g.K, faceLen g e / area g (e / 3) ≤ R)
    (hslow : ∀ j ≤ r.count, Wet g ((S j).σ 0) ∧ ∀ e < 3 * g.K, ∀ i ≤ g.N, speed 9.81 (inner g ((S j).σ 0) e i) ≤ v) (hn : 24 * 3600 / (0.25 / ((g.N + 1) ^ 2 / 2 * (v * R))) + 1 < n) : e ≠ .goingOn := by
  intro he
  have hcount := hrun.goingOn he
  obtain ⟨x, hg, -, hKe, -⟩ := h.spec
  have hK' : 0 < g.K := by omega
  have hR0 : 0 < R := lt_of_lt_of_le (by rw [← hg.fscale_geo (e := 0) (i := 0) (by omega) (by omega)]; exact hg.fscale_pos (by omega) (by omega)) (hR 0 (by omega))
  obtain ⟨δ, hδ⟩ : ∃ δ, δ = 0.25 / (((g.N : ℝ) + 1) ^ 2 / 2 * (v * R)) := ⟨_, rfl⟩
  have hδ0 : 0 < δ := by rw [hδ]; positivity
  rw [← hδ] at hn
  have hlow : ∀ j ≤ r.count, δ ≤ dt j := by
    intro j hj
    obtain ⟨w1, w2⟩ := hslow j hj
    obtain ⟨d, h1, h2, -, e, he, i, hi, heq⟩ := C83_full h hK 9.81 0.25 (by norm_num) (by norm_num) ((S j).σ 0) (hrun.fits j hj) w1
    obtain rfl : dt j = d := by rw [hrun.step j hj] at h1; injection h1
    rw [hδ, div_le_iff₀ (by positivity), ← heq, mul_assoc]
    have h5 : 0 < faceLen g e / area g (e / 3) := by rw [← hg.fscale_geo he hi]; exact hg.fscale_pos he hi
    have h6 := w2 e he i hi
    have h7 := hR e he
    have h8 : 0 ≤ speed 9.81 (inner g ((S j).σ 0) e i) := by unfold speed; positivity
    gcongr
  have hclock : ∀ j ≤ r.count, (j : ℝ) * δ ≤ (S j).t := by
    intro j
    induction j with
    | zero => intro _; rw [hrun.clock0]; simp
    | succ j ih =>
      intro hj
      have h1 := ih (by omega)
      have h2 := (hrun.passes j (by omega)).2.1
      have h3 := hlow j (by omega)
      rw [h2]
      push_cast
      linarith
  have hpos : 0 < r.count := by
    rcases Nat.eq_zero_or_pos r.count with h0 | h0
    · exfalso
      rw [← hcount, h0] at hn
      have : 0 ≤ 24 * 3600 / δ := by positivity
      simp at hn
      linarith
    · exact h0
  have h1 := hclock (r.count - 1) (by omega)
  have h2 := (hrun.passes (r.count - 1) (by omega)).1
  rw [hcount] at h1 h2
  rw [Nat.cast_sub (by omega), Nat.cast_one] at h1
  have : (24 * 3600 / δ + 1 - 1) * δ < ((n : ℝ) - 1) * δ := by
    apply mul_lt_mul_of_pos_right _ hδ0
    linarith
  rw [add_sub_cancel_right, div_mul_cancel₀ _ hδ0.ne'] at this
  linarith

/-- Two triangles, four walls, one side listed as open: the program gets into its loop, and the first pass is made. -/
example : ∃ g, Provisioned Nodes1D.exactLapack (1 / 2 ^ 52) 1e-10 1e-5 1 square twoTri g ∧ HasWall square ∧ HasOpen square (fun v => v == 0 || v == 1) ∧ ¬ HasOpen square (fun v => v == 0) ∧
    (∃ r e, g.mainFull square (fun v => v == 0 || v == 1) [200, 100] 1 = .ok (r, e) ∧ r.count = 1) ∧ ∃ r, g.mainFull square (fun v => v == 0) [200, 100] 1 = .ok (r, .threw) := by
  obtain ⟨g, hg, -⟩ := square_grid
  have hw : HasWall square := ⟨0, by decide, rfl⟩
  have ho : HasOpen square (fun v => v == 0 || v == 1) := ⟨0, by decide, Or.inr (by unfold Mesh.EndsIn; simp [square])⟩
  have hno : ¬ HasOpen square (fun v => v == 0) := by
    rintro ⟨e, he, h⟩
    have he' : e < 6 := he
    interval_cases e <;> revert h <;> decide
  obtain ⟨x, hs, hN, hKe, -⟩ := hg.spec
  have hv : ([200, 100] : List ℝ).length ≤ g.np * g.K := by
    have h1 : g.K = 2 := hKe
    have h2 : 0 < g.np := Nat.lt_of_le_of_lt (Nat.zero_le _) (hs.maskLt 0 (by omega) 0 (Nat.zero_le _))
    rw [h1]
    show 2 ≤ g.np * 2
    omega
  refine ⟨g, hg, hw, ho, hno, ?_, ?_⟩
  · obtain ⟨r, e, b, c, bc, dt, S, h1, h2⟩ := C144_run hg (by decide) _ hw ho (by omega) _ hv 1
    refine ⟨r, e, h1, ?_⟩
    cases e with
    | goingOn => exact h2.goingOn rfl
    | undefined => exact absurd rfl h2.defined
    | threw =>
      have h0 := C144_first hg (by decide) _ hw ho (by omega) _ hv 1 r h1
      have := h2.atMost
      omega
    | finished =>
      have h0 := (C144_last hg (by decide) _ hw ho (by omega) _ hv 1 r h1).1
      have := h2.atMost
      omega
  · obtain ⟨r, f, h1, -⟩ := C144_no_open hg (by decide) _ hno _ hv 1
    exact ⟨r, h1⟩

end Blitzdg.SW
