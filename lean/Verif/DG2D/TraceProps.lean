import Verif.DG2D.MapsProps
import Verif.DG2D.ModesProps
import Verif.Mesh.ConnProps

/-! Property C66: the trace maps `vmapM`, `vmapP`, `mapP`, `mapB`, `vmapB` of the two-dimensional provisioners. -/

namespace Blitzdg.DG2D

open Sparse Blitz

theorem fold_last {β γ : Type} [DecidableEq β] (l : List β) (q : β → Bool) (v : β → γ) (s : γ) (x0 : β) (hm : x0 ∈ l) (hq : q x0 = true)
    (hu : ∀ x ∈ l, q x = true → x = x0) : l.foldl (fun s x => if q x = true then v x else s) s = v x0 := by
  induction l generalizing s with
  | nil => simp at hm
  | cons a l ih =>
    rw [List.foldl_cons]
    by_cases h : x0 ∈ l
    · exact ih _ h fun x hx => hu x (by simp [hx])
    · have ha : a = x0 := by
        rcases List.mem_cons.1 hm with hm | hm
        · exact hm.symm
        · exact absurd hm h
      subst ha
      rw [if_pos hq]
      clear ih hm
      have : ∀ x ∈ l, ¬ q x = true := fun x hx hqx => h (hu x (by simp [hx]) hqx ▸ hx)
      clear hu h
      induction l with
      | nil => rfl
      | cons b l ih =>
        rw [List.foldl_cons, if_neg (this b (by simp))]
        exact ih fun x hx => this x (by simp [hx])

theorem fold_none {β γ : Type} (l : List β) (q : β → Bool) (v : β → γ) (s : γ) (hu : ∀ x ∈ l, ¬ q x = true) :
    l.foldl (fun s x => if q x = true then v x else s) s = s := by
  induction l with
  | nil => rfl
  | cons b l ih =>
    rw [List.foldl_cons, if_neg (hu b (by simp))]
    exact ih fun x hx => hu x (by simp [hx])

theorem flatMap_range_len {β : Type} (g : Nat → List β) (b n : Nat) (h : ∀ i, (g i).length = b) :
    ((List.range n).flatMap g).length = n * b := by
  induction n with
  | zero => simp
  | succ n ih => rw [List.range_succ, List.flatMap_append, List.length_append, ih]; simp [h, Nat.succ_mul]

theorem faceNodes_length (nfp nf k : Nat) : (faceNodes nfp nf k).length = nfp * (nf * k) := by
  unfold faceNodes
  rw [flatMap_range_len _ (nf * nfp)]
  · ring
  · intro e; rw [flatMap_range_len _ nfp]; simp

theorem faceNodes_get {nfp nf k n f e : Nat} (hn : n < nfp) (hf : f < nf) (he : e < k) :
    (faceNodes nfp nf k)[nfp * (nf * e + f) + n]? = some (n, f, e) := by
  have hin : ∀ e : Nat, ((List.range nf).flatMap fun f => (List.range nfp).map fun n => (n, f, e)).length = nf * nfp := by
    intro e; rw [flatMap_range_len _ nfp]; simp
  have e1 : nfp * (nf * e + f) + n = e * (nf * nfp) + (f * nfp + n) := by ring
  have hlt : f * nfp + n < nf * nfp := by
    have := face_lt hn hf
    rw [Nat.mul_comm nfp f, Nat.mul_comm nfp nf] at this; exact this
  unfold faceNodes
  rw [e1, ← flatMap_range_len _ (nf * nfp) e hin, flatMap_get _ _ _ _ he (by rw [hin]; exact hlt)]
  rw [← flatMap_range_len (fun f => (List.range nfp).map fun n => (n, f, e)) nfp f (by simp), flatMap_get _ _ _ _ hf (by simpa using hn)]
  rw [List.getElem?_map, List.getElem?_range hn]; rfl

theorem collect {β γ : Type} (h : β → Out γ) (v : β → γ) (l : List β) (hv : ∀ x ∈ l, h x = .ok (v x)) (acc : List γ) :
    loopM (fun acc x => do let r ← h x; pure (acc ++ [r])) acc l = .ok (acc ++ l.map v) := by
  induction l generalizing acc with
  | nil => simp
  | cons x l ih =>
    rw [loopM_cons]
    rw [hv x (by simp)]
    exact (ih (fun y hy => hv y (by simp [hy])) (acc ++ [v x])).trans (by simp)

/-- Volume node of node `n` of face `g = nf*element + face`. -/
def vol (np nf : Nat) (fmask : Nat → Nat → Nat) (g n : Nat) : Nat := fmask n (g % nf) + np * (g / nf)

theorem mem_faceNodes {nfp nf k : Nat} {x : Nat × Nat × Nat} (h : x ∈ faceNodes nfp nf k) : x.1 < nfp ∧ x.2.1 < nf ∧ x.2.2 < k := by
  simp only [faceNodes, List.mem_flatMap, List.mem_range, List.mem_map] at h
  obtain ⟨e, he, f, hf, n, hn, rfl⟩ := h
  exact ⟨hn, hf, he⟩

/-- Whatever the geometry, the maps are built without undefined behaviour when the connectivity is sound. -/
theorem buildMaps_ok (np nfp nf k : Nat) (fmask : Nat → Nat → Nat) (E F : List Nat) (near : Nat → Nat → Nat → Bool) (P : Nat → Nat)
    (hc : Conn nf k E F P) :
    ∃ T, buildMaps np nfp nf k fmask E F near = .ok T ∧
      T.vmapM.length = nfp * (nf * k) ∧ T.vmapP.length = nfp * (nf * k) ∧ T.mapP.length = nfp * (nf * k) ∧
      (∀ g n, g < nf * k → n < nfp → T.vmapM[nfp * g + n]? = some (vol np nf fmask g n) ∧
        T.vmapP[nfp * g + n]? = some (searchNode np nfp nf fmask (near g) (P g % nf) (P g / nf) (vol np nf fmask g n)).1 ∧
        T.mapP[nfp * g + n]? = some (searchNode np nfp nf fmask (near g) (P g % nf) (P g / nf) (vol np nf fmask g n)).2) ∧
      T.mapB = boundaryOf T.vmapM T.vmapP ∧ T.vmapB = T.mapB.map fun i => T.vmapM.getD i 0 := by
  let v : Nat × Nat × Nat → Nat × Nat := fun x =>
    searchNode np nfp nf fmask (near (nf * x.2.2 + x.2.1)) (P (nf * x.2.2 + x.2.1) % nf) (P (nf * x.2.2 + x.2.1) / nf)
      (vmapM3 np fmask x.1 x.2.1 x.2.2)
  have hv : ∀ x ∈ faceNodes nfp nf k, pairNode np nfp nf k fmask E F near x = .ok (v x) := by
    intro x hx
    obtain ⟨_, hf, he⟩ := mem_faceNodes hx
    have hg := face_lt hf he
    rw [pairNode, rd_eq_ok.2 (hc.e _ hg), Out.bind_ok, rd_eq_ok.2 (hc.f _ hg), Out.bind_ok,
      if_pos ⟨Nat.div_lt_of_lt_mul (hc.lt _ hg), Nat.mod_lt _ (by omega)⟩]
    rfl
  refine ⟨_, by rw [buildMaps, collect _ v _ hv, Out.bind_ok]; rfl, ?_, ?_, ?_, ?_, rfl, rfl⟩
  · simp [faceNodes_length]
  · simp [faceNodes_length]
  · simp [faceNodes_length]
  · intro g n hg hn
    have hnf : 0 < nf := by rcases Nat.eq_zero_or_pos nf with h | h; (· subst h; simp at hg); (· exact h)
    have hget := faceNodes_get (nfp := nfp) (nf := nf) (k := k) hn (Nat.mod_lt g hnf) (Nat.div_lt_of_lt_mul hg)
    rw [Nat.div_add_mod] at hget
    refine ⟨?_, ?_, ?_⟩ <;> simp [hget, v, vol, vmapM3, Nat.div_add_mod]

/-- C66.  For every mesh with sound connectivity, every order and every placement of the nodes such that on each face every node is near
exactly one node of the partner face (for a boundary face: itself), nearness being symmetric between partner faces:
`vmapM` lists the volume nodes of the faces; `mapP` is an involution of the face nodes which carries each face to its partner,
each node to the near one, and boundary nodes to themselves; `vmapP` is `vmapM` read at `mapP`; `mapB` lists, in increasing
order, exactly the nodes of boundary faces, and `vmapB` their volume nodes. -/
theorem C66_trace (np nfp nf k : Nat) (fmask : Nat → Nat → Nat) (E F : List Nat) (near : Nat → Nat → Nat → Bool) (P : Nat → Nat)
    (hc : Conn nf k E F P) (hmask : ∀ n f, n < nfp → f < nf → fmask n f < np)
    (hmatch : ∀ g n, g < nf * k → n < nfp → ∃ n' < nfp, ∀ m < nfp,
      near g (vol np nf fmask g n) (vol np nf fmask (P g) m) = true ↔ m = n')
    (hsymm : ∀ g n m, g < nf * k → n < nfp → m < nfp →
      near g (vol np nf fmask g n) (vol np nf fmask (P g) m) = near (P g) (vol np nf fmask (P g) m) (vol np nf fmask g n))
    (hrefl : ∀ g n, g < nf * k → P g = g → n < nfp → near g (vol np nf fmask g n) (vol np nf fmask g n) = true) :
    ∃ T, ∃ σ : Nat → Nat → Nat, buildMaps np nfp nf k fmask E F near = .ok T ∧
      T.vmapM.length = nfp * (nf * k) ∧ T.vmapP.length = nfp * (nf * k) ∧ T.mapP.length = nfp * (nf * k) ∧
      (∀ g n, g < nf * k → n < nfp →
        σ g n < nfp ∧ near g (vol np nf fmask g n) (vol np nf fmask (P g) (σ g n)) = true ∧ σ (P g) (σ g n) = n ∧
        (P g = g → σ g n = n) ∧
        T.vmapM[nfp * g + n]? = some (vol np nf fmask g n) ∧
        T.mapP[nfp * g + n]? = some (nfp * P g + σ g n) ∧
        T.vmapP[nfp * g + n]? = some (vol np nf fmask (P g) (σ g n))) ∧
      (∀ c, c < nfp * (nf * k) → ∃ c', c' < nfp * (nf * k) ∧ T.mapP[c]? = some c' ∧ T.mapP[c']? = some c ∧ T.vmapP[c]? = T.vmapM[c']?) ∧
      (T.mapB.Pairwise (· < ·) ∧ ∀ c, c ∈ T.mapB ↔ c < nfp * (nf * k) ∧ P (c / nfp) = c / nfp) ∧
      T.vmapB = T.mapB.map fun i => T.vmapM.getD i 0 := by
  obtain ⟨T, hT, l1, l2, l3, hget, hB, hvB⟩ := buildMaps_ok np nfp nf k fmask E F near P hc
  have hσ : ∃ σ : Nat → Nat → Nat, ∀ g n, g < nf * k → n < nfp → σ g n < nfp ∧ ∀ m < nfp,
      near g (vol np nf fmask g n) (vol np nf fmask (P g) m) = true ↔ m = σ g n := by
    classical
    refine ⟨fun g n => if h : g < nf * k ∧ n < nfp then (hmatch g n h.1 h.2).choose else 0, fun g n hg hn => ?_⟩
    have := (hmatch g n hg hn).choose_spec
    simp only [dif_pos (And.intro hg hn)]
    exact this
  obtain ⟨σ, hσ⟩ := hσ
  have hnfp : ∀ g n, g < nf * k → n < nfp → 0 < nf := by
    intro g n hg _
    rcases Nat.eq_zero_or_pos nf with h | h; (· subst h; simp at hg); (· exact h)
  have hsearch : ∀ g n, g < nf * k → n < nfp →
      searchNode np nfp nf fmask (near g) (P g % nf) (P g / nf) (vol np nf fmask g n)
        = (vol np nf fmask (P g) (σ g n), nfp * P g + σ g n) := by
    intro g n hg hn
    obtain ⟨h1, h2⟩ := hσ g n hg hn
    unfold searchNode
    rw [fold_last (List.range nfp) (fun m => near g (vol np nf fmask g n) (vmapM3 np fmask m (P g % nf) (P g / nf)))
      (fun nP => (vmapM3 np fmask nP (P g % nf) (P g / nf), nP + P g % nf * nfp + P g / nf * nf * nfp)) (0, 0) (σ g n)
      (by simpa using h1) ((h2 _ h1).2 rfl) (fun m hm hq => (h2 m (by simpa using hm)).1 hq)]
    refine Prod.ext rfl ?_
    simp only
    have : nf * (P g / nf) + P g % nf = P g := Nat.div_add_mod _ _
    calc σ g n + P g % nf * nfp + P g / nf * nf * nfp = nfp * (nf * (P g / nf) + P g % nf) + σ g n := by ring
      _ = _ := by rw [this]
  have hinv : ∀ g n, g < nf * k → n < nfp → σ (P g) (σ g n) = n := by
    intro g n hg hn
    obtain ⟨h1, h2⟩ := hσ g n hg hn
    have hn1 := (h2 _ h1).2 rfl
    rw [hsymm g n (σ g n) hg hn h1] at hn1
    have h3 := (hσ (P g) (σ g n) (hc.lt g hg) h1).2 n hn
    rw [hc.inv g hg] at h3
    exact (h3.1 hn1).symm
  have hid : ∀ g n, g < nf * k → n < nfp → P g = g → σ g n = n := by
    intro g n hg hn hP
    have h2 := (hσ g n hg hn).2 n hn
    rw [hP] at h2
    exact (h2.1 (hrefl g n hg hP hn)).symm
  have hall : ∀ g n, g < nf * k → n < nfp →
        σ g n < nfp ∧ near g (vol np nf fmask g n) (vol np nf fmask (P g) (σ g n)) = true ∧ σ (P g) (σ g n) = n ∧
        (P g = g → σ g n = n) ∧
        T.vmapM[nfp * g + n]? = some (vol np nf fmask g n) ∧
        T.mapP[nfp * g + n]? = some (nfp * P g + σ g n) ∧
        T.vmapP[nfp * g + n]? = some (vol np nf fmask (P g) (σ g n)) := by
    intro g n hg hn
    obtain ⟨h1, h2⟩ := hσ g n hg hn
    obtain ⟨g1, g2, g3⟩ := hget g n hg hn
    rw [hsearch g n hg hn] at g2 g3
    exact ⟨h1, (h2 _ h1).2 rfl, hinv g n hg hn, hid g n hg hn, g1, g3, g2⟩
  have hsplit : ∀ c, c < nfp * (nf * k) → c / nfp < nf * k ∧ c % nfp < nfp ∧ nfp * (c / nfp) + c % nfp = c := by
    intro c hcl
    have hp : 0 < nfp := by rcases Nat.eq_zero_or_pos nfp with h | h; (· subst h; simp at hcl); (· exact h)
    exact ⟨Nat.div_lt_of_lt_mul hcl, Nat.mod_lt _ hp, Nat.div_add_mod _ _⟩
  refine ⟨T, σ, hT, l1, l2, l3, hall, ?_, ⟨?_, ?_⟩, hvB⟩
  · intro c hcl
    obtain ⟨hg, hn, hce⟩ := hsplit c hcl
    obtain ⟨a1, a2, a3, a4, a5, a6, a7⟩ := hall _ _ hg hn
    obtain ⟨b1, b2, b3, b4, b5, b6, b7⟩ := hall _ _ (hc.lt _ hg) a1
    rw [hce] at a5 a6 a7
    rw [a3, hc.inv _ hg, hce] at b6
    exact ⟨_, face_lt a1 (hc.lt _ hg), a6, b6, a7.trans b5.symm⟩
  · rw [hB, boundaryOf]
    exact List.Pairwise.filter _ List.pairwise_lt_range
  · intro c
    rw [hB, boundaryOf, List.mem_filter, List.mem_range, l1]
    refine and_congr_right fun hcl => ?_
    obtain ⟨hg, hn, hce⟩ := hsplit c hcl
    obtain ⟨a1, a2, a3, a4, a5, a6, a7⟩ := hall _ _ hg hn
    rw [hce] at a5 a7
    simp only [List.getD_eq_getElem?_getD, a5, a7, Option.getD_some, decide_eq_true_eq]
    constructor
    · intro heq
      by_contra hne
      apply hne
      refine hc.own _ hg ?_
      have hnf := hnfp _ _ hg hn
      have q1 := hmask (σ (c / nfp) (c % nfp)) (P (c / nfp) % nf) a1 (Nat.mod_lt _ hnf)
      have q2 := hmask (c % nfp) (c / nfp % nf) hn (Nat.mod_lt _ hnf)
      unfold vol at heq
      have := congrArg (· / np) heq
      rw [Nat.add_mul_div_left _ _ (by omega), Nat.add_mul_div_left _ _ (by omega), Nat.div_eq_of_lt q1, Nat.div_eq_of_lt q2] at this
      omega
    · intro hP
      rw [a4 hP, hP]

/-- A face node without a near partner is silently connected to volume node 0 and face node 0. -/
theorem C66_unmatched (np nfp nf k : Nat) (fmask : Nat → Nat → Nat) (E F : List Nat) (near : Nat → Nat → Nat → Bool) (P : Nat → Nat)
    (hc : Conn nf k E F P) (g n : Nat) (hg : g < nf * k) (hn : n < nfp)
    (hfar : ∀ m < nfp, ¬ near g (vol np nf fmask g n) (vol np nf fmask (P g) m) = true) :
    ∃ T, buildMaps np nfp nf k fmask E F near = .ok T ∧ T.vmapP[nfp * g + n]? = some 0 ∧ T.mapP[nfp * g + n]? = some 0 := by
  obtain ⟨T, hT, _, _, _, hget, _, _⟩ := buildMaps_ok np nfp nf k fmask E F near P hc
  obtain ⟨_, g2, g3⟩ := hget g n hg hn
  have : searchNode np nfp nf fmask (near g) (P g % nf) (P g / nf) (vol np nf fmask g n) = (0, 0) := by
    unfold searchNode
    exact fold_none (List.range nfp) (fun m => near g (vol np nf fmask g n) (vmapM3 np fmask m (P g % nf) (P g / nf)))
      (fun nP => (vmapM3 np fmask nP (P g % nf) (P g / nf), nP + P g % nf * nfp + P g / nf * nf * nfp)) (0, 0)
      (fun m hm => hfar m (by simpa using hm))
  rw [this] at g2 g3
  exact ⟨T, hT, g2, g3⟩

/-- The connectivity hypothesis of C41 and C66 is what the mesh manager establishes: for every conforming mesh of triangles or
quadrilaterals whose elements have different vertices (each edge shared by at most two faces), the tables it builds describe a
pairing in the sense of `Conn`, where partners are the faces with the same two ends. -/
theorem conn_of_mesh (wrap : Bool) (nv nf k : Nat) (e2v : List Int) (e2e e2f : List Nat) (hnf : nf = 3 ∨ nf = 4)
    (hlen : e2v.length = nf * k) (hv : ∀ v ∈ e2v, 0 ≤ v ∧ v < (nv : Int))
    (hd : ∀ e < k, ∀ i < nf, ∀ j < nf, i ≠ j → e2v.getD (e * nf + i) 0 ≠ e2v.getD (e * nf + j) 0)
    (hconf : ∀ a < nf * k, ∀ b < nf * k, ∀ c < nf * k, a ≠ b → a ≠ c →
      Mesh.SameEdge nf e2v a b → Mesh.SameEdge nf e2v a c → b = c)
    (hov : nv * (nf * k) ≤ intMax ∨ wrap = true ∧ nv * (nf * k) % 4294967296 ≠ 0)
    (hE : e2e.length = nf * k) (hF : e2f.length = nf * k) :
    ∃ E F P, Mesh.buildConnectivity wrap nv nf k e2v e2e e2f = .ok (E, F) ∧ Conn nf k E F P ∧
      ∀ g < nf * k, (P g = g ↔ ∀ g' < nf * k, g' ≠ g → ¬ Mesh.SameEdge nf e2v g g') ∧
        ∀ g' < nf * k, g' ≠ g → (Mesh.SameEdge nf e2v g g' ↔ P g = g') := by
  obtain ⟨E, F, h1, l1, l2, P, hP⟩ := Mesh.C20_involution wrap nv nf k e2v e2e e2f hnf hlen hv (Mesh.distinct_ends hnf hd) hconf hov hE hF
  have hget : ∀ (l : List Nat) (g x : Nat), g < l.length → l.getD g 0 = x → l[g]? = some x := by
    intro l g x hg hx
    rw [← hx]; simp [List.getD_eq_getElem?_getD, hg]
  refine ⟨E, F, P, h1, ⟨l1, l2, fun g hg => (hP g hg).1, fun g hg => (hP g hg).2.1,
    fun g hg => hget _ _ _ (by omega) (hP g hg).2.2.1, fun g hg => hget _ _ _ (by omega) (hP g hg).2.2.2.1, ?_⟩,
    fun g hg => (hP g hg).2.2.2.2⟩
  intro g hg he
  by_contra hne
  have hs := ((hP g hg).2.2.2.2.2 (P g) (hP g hg).1 hne).2 rfl
  exact hne (Mesh.same_element hnf hd hg hs he)

/-! A concrete case: two linear triangles glued along a diagonal.  Volume nodes 0,1,2 of the first triangle are the vertices
(0,0), (1,0), (0,1); nodes 3,4,5 of the second are (0,1), (1,0), (1,1).  Faces are vertex pairs 01, 12, 20. -/

/-- Points of the square, one number per geometric position. -/
def demoPlace : Nat → Nat := fun v => [0, 1, 2, 2, 1, 3].getD v 9

/-- Face masks of the linear triangle. -/
def demoMask : Nat → Nat → Nat := fun n f => ([[0, 1], [1, 2], [2, 0]].getD f []).getD n 0

/-- Nearness is equality of positions. -/
def demoNear : Nat → Nat → Nat → Bool := fun _ a b => demoPlace a == demoPlace b

/-- The pairing: face 1 of the first triangle is face 0 of the second. -/
def demoP (g : Nat) : Nat := if g = 1 then 3 else if g = 3 then 1 else g

theorem demo_conn : Conn 3 2 [0, 1, 0, 0, 1, 1] [0, 0, 2, 1, 1, 2] demoP where
  lenE := rfl
  lenF := rfl
  lt := by decide
  inv := by decide
  e := by decide
  f := by decide
  own := by decide

example : ∃ T, buildMaps 3 2 3 2 demoMask [0, 1, 0, 0, 1, 1] [0, 0, 2, 1, 1, 2] demoNear = .ok T ∧
    T.mapP = [0, 1, 7, 6, 4, 5, 3, 2, 8, 9, 10, 11] ∧ T.mapB = [0, 1, 4, 5, 8, 9, 10, 11] ∧
    T.vmapP = [0, 1, 4, 3, 2, 0, 2, 1, 4, 5, 5, 3] := by
  refine ⟨_, rfl, ?_, ?_, ?_⟩ <;> decide

/-- The hypotheses of `C66_trace` hold in this case. -/
example : (∀ n f, n < 2 → f < 3 → demoMask n f < 3) ∧
    (∀ g n, g < 3 * 2 → n < 2 → ∃ n' < 2, ∀ m < 2,
      demoNear g (vol 3 3 demoMask g n) (vol 3 3 demoMask (demoP g) m) = true ↔ m = n') ∧
    (∀ g n, g < 3 * 2 → demoP g = g → n < 2 → demoNear g (vol 3 3 demoMask g n) (vol 3 3 demoMask g n) = true) := by
  refine ⟨?_, ?_, fun g n _ _ _ => by simp [demoNear]⟩
  · intro n f hn hf
    have : ∀ f < 3, ∀ n < 2, demoMask n f < 3 := by decide
    exact this f hf n hn
  · intro g n hg hn
    have : ∀ g < 6, ∀ n < 2, ∃ n' < 2, ∀ m < 2,
      demoNear g (vol 3 3 demoMask g n) (vol 3 3 demoMask (demoP g) m) = true ↔ m = n' := by decide
    exact this g hg n hn

end Blitzdg.DG2D
