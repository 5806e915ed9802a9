import Verif.DG2D.HashProps
import Mathlib.Data.List.Nodup
import Mathlib.Tactic.Ring
import Mathlib.Tactic.Linarith

/-! Properties C41 (Gauss face maps) and C66 (trace maps of the two-dimensional provisioners). -/

namespace Blitzdg.DG2D

open Sparse Blitz

/-- Specification: the tables `E`, `F` describe the pairing `P` of the faces `g = nf*element + face`.  `P` is an involution, a boundary
face is its own partner, and two different faces of one element are never partners.  This is what `C20_involution` establishes
for conforming meshes (`own` because the vertices of an element are different). -/
structure Conn (nf k : Nat) (E F : List Nat) (P : Nat → Nat) : Prop where
  lenE : E.length = nf * k
  lenF : F.length = nf * k
  lt : ∀ g < nf * k, P g < nf * k
  inv : ∀ g < nf * k, P (P g) = g
  e : ∀ g < nf * k, E[g]? = some (P g / nf)
  f : ∀ g < nf * k, F[g]? = some (P g % nf)
  own : ∀ g < nf * k, P g / nf = g / nf → P g = g

theorem face_lt {nf k f e : Nat} (hf : f < nf) (he : e < k) : nf * e + f < nf * k := by
  have : nf * (e + 1) ≤ nf * k := Nat.mul_le_mul_left _ he
  rw [Nat.mul_succ] at this; omega

theorem face_div {nf f e : Nat} (hf : f < nf) : (nf * e + f) / nf = e := by
  rw [Nat.mul_add_div (by omega), Nat.div_eq_of_lt hf, Nat.add_zero]

theorem face_mod {nf f e : Nat} (hf : f < nf) : (nf * e + f) % nf = f := by
  rw [Nat.mul_add_mod, Nat.mod_eq_of_lt hf]

/-! ### Sequences of writes -/

/-- The effect of a sequence of writes. -/
def fill (l : List Nat) (ps : List (Nat × Nat)) : List Nat := ps.foldl (fun l p => l.set p.1 p.2) l

@[simp] theorem fill_length (l : List Nat) (ps : List (Nat × Nat)) : (fill l ps).length = l.length := by
  induction ps generalizing l with
  | nil => rfl
  | cons p ps ih => rw [fill, List.foldl_cons]; exact (ih _).trans (by simp)

theorem fill_append (l : List Nat) (ps qs : List (Nat × Nat)) : fill l (ps ++ qs) = fill (fill l ps) qs := by
  simp [fill]

theorem fill_get (l : List Nat) (ps : List (Nat × Nat)) (V : Nat → Nat) (hV : ∀ p ∈ ps, p.2 = V p.1) (i : Nat) (hi : i < l.length)
    (hm : i ∈ ps.map Prod.fst ∨ l[i]? = some (V i)) : (fill l ps)[i]? = some (V i) := by
  induction ps generalizing l with
  | nil =>
    rcases hm with hm | hm
    · simp at hm
    · exact hm
  | cons p ps ih =>
    rw [fill, List.foldl_cons]
    refine ih _ (fun q hq => hV q (by simp [hq])) (by simpa using hi) ?_
    by_cases h : p.1 = i
    · right
      rw [h, List.getElem?_set_self (by simpa using hi), hV p (by simp), h]
    · rcases hm with hm | hm
      · left
        rw [List.map_cons, List.mem_cons] at hm
        rcases hm with hm | hm
        · exact absurd hm.symm h
        · exact hm
      · right; rw [List.getElem?_set_ne h]; exact hm

/-- A sequence of `push`es. -/
def pushAll (m : TagMap) (ps : List (Int × Nat)) : TagMap := ps.foldl (fun m p => push m p.1 p.2) m

theorem pushAll_append (m : TagMap) (ps qs : List (Int × Nat)) : pushAll m (ps ++ qs) = pushAll (pushAll m ps) qs := by
  simp [pushAll]

theorem pushAll_getD (m : TagMap) (ps : List (Int × Nat)) (t : Int) :
    ((pushAll m ps) t).getD [] = (m t).getD [] ++ (ps.filter fun p => p.1 = t).map Prod.snd := by
  induction ps generalizing m with
  | nil => simp [pushAll]
  | cons p ps ih =>
    rw [pushAll, List.foldl_cons]
    rw [show List.foldl (fun m p => push m p.1 p.2) (push m p.1 p.2) ps = pushAll (push m p.1 p.2) ps from rfl, ih]
    by_cases h : p.1 = t
    · subst h; simp [push]
    · have h' : ¬ t = p.1 := fun e => h e.symm
      simp [push, h, h']

theorem pushAll_isSome (m : TagMap) (ps : List (Int × Nat)) (t : Int) :
    ((pushAll m ps) t).isSome ↔ (m t).isSome ∨ ∃ c, (t, c) ∈ ps := by
  induction ps generalizing m with
  | nil => simp [pushAll]
  | cons p ps ih =>
    rw [pushAll, List.foldl_cons]
    rw [show List.foldl (fun m p => push m p.1 p.2) (push m p.1 p.2) ps = pushAll (push m p.1 p.2) ps from rfl, ih]
    obtain ⟨u, d⟩ := p
    by_cases h : t = u
    · subst h
      simp [push]
    · simp [push, h]

/-! ### Gauss maps -/

theorem gaussMapM_ok (nfp k : Nat) : gaussMapM nfp k = .ok (List.range (nfp * k)) := by
  have h := flat_cols { rows := nfp, cols := k, at' := fun i j => i + nfp * j } (0 : Nat)
  simp only at h
  rw [gaussMapM, h]
  congr 1
  conv => rhs; rw [← List.map_id (List.range (nfp * k))]
  refine List.map_congr_left fun c _ => ?_
  simpa using Nat.mod_add_div c nfp

theorem rd_range {n c : Nat} (h : c < n) : rd (List.range n) c = .ok c := by
  rw [rd_eq_ok, List.getElem?_range h]

theorem point_lt {ng nf k g i : Nat} (hg : g < nf * k) (hi : i < ng) : ng * g + i < ng * nf * k := by
  rw [Nat.mul_assoc]; exact face_lt hi hg

theorem interior_loop (ng nf k f e f2 e2 : Nat) (hf : f < nf) (he : e < k) (hf2 : f2 < nf) (he2 : e2 < k) (l : List Nat)
    (hl : ∀ i ∈ l, i < ng) (s : GaussMaps) (hs : s.mapP.length = ng * nf * k) :
    loopM (gaussInterior ng nf (List.range (ng * nf * k)) f e f2 e2) s l
      = .ok { s with mapP := fill s.mapP (l.map fun i => (ng * (nf * e + f) + i, ng * (nf * e2 + f2) + (ng - 1 - i))) } := by
  induction l generalizing s with
  | nil => rfl
  | cons i l ih =>
    have hi := hl i (by simp)
    have e1 : ng * (f2 + 1) - i - 1 + e2 * (ng * nf) = ng * (nf * e2 + f2) + (ng - 1 - i) := by
      have h1 : ng * (f2 + 1) = ng * f2 + ng := by ring
      have h2 : e2 * (ng * nf) = ng * (nf * e2) := by ring
      rw [h1, h2, Nat.mul_add]; omega
    have e2' : f * ng + i + e * (ng * nf) = ng * (nf * e + f) + i := by ring
    have l1 : ng * (nf * e2 + f2) + (ng - 1 - i) < ng * nf * k := point_lt (face_lt hf2 he2) (by omega)
    have l2 : ng * (nf * e + f) + i < ng * nf * k := point_lt (face_lt hf he) hi
    rw [loopM_cons]
    simp only [gaussInterior, e1, e2', rd_range l1, Out.bind_ok, wr_of_lt (hs ▸ l2), Out.pure_eq]
    rw [ih (fun j hj => hl j (by simp [hj])) _ (by simpa using hs)]
    rfl

theorem boundary_loop (ng nf k f e : Nat) (bc : List Int) (t : Int) (hf : f < nf) (he : e < k) (ht : bc[nf * e + f]? = some t)
    (l : List Nat) (hl : ∀ i ∈ l, i < ng) (s : GaussMaps) (hs : s.mapP.length = ng * nf * k) :
    loopM (gaussBoundary ng nf bc (List.range (ng * nf * k)) f e) s l
      = .ok { mapP := fill s.mapP (l.map fun i => (ng * (nf * e + f) + i, ng * (nf * e + f) + i))
              bc := pushAll s.bc (l.map fun i => (t, ng * (nf * e + f) + i))
              mapB := s.mapB ++ l.map fun i => ng * (nf * e + f) + i } := by
  induction l generalizing s with
  | nil => simp [fill, pushAll]
  | cons i l ih =>
    have hi := hl i (by simp)
    have e2' : f * ng + i + e * (ng * nf) = ng * (nf * e + f) + i := by ring
    have l2 : ng * (nf * e + f) + i < ng * nf * k := point_lt (face_lt hf he) hi
    rw [loopM_cons]
    simp only [gaussBoundary, e2', rd_range l2, Out.bind_ok, wr_of_lt (hs ▸ l2), Out.pure_eq, rd_eq_ok.2 ht]
    rw [ih (fun j hj => hl j (by simp [hj])) _ (by simpa using hs)]
    simp [fill, pushAll]

/-- Writes made for the face `p.1` of element `p.2`. -/
def facePts (ng nf : Nat) (P : Nat → Nat) (p : Nat × Nat) : List (Nat × Nat) :=
  (List.range ng).map fun i => (ng * (nf * p.2 + p.1) + i,
    if P (nf * p.2 + p.1) = nf * p.2 + p.1 then ng * (nf * p.2 + p.1) + i else ng * P (nf * p.2 + p.1) + (ng - 1 - i))

/-- Boundary points of the face with their tag. -/
def faceTags (ng nf : Nat) (bc : List Int) (P : Nat → Nat) (p : Nat × Nat) : List (Int × Nat) :=
  if P (nf * p.2 + p.1) = nf * p.2 + p.1 then
    (List.range ng).map fun i => (bc.getD (nf * p.2 + p.1) 0, ng * (nf * p.2 + p.1) + i) else []

theorem gauss_loop (ng nf k : Nat) (E F : List Nat) (bc : List Int) (P : Nat → Nat) (hc : Conn nf k E F P) (hb : nf * k ≤ bc.length)
    (l : List (Nat × Nat)) (hl : ∀ p ∈ l, p.1 < nf ∧ p.2 < k) (s : GaussMaps) (hs : s.mapP.length = ng * nf * k) :
    loopM (gaussFace ng nf E F bc (List.range (ng * nf * k))) s l
      = .ok { mapP := fill s.mapP (l.flatMap (facePts ng nf P))
              bc := pushAll s.bc (l.flatMap (faceTags ng nf bc P))
              mapB := s.mapB ++ (l.flatMap (faceTags ng nf bc P)).map Prod.snd } := by
  induction l generalizing s with
  | nil => simp [fill, pushAll]
  | cons p l ih =>
    obtain ⟨f, e⟩ := p
    obtain ⟨hf, he⟩ := hl (f, e) (by simp)
    simp only at hf he
    have hg := face_lt hf he
    have hE := rd_eq_ok.2 (hc.e _ hg)
    have hF := rd_eq_ok.2 (hc.f _ hg)
    have hP := hc.lt _ hg
    have hk2 : P (nf * e + f) / nf < k := Nat.div_lt_of_lt_mul hP
    have hf2 : P (nf * e + f) % nf < nf := Nat.mod_lt _ (by omega)
    have hpe : nf * (P (nf * e + f) / nf) + P (nf * e + f) % nf = P (nf * e + f) := Nat.div_add_mod _ _
    rw [loopM_cons]
    simp only [gaussFace, hE, hF, Out.bind_ok]
    by_cases hbd : P (nf * e + f) = nf * e + f
    · have hk : e = P (nf * e + f) / nf := by rw [hbd, face_div hf]
      have ht : bc[nf * e + f]? = some (bc.getD (nf * e + f) 0) := by
        have hh : nf * e + f < bc.length := by omega
        simp [List.getD_eq_getElem?_getD, hh]
      rw [if_neg (not_not.2 hk), boundary_loop ng nf k f e bc _ hf he ht _ (by simp) s hs, Out.bind_ok,
        ih (fun q hq => hl q (by simp [hq])) _ (by simpa using hs)]
      simp [facePts, faceTags, hbd, fill_append, pushAll_append, Function.comp_def]
    · have hk : e ≠ P (nf * e + f) / nf := fun h => hbd (hc.own _ hg (by rw [face_div hf]; exact h.symm))
      rw [if_pos hk, interior_loop ng nf k f e _ _ hf he hf2 hk2 _ (by simp) s hs, Out.bind_ok,
        ih (fun q hq => hl q (by simp [hq])) _ (by simpa using hs)]
      simp [facePts, faceTags, hbd, fill_append, hpe]

theorem mem_rowMajor' {m n : Nat} {p : Nat × Nat} : p ∈ rowMajor m n ↔ p.1 < m ∧ p.2 < n := by
  obtain ⟨i, j⟩ := p
  have := mem_order (b := true) (m := m) (n := n) (i := i) (j := j)
  simpa [order] using this

/-- Specification: `c` is the number of a Gauss point on a boundary face with tag `t`. -/
def BoundaryPoint (ng nf k : Nat) (bc : List Int) (P : Nat → Nat) (t : Int) (c : Nat) : Prop :=
  ∃ g i, g < nf * k ∧ i < ng ∧ P g = g ∧ bc[g]? = some t ∧ c = ng * g + i

theorem mem_allTags {ng nf k : Nat} {bc : List Int} {P : Nat → Nat} (hnf : 0 < nf) (hb : nf * k ≤ bc.length) {t : Int} {c : Nat} :
    (t, c) ∈ (rowMajor nf k).flatMap (faceTags ng nf bc P) ↔ BoundaryPoint ng nf k bc P t c := by
  have hget : ∀ g, g < nf * k → bc[g]? = some (bc.getD g 0) := by
    intro g hg
    have hh : g < bc.length := by omega
    simp [List.getD_eq_getElem?_getD, hh]
  rw [List.mem_flatMap]
  constructor
  · rintro ⟨⟨f, e⟩, hp, hm⟩
    obtain ⟨hf, he⟩ := mem_rowMajor'.1 hp
    simp only at hf he
    unfold faceTags at hm
    split at hm
    · next h =>
      obtain ⟨i, hi, heq⟩ := List.mem_map.1 hm
      rw [List.mem_range] at hi
      obtain ⟨h1, h2⟩ := Prod.mk.inj heq
      exact ⟨nf * e + f, i, face_lt hf he, hi, h, by rw [hget _ (face_lt hf he), h1], h2.symm⟩
    · simp at hm
  · rintro ⟨g, i, hg, hi, hP, ht, rfl⟩
    have hd : nf * (g / nf) + g % nf = g := Nat.div_add_mod _ _
    refine ⟨(g % nf, g / nf), mem_rowMajor'.2 ⟨Nat.mod_lt _ hnf, Nat.div_lt_of_lt_mul hg⟩, ?_⟩
    unfold faceTags
    simp only [hd, hP, if_true, List.mem_map, List.mem_range, Prod.mk.injEq]
    rw [hget g hg] at ht
    exact ⟨i, hi, Option.some.inj ht, rfl⟩

theorem nodup_allTags {ng nf k : Nat} {bc : List Int} {P : Nat → Nat} :
    (((rowMajor nf k).flatMap (faceTags ng nf bc P)).map Prod.snd).Nodup := by
  rw [List.map_flatMap, List.nodup_flatMap]
  constructor
  · intro p _
    unfold faceTags
    split
    · rw [List.map_map]
      exact List.nodup_range.map fun a b h => by simpa using h
    · simp
  · refine List.Pairwise.imp_of_mem ?_ (nodup_rowMajor nf k)
    rintro ⟨f, e⟩ ⟨f', e'⟩ hp hp' hne
    obtain ⟨hf, he⟩ := mem_rowMajor'.1 hp
    obtain ⟨hf', he'⟩ := mem_rowMajor'.1 hp'
    simp only at hf he hf' he'
    simp only [Function.onFun, List.disjoint_left]
    intro c hc hc'
    have key : ∀ {f e : Nat}, c ∈ (faceTags ng nf bc P (f, e)).map Prod.snd → c / ng = nf * e + f := by
      intro f e h
      unfold faceTags at h
      split at h
      · rw [List.map_map] at h
        obtain ⟨i, hi, rfl⟩ := List.mem_map.1 h
        rw [List.mem_range] at hi
        simp only [Function.comp]
        rw [Nat.mul_add_div (by omega), Nat.div_eq_of_lt hi, Nat.add_zero]
      · simp at h
    have h1 := key hc
    have h2 := key hc'
    rw [h1] at h2
    have h3 : e = e' := by have := congrArg (· / nf) h2; simpa [face_div hf, face_div hf'] using this
    have h4 : f = f' := by have := congrArg (· % nf) h2; simpa [face_mod hf, face_mod hf'] using this
    exact hne (by rw [h3, h4])

/-- C41.  For every number of Gauss points, every mesh size and every pairing of the faces: the maps are built without undefined
behaviour, `mapM` is the identity numbering, `mapP` sends point `i` of an interior face to point `NGauss-1-i` of the partner face
and a point of a boundary face to itself, it is an involution, and the list under each tag contains exactly the points
of the boundary faces with that tag, each once; `mapB` contains exactly the boundary points, each once.  There is a list for each of the eight tags (possibly empty), and for every other
tag that occurs. -/
theorem C41_gauss (ng nf k : Nat) (hnf : 0 < nf) (E F : List Nat) (bc : List Int) (P : Nat → Nat) (hc : Conn nf k E F P)
    (hb : nf * k ≤ bc.length) :
    ∃ r, gaussMaps ng nf k E F bc = .ok (List.range (ng * nf * k), r) ∧ r.mapP.length = ng * nf * k ∧
      (∀ g i, g < nf * k → i < ng → P g ≠ g → r.mapP[ng * g + i]? = some (ng * P g + (ng - 1 - i))) ∧
      (∀ g i, g < nf * k → i < ng → P g = g → r.mapP[ng * g + i]? = some (ng * g + i)) ∧
      (∀ c, c < ng * nf * k → ∃ c', c' < ng * nf * k ∧ r.mapP[c]? = some c' ∧ r.mapP[c']? = some c) ∧
      (∀ t, ((r.bc t).getD []).Nodup ∧ ∀ c, c ∈ (r.bc t).getD [] ↔ BoundaryPoint ng nf k bc P t c) ∧
      (r.mapB.Nodup ∧ ∀ c, c ∈ r.mapB ↔ ∃ t, BoundaryPoint ng nf k bc P t c) ∧
      (∀ t, (r.bc t).isSome ↔ (1 ≤ t ∧ t ≤ 8) ∨ ∃ c, BoundaryPoint ng nf k bc P t c) := by
  have hmem : ∀ p ∈ rowMajor nf k, p.1 < nf ∧ p.2 < k := fun p hp => mem_rowMajor'.1 hp
  have hloop := gauss_loop ng nf k E F bc P hc hb (rowMajor nf k) hmem
    { mapP := List.replicate (ng * nf * k) 0, bc := gaussBC0, mapB := [] } (by simp)
  simp only [List.nil_append] at hloop
  set mp := fill (List.replicate (ng * nf * k) 0) ((rowMajor nf k).flatMap (facePts ng nf P)) with hmp
  let V : Nat → Nat := fun c => if P (c / ng) = c / ng then c else ng * P (c / ng) + (ng - 1 - c % ng)
  have hV : ∀ p ∈ (rowMajor nf k).flatMap (facePts ng nf P), p.2 = V p.1 := by
    intro p hp
    obtain ⟨⟨f, e⟩, _, hp⟩ := List.mem_flatMap.1 hp
    obtain ⟨i, hi, rfl⟩ := List.mem_map.1 hp
    rw [List.mem_range] at hi
    simp only [V]
    rw [Nat.mul_add_div (by omega), Nat.div_eq_of_lt hi, Nat.add_zero, Nat.mul_add_mod, Nat.mod_eq_of_lt hi]
  have hget : ∀ g i, g < nf * k → i < ng → mp[ng * g + i]? = some (V (ng * g + i)) := by
    intro g i hg hi
    refine fill_get _ _ V hV _ (by simpa using point_lt hg hi) (Or.inl ?_)
    rw [List.mem_map]
    have hd : nf * (g / nf) + g % nf = g := Nat.div_add_mod _ _
    refine ⟨(ng * g + i, V (ng * g + i)), List.mem_flatMap.2 ⟨(g % nf, g / nf),
      mem_rowMajor'.2 ⟨Nat.mod_lt _ hnf, Nat.div_lt_of_lt_mul hg⟩, ?_⟩, rfl⟩
    refine List.mem_map.2 ⟨i, List.mem_range.2 hi, ?_⟩
    simp only [hd, V]
    rw [Nat.mul_add_div (by omega), Nat.div_eq_of_lt hi, Nat.add_zero, Nat.mul_add_mod, Nat.mod_eq_of_lt hi]
  have hint : ∀ g i, g < nf * k → i < ng → P g ≠ g → mp[ng * g + i]? = some (ng * P g + (ng - 1 - i)) := by
    intro g i hg hi hne
    rw [hget g i hg hi]
    simp only [V]
    rw [Nat.mul_add_div (by omega), Nat.div_eq_of_lt hi, Nat.add_zero, if_neg hne, Nat.mul_add_mod, Nat.mod_eq_of_lt hi]
  have hbnd : ∀ g i, g < nf * k → i < ng → P g = g → mp[ng * g + i]? = some (ng * g + i) := by
    intro g i hg hi he
    rw [hget g i hg hi]
    simp only [V]
    rw [Nat.mul_add_div (by omega), Nat.div_eq_of_lt hi, Nat.add_zero, if_pos he]
  refine ⟨{ mapP := mp, bc := pushAll gaussBC0 ((rowMajor nf k).flatMap (faceTags ng nf bc P)),
            mapB := ((rowMajor nf k).flatMap (faceTags ng nf bc P)).map Prod.snd }, ?_, ?_, hint, hbnd, ?_, ?_, ?_, ?_⟩
  · rw [gaussMaps, gaussMapM_ok, Out.bind_ok, hloop]; rfl
  · simp [hmp]
  · intro c hcl
    have hng : 0 < ng := by rcases Nat.eq_zero_or_pos ng with h | h; (· subst h; simp at hcl); (· exact h)
    have hg : c / ng < nf * k := Nat.div_lt_of_lt_mul (by rw [← Nat.mul_assoc]; exact hcl)
    have hi : c % ng < ng := Nat.mod_lt _ hng
    have hce : ng * (c / ng) + c % ng = c := Nat.div_add_mod _ _
    by_cases hP : P (c / ng) = c / ng
    · have := hbnd _ _ hg hi hP
      rw [hce] at this
      exact ⟨c, hcl, this, this⟩
    · have h1 := hint _ _ hg hi hP
      rw [hce] at h1
      have hg' := hc.lt _ hg
      have hne : P (P (c / ng)) ≠ P (c / ng) := by rw [hc.inv _ hg]; exact Ne.symm hP
      have h2 := hint (P (c / ng)) (ng - 1 - c % ng) hg' (by omega) hne
      rw [hc.inv _ hg, show ng - 1 - (ng - 1 - c % ng) = c % ng by omega, hce] at h2
      exact ⟨_, point_lt hg' (by omega), h1, h2⟩
  · intro t
    have h0 : (gaussBC0 t).getD [] = [] := by
      unfold gaussBC0; split <;> rfl
    simp only [pushAll_getD, h0, List.nil_append]
    constructor
    · exact List.Nodup.sublist (List.Sublist.map _ List.filter_sublist) nodup_allTags
    · intro c
      rw [← mem_allTags hnf hb]
      constructor
      · intro h
        obtain ⟨⟨t', c'⟩, hm, rfl⟩ := List.mem_map.1 h
        obtain ⟨hm', ht⟩ := List.mem_filter.1 hm
        simp only [decide_eq_true_eq] at ht
        subst ht; exact hm'
      · intro h
        exact List.mem_map.2 ⟨(t, c), List.mem_filter.2 ⟨h, by simp⟩, rfl⟩
  · refine ⟨nodup_allTags, fun c => ?_⟩
    constructor
    · intro h
      obtain ⟨⟨t', c'⟩, hm, rfl⟩ := List.mem_map.1 h
      exact ⟨t', (mem_allTags hnf hb).1 hm⟩
    · rintro ⟨t, ht⟩
      exact List.mem_map.2 ⟨(t, c), (mem_allTags hnf hb).2 ht, rfl⟩
  · intro t
    simp only [pushAll_isSome, mem_allTags hnf hb]
    unfold gaussBC0
    split
    · rename_i h; simp [h]
    · rename_i h; simp [h]

/-- The pairing of two triangles sharing face 1 of the first and face 2 of the second. -/
def twoTri (g : Nat) : Nat := if g = 1 then 5 else if g = 5 then 1 else g

theorem twoTri_conn : Conn 3 2 [0, 1, 0, 1, 1, 0] [0, 2, 2, 0, 1, 1] twoTri where
  lenE := rfl
  lenF := rfl
  lt := by decide
  inv := by decide
  e := by decide
  f := by decide
  own := by decide

example : ∃ r, gaussMaps 2 3 2 [0, 1, 0, 1, 1, 0] [0, 2, 2, 0, 1, 1] [3, 0, 3, 6, 3, 0] = .ok (List.range 12, r) ∧
    r.mapP = [0, 1, 11, 10, 4, 5, 6, 7, 8, 9, 3, 2] ∧ r.bc 3 = some [0, 1, 8, 9, 4, 5] ∧ r.bc 6 = some [6, 7] := by
  refine ⟨_, rfl, ?_, ?_, ?_⟩ <;> decide

end Blitzdg.DG2D
