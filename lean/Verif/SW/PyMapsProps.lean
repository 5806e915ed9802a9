import Verif.SW.PyMaps
import Verif.SW.PyWeakMore

/-!
C116: periodic index arrays.
-/

namespace Blitzdg.SW

open MvPolynomial
open Blitzdg.Sparse (DMat)
open Blitzdg.Nodes1D (Lapack)
open Blitzdg.DG2D
open Blitzdg.Ctx (Cubature GaussFace CubatureSpec GaussSpec atNode atPoint atGauss over pointAt size)

/-! ### Specification -/

/-- Points `i` and `j` are on the same level, within 1e-3, and more than 1000 apart. -/
def Across (x y : List ℝ) (i j : ℕ) : Prop := |y.getD j 0 - y.getD i 0| < 1e-3 ∧ 1000 < |x.getD j 0 - x.getD i 0|

/-- Each entry of `O` has exactly one entry of `O` across from it, given by `π`. -/
def Partners (x y : List ℝ) (O : List ℕ) (π : ℕ → ℕ) : Prop := ∀ i ∈ O, π i ∈ O ∧ Across x y i (π i) ∧ ∀ j ∈ O, Across x y i j → j = π i

theorem Across.symm {x y : List ℝ} {i j : ℕ} (h : Across x y i j) : Across x y j i := ⟨by rw [abs_sub_comm]; exact h.1, by rw [abs_sub_comm]; exact h.2⟩

theorem Partners.invol {x y : List ℝ} {O : List ℕ} {π : ℕ → ℕ} (h : Partners x y O π) {i : ℕ} (hi : i ∈ O) : π (π i) = i := by
  obtain ⟨h1, h2, -⟩ := h i hi
  exact ((h (π i) h1).2.2 i hi h2.symm).symm

/-! ### The loops -/

theorem pickIdx_ok (a idx : List ℕ) (h : ∀ i ∈ idx, i < a.length) : pickIdx a idx = .ok (idx.map fun i => a.getD i 0) := by
  induction idx with
  | nil => rfl
  | cons i l ih =>
    have hi : i < a.length := h i (by simp)
    unfold pickIdx
    rw [List.getElem?_eq_getElem hi]
    simp only [ih fun j hj => h j (by simp [hj]), Out.bind_ok, Out.pure_eq, List.map_cons, List.getD_eq_getElem _ _ hi]

theorem filter_getD (l : List ℕ) (p : ℕ → Bool) : ((List.range l.length).filter fun j => p (l.getD j 0)).map (fun j => l.getD j 0) = l.filter p := by
  have e : l = (List.range l.length).map fun j => l.getD j 0 := by
    apply List.ext_getElem
    · simp
    · intro j h1 h2
      simp [List.getD_eq_getElem?_getD, h1]
  conv_rhs => rw [e]
  rw [List.filter_map]
  rfl

open Classical in
/-- The candidates of the code are the entries across. -/
theorem cand_eq (O : List ℕ) (x y : List ℝ) (i : ℕ) : pickIdx O (farIdx (O.map fun j => x.getD j 0) (O.map fun j => y.getD j 0) (x.getD i 0) (y.getD i 0)) = .ok (O.filter fun j => decide (Across x y i j)) := by
  have e : farIdx (O.map fun j => x.getD j 0) (O.map fun j => y.getD j 0) (x.getD i 0) (y.getD i 0) = (List.range O.length).filter fun j => decide (Across x y i (O.getD j 0)) := by
    unfold farIdx
    rw [List.length_map]
    refine List.filter_congr fun j hj => ?_
    have hj := List.mem_range.1 hj
    have e1 : ∀ f : ℕ → ℝ, (O.map f).getD j 0 = f (O.getD j 0) := fun f => by simp [List.getD_eq_getElem?_getD, hj]
    rw [e1, e1]
    rfl
  rw [e, pickIdx_ok _ _ fun j hj => List.mem_range.1 (List.mem_filter.1 hj).1]
  rw [filter_getD O fun j => decide (Across x y i j)]

open Classical in
theorem candidates_eq (O : List ℕ) (x y : List ℝ) (l : List ℕ) (hl : ∀ i ∈ l, i < x.length ∧ i < y.length) :
    candidates O x y (O.map fun j => x.getD j 0) (O.map fun j => y.getD j 0) l = .ok (l.map fun i => O.filter fun j => decide (Across x y i j)) := by
  induction l with
  | nil => rfl
  | cons i l ih =>
    obtain ⟨h1, h2⟩ := hl i (by simp)
    unfold candidates
    rw [List.getElem?_eq_getElem h1, List.getElem?_eq_getElem h2]
    have := cand_eq O x y i
    rw [List.getD_eq_getElem _ _ h1, List.getD_eq_getElem _ _ h2] at this
    simp only [this, ih fun j hj => hl j (by simp [hj]), Out.bind_ok, Out.pure_eq, List.map_cons]

theorem filter_unique {O : List ℕ} (hO : O.Nodup) (p : ℕ → Prop) [DecidablePred p] {a : ℕ} (ha : a ∈ O) (hp : p a) (hu : ∀ j ∈ O, p j → j = a) : O.filter (fun j => decide (p j)) = [a] := by
  have e : O.filter (fun j => decide (p j)) = O.filter fun j => j == a := by
    refine List.filter_congr fun j hj => ?_
    rw [Bool.eq_iff_iff]
    simp only [decide_eq_true_eq, beq_iff_eq]
    exact ⟨hu j hj, fun h => h ▸ hp⟩
  rw [e, List.filter_beq, List.count_eq_one_of_mem hO ha]
  rfl

theorem choose_single (cs : List (List ℕ)) (l : List ℕ) (i : ℕ) : choosePartners cs i (l.map fun a => [a]) = .ok l := by
  induction l generalizing i with
  | nil => rfl
  | cons a l ih =>
    have : choosePartner cs i [a] = .ok a := by unfold choosePartner; rfl
    simp only [List.map_cons, choosePartners, this, ih (i + 1), Out.bind_ok, Out.pure_eq]

theorem keys_fold (l ks : List ℕ) (h : (ks ++ l).Nodup) : l.foldl (fun ks i => if i ∈ ks then ks else ks ++ [i]) ks = ks ++ l := by
  induction l generalizing ks with
  | nil => simp
  | cons i l ih =>
    have hi : i ∉ ks := by
      intro hm
      have := (List.nodup_append.1 h).2.2 i hm i (by simp)
      exact this rfl
    rw [List.foldl_cons, if_neg hi, ih (ks ++ [i]) (by simpa using h)]
    simp

theorem keysOf_nodup {l : List ℕ} (h : l.Nodup) : keysOf l = l := by
  have := keys_fold l [] (by simpa using h)
  simpa [keysOf] using this

theorem lookup_zip (l : List ℕ) (π : ℕ → ℕ) (m : ℕ) : (l.zip (l.map π)).lookup m = if m ∈ l then some (π m) else none := by
  induction l with
  | nil => simp
  | cons a l ih =>
    simp only [List.map_cons, List.zip_cons_cons, List.lookup_cons, ih, List.mem_cons]
    by_cases h : m = a
    · subst h; simp
    · have : (m == a) = false := by simpa using h
      simp [this, h]

theorem remap_ok (look : List (ℕ × ℕ)) (M V : List ℕ) (h : M.length = V.length) :
    ∃ r, remap look M V = .ok r ∧ r.length = V.length ∧ ∀ c < V.length, r[c]? = some ((look.lookup (M.getD c 0)).getD (V.getD c 0)) := by
  induction M generalizing V with
  | nil =>
    cases V with
    | nil => exact ⟨[], rfl, rfl, fun c hc => by simp at hc⟩
    | cons _ _ => simp at h
  | cons m M ih =>
    cases V with
    | nil => simp at h
    | cons v V =>
      obtain ⟨r, h1, h2, h3⟩ := ih V (by simpa using h)
      refine ⟨(look.lookup m).getD v :: r, by simp only [remap, h1, Out.bind_ok, Out.pure_eq], by simp [h2], fun c hc => ?_⟩
      cases c with
      | zero => simp
      | succ c =>
        have := h3 c (by simpa using hc)
        simpa using this

open Classical in
/-- **C116, unique partners.** If the listed points are distinct and each has exactly one other across from it, `makeMapsPeriodic` redirects every face node or Gauss point at a listed point to the one
across, and keeps all other entries.  Being across is symmetric, so redirecting twice leads back. -/
theorem C116_unique (M V O : List ℕ) (x y : List ℝ) (hl : M.length = V.length) (hO : O.Nodup) (hr : ∀ i ∈ O, i < x.length ∧ i < y.length) {π : ℕ → ℕ} (hπ : Partners x y O π) :
    ∃ r, makePeriodic M V O x y (O.map fun j => x.getD j 0) (O.map fun j => y.getD j 0) = .ok (M, r) ∧ r.length = V.length ∧
      (∀ c < V.length, r[c]? = some (if M.getD c 0 ∈ O then π (M.getD c 0) else V.getD c 0)) ∧ ∀ i ∈ O, π (π i) = i := by
  obtain ⟨r, h1, h2, h3⟩ := remap_ok (O.zip (O.map π)) M V hl
  have e : (O.map fun i => O.filter fun j => decide (Across x y i j)) = (O.map π).map fun a => [a] := by
    rw [List.map_map]
    refine List.map_congr_left fun i hi => ?_
    obtain ⟨p1, p2, p3⟩ := hπ i hi
    exact filter_unique hO _ p1 p2 p3
  refine ⟨r, ?_, h2, fun c hc => ?_, fun i hi => hπ.invol hi⟩
  · unfold makePeriodic
    rw [if_neg (by simp)]
    simp only [candidates_eq O x y O hr, e, choose_single, keysOf_nodup hO, h1, Out.bind_ok, Out.pure_eq]
  · rw [h3 c hc, lookup_zip]
    split_ifs <;> rfl

/-! ### Gauss points of a channel -/

/-- A boundary face with the tag of outflow. -/
def IsOpen (P : ℕ → ℕ) (bt : List Int) (e : ℕ) : Prop := P e = e ∧ bt[e]? = some 2

/-- End points of face `e`. -/
def Grid.ends (g : Grid) (e : ℕ) : (ℝ × ℝ) × (ℝ × ℝ) := faceEnds (g.tri (e / 3)) (e % 3)

/-- A periodic channel: the outflow faces lie on two vertical lines more than 1000 apart, and `Q` pairs each with the outflow face at the same height on the other line.  Other faces keep their neighbour. -/
structure Channel (g : Grid) (P : ℕ → ℕ) (bt : List Int) (Q : ℕ → ℕ) (left right : ℝ) : Prop where
  width : left + 1000 < right
  lt : ∀ e < 3 * g.K, Q e < 3 * g.K
  inv : ∀ e < 3 * g.K, Q (Q e) = e
  rest : ∀ e < 3 * g.K, ¬ IsOpen P bt e → Q e = P e
  line : ∀ e < 3 * g.K, IsOpen P bt e → (g.ends e).1.1 = (g.ends e).2.1 ∧ ((g.ends e).1.1 = left ∨ (g.ends e).1.1 = right)
  mate : ∀ e < 3 * g.K, IsOpen P bt e → IsOpen P bt (Q e) ∧ (g.ends (Q e)).1.1 ≠ (g.ends e).1.1 ∧ (g.ends (Q e)).1.2 = (g.ends e).2.2 ∧ (g.ends (Q e)).2.2 = (g.ends e).1.2

/-- Distinct Gauss points on outflow faces of the same line are at least 1e-3 apart. -/
def Spread (g : Grid) (P : ℕ → ℕ) (bt : List Int) (ga : GaussFace) : Prop := ∀ p < 3 * ga.n * g.K, ∀ p' < 3 * ga.n * g.K, IsOpen P bt (p / ga.n) → IsOpen P bt (p' / ga.n) → p ≠ p' →
  (pointAt ga p).1 = (pointAt ga p').1 → 1e-3 ≤ |(pointAt ga p').2 - (pointAt ga p).2|

variable {P Q : ℕ → ℕ} {x : List ℝ} {bt : List Int} {g : Grid} {NG : ℕ} {ga : GaussFace} {left right : ℝ}

theorem gauss_coord (hN1 : 1 ≤ g.N) (hga : GaussSpec g P bt NG ga) {p : ℕ} (hp : p < 3 * ga.n * g.K) :
    (g.flatG ga (g.dotAt ga.interp g.pyX)).getD p 0 = (pointAt ga p).1 ∧ (g.flatG ga (g.dotAt ga.interp g.pyY)).getD p 0 = (pointAt ga p).2 := by
  obtain rfl := hga.count
  obtain ⟨r1, r2⟩ := row_of hp
  have key : ∀ a : Fin 2, (X a : P2).totalDegree ≤ g.N := fun a => by rw [totalDegree_X]; exact hN1
  constructor
  · rw [List.getD_eq_getElem?_getD, flatG_get _ hp]
    have := hga.interp (X 0) (key 0) _ r1 _ r2
    simpa [atNode, atGauss, ev, Grid.dotAt, Grid.pyX, pointAt] using this
  · rw [List.getD_eq_getElem?_getD, flatG_get _ hp]
    have := hga.interp (X 1) (key 1) _ r1 _ r2
    simpa [atNode, atGauss, ev, Grid.dotAt, Grid.pyY, pointAt] using this

theorem pick_getD (a : List ℝ) (idx : List ℕ) (h : ∀ i ∈ idx, i < a.length) : pick a idx = .ok (idx.map fun i => a.getD i 0) := by
  obtain ⟨r, h1, h2, h3⟩ := pick_ok a idx fun c i hc => h i (List.mem_of_getElem? hc)
  rw [h1]
  congr 1
  apply List.ext_getElem?
  intro c
  rcases hc : idx[c]? with _ | i
  · rw [List.getElem?_map, hc]
    have := List.getElem?_eq_none_iff.1 hc
    rw [List.getElem?_eq_none_iff.2 (by omega)]
    rfl
  · have hi := h i (List.mem_of_getElem? hc)
    rw [h3 c i hc, List.getElem?_map, hc, List.getElem?_eq_getElem hi]
    simp [List.getD_eq_getElem?_getD, hi]

open Classical in
/-- The partner of a Gauss point in a periodic channel. -/
noncomputable def mate (P : ℕ → ℕ) (bt : List Int) (ga : GaussFace) (Q : ℕ → ℕ) (p : ℕ) : ℕ :=
  if IsOpen P bt (p / ga.n) then ga.n * Q (p / ga.n) + (ga.n - 1 - p % ga.n) else ga.mapP.getD p 0

theorem point_ends (hga : GaussSpec g P bt NG ga) : ∃ z : ℕ → ℝ, (∀ i < ga.n, z (ga.n - 1 - i) = -z i) ∧ ∀ e < 3 * g.K, ∀ i < ga.n, pointAt ga (ga.n * e + i) = lerp (g.ends e) (z i) := by
  obtain rfl := hga.count
  obtain ⟨z, -, -, h3, h4⟩ := hga.place
  refine ⟨z, h3, fun e he i hi => ?_⟩
  obtain ⟨r1, r2⟩ := fnum_row (e := e) hi
  unfold pointAt Grid.ends
  rw [← h4 (e / 3) (by omega) (e % 3) (by omega) i hi, r1, r2]

theorem mate_point (hga : GaussSpec g P bt NG ga) (hch : Channel g P bt Q left right) {e i : ℕ} (he : e < 3 * g.K) (hi : i < ga.n) (ho : IsOpen P bt e) :
    (pointAt ga (ga.n * e + i)).1 = (g.ends e).1.1 ∧ (pointAt ga (ga.n * Q e + (ga.n - 1 - i))).1 = (g.ends (Q e)).1.1 ∧
      (pointAt ga (ga.n * Q e + (ga.n - 1 - i))).2 = (pointAt ga (ga.n * e + i)).2 := by
  obtain ⟨z, h1, h2⟩ := point_ends hga
  obtain ⟨m1, m2, m3, m4⟩ := hch.mate e he ho
  have l1 := (hch.line e he ho).1
  have l2 := (hch.line _ (hch.lt e he) m1).1
  rw [h2 e he i hi, h2 (Q e) (hch.lt e he) _ (by omega), h1 i hi]
  simp only [lerp]
  refine ⟨?_, ?_, ?_⟩
  · rw [← l1]; ring
  · rw [← l2]; ring
  · rw [m3, m4]; ring

theorem mate_open {e i : ℕ} (hi : i < ga.n) (ho : IsOpen P bt e) : mate P bt ga Q (ga.n * e + i) = ga.n * Q e + (ga.n - 1 - i) := by
  obtain ⟨f1, f2⟩ := fnum_face (e := e) hi
  unfold mate
  rw [f1, f2, if_pos ho]

/-- The hypotheses of `C116_unique` for the Gauss points of a channel. -/
theorem gauss_partners (hN1 : 1 ≤ g.N) (hga : GaussSpec g P bt NG ga) (hch : Channel g P bt Q left right) (hsp : Spread g P bt ga) :
    Partners (g.flatG ga (g.dotAt ga.interp g.pyX)) (g.flatG ga (g.dotAt ga.interp g.pyY)) ((ga.bc 2).getD []) (mate P bt ga Q) := by
  obtain rfl := hga.count
  have mem : ∀ p, p ∈ (ga.bc 2).getD [] ↔ ∃ e i, e < 3 * g.K ∧ i < ga.n ∧ IsOpen P bt e ∧ p = ga.n * e + i := by
    intro p
    rw [(hga.tags 2).2 p]
    unfold IsOpen
    simp only [and_assoc]
  intro p hp
  obtain ⟨e, i, he, hi, ho, rfl⟩ := (mem p).1 hp
  obtain ⟨m1, m2, m3, m4⟩ := hch.mate e he ho
  obtain ⟨q1, q2, q3⟩ := mate_point hga hch he hi ho
  have hlt := fnum_lt (ga := ga) (g := g) he hi
  have hlt' : ga.n * Q e + (ga.n - 1 - i) < 3 * ga.n * g.K := fnum_lt (hch.lt e he) (by omega)
  rw [mate_open hi ho]
  have two : ∀ e < 3 * g.K, IsOpen P bt e → (g.ends e).1.1 = left ∨ (g.ends e).1.1 = right := fun e he ho => (hch.line e he ho).2
  have hw := hch.width
  obtain ⟨c1, c2⟩ := gauss_coord hN1 hga hlt
  obtain ⟨c3, c4⟩ := gauss_coord hN1 hga hlt'
  refine ⟨(mem _).2 ⟨Q e, ga.n - 1 - i, hch.lt e he, by omega, m1, rfl⟩, ?_, ?_⟩
  · unfold Across
    rw [c1, c2, c3, c4, q1, q2, q3, sub_self, abs_zero]
    refine ⟨by norm_num, ?_⟩
    rcases two e he ho with h1 | h1 <;> rcases two _ (hch.lt e he) m1 with h2 | h2
    · exact absurd (h2.trans h1.symm) m2
    · rw [h1, h2, lt_abs]; left; linarith
    · rw [h1, h2, lt_abs]; right; linarith
    · exact absurd (h2.trans h1.symm) m2
  · intro p' hp' hac
    obtain ⟨e', i', he', hi', ho', rfl⟩ := (mem p').1 hp'
    have hlt2 := fnum_lt (ga := ga) (g := g) he' hi'
    obtain ⟨c5, c6⟩ := gauss_coord hN1 hga hlt2
    obtain ⟨s1, -, -⟩ := mate_point hga hch he' hi' ho'
    unfold Across at hac
    rw [c1, c2, c5, c6, q1, s1] at hac
    by_contra hne
    have hx : (g.ends e').1.1 = (g.ends (Q e)).1.1 := by
      have far : (g.ends e').1.1 ≠ (g.ends e).1.1 := by
        intro h
        have := hac.2
        rw [h, sub_self, abs_zero] at this
        norm_num at this
      rcases two e he ho with h1 | h1 <;> rcases two _ (hch.lt e he) m1 with h2 | h2 <;> rcases two e' he' ho' with h3 | h3
      all_goals first | exact h3.trans h2.symm | exact absurd (h3.trans h1.symm) far | exact absurd (h2.trans h1.symm) m2
    have := hsp _ hlt2 _ hlt' (by rw [(fnum_face hi').1]; exact ho') (by rw [(fnum_face (by omega)).1]; exact m1) hne (by rw [s1, q2, hx])
    rw [q3, abs_sub_comm] at this
    linarith [hac.1]

theorem open_pairs (hg : GridSpec P x bt g) (hga : GaussSpec g P bt NG ga) (hch : Channel g P bt Q left right) {r : List ℕ} (hl : r.length = ga.mapP.length)
    (hr : ∀ p < ga.mapP.length, r[p]? = some (mate P bt ga Q p)) : FacePairs g ga Q r (mate P bt ga Q) := by
  have own := own_pairs hg hga
  obtain rfl := hga.count
  have hlen : ga.mapP.length = 3 * ga.n * g.K := own.len
  have shut : ∀ p, ¬ IsOpen P bt (p / ga.n) → mate P bt ga Q p = ga.mapP.getD p 0 := fun p h => by unfold mate; rw [if_neg h]
  have keep : ∀ p < 3 * ga.n * g.K, ¬ IsOpen P bt (p / ga.n) → ¬ IsOpen P bt (P (p / ga.n)) := by
    intro p hp hno ho
    obtain ⟨f1, -, -⟩ := face_of hp
    have h1 := ho.1
    rw [hg.inv _ f1] at h1
    rw [← h1] at ho
    exact hno ho
  obtain ⟨w, hw1, hw2⟩ := hga.weights
  refine ⟨hl.trans hlen, hch.lt, hch.inv, fun p hp => hr p (by omega), fun p hp => ?_, fun p hp => ?_, fun p hp hq => ?_, fun p hp hq => ?_⟩
  · obtain ⟨f1, f2, f3⟩ := face_of hp
    by_cases ho : IsOpen P bt (p / ga.n)
    · unfold mate
      rw [if_pos ho]
      exact ⟨fnum_lt (hch.lt _ f1) (by omega), (fnum_face (by omega)).1⟩
    · rw [shut p ho, hch.rest _ f1 ho]
      exact own.face p hp
  · obtain ⟨f1, f2, f3⟩ := face_of hp
    by_cases ho : IsOpen P bt (p / ga.n)
    · have m1 := (hch.mate _ f1 ho).1
      have e1 : mate P bt ga Q p = ga.n * Q (p / ga.n) + (ga.n - 1 - p % ga.n) := by unfold mate; rw [if_pos ho]
      rw [e1, mate_open (by omega) m1, hch.inv _ f1]
      omega
    · have h1 := own.face p hp
      rw [shut p ho, shut _ (by rw [h1.2]; exact keep p hp ho)]
      exact own.back p hp
  · obtain ⟨f1, f2, f3⟩ := face_of hp
    by_cases ho : IsOpen P bt (p / ga.n)
    · have := (hch.mate _ f1 ho).2.1
      rw [hq] at this
      exact absurd rfl this
    · rw [shut p ho]
      rw [hch.rest _ f1 ho] at hq
      exact own.self p hp hq
  · obtain ⟨f1, f2, f3⟩ := face_of hp
    by_cases ho : IsOpen P bt (p / ga.n)
    · obtain ⟨m1, -, m3, m4⟩ := hch.mate _ f1 ho
      have e1 : mate P bt ga Q p = ga.n * Q (p / ga.n) + (ga.n - 1 - p % ga.n) := by unfold mate; rw [if_pos ho]
      have hi' : ga.n - 1 - p % ga.n < ga.n := by omega
      obtain ⟨r1, r2⟩ := fnum_row (e := Q (p / ga.n)) hi'
      obtain ⟨s1, s2⟩ := fnum_row (e := p / ga.n) f3
      rw [← f2] at s1 s2
      have q1 := hch.lt _ f1
      have l1 := (hch.line _ f1 ho).1
      have l2 := (hch.line _ q1 m1).1
      have w1 := hw2 (p / ga.n / 3) (by omega) (p / ga.n % 3) (by omega) _ f3
      have w2 := hw2 (Q (p / ga.n) / 3) (by omega) (Q (p / ga.n) % 3) (by omega) _ hi'
      have n1 := hga.normal (p / ga.n / 3) (by omega) (p / ga.n % 3) (by omega) _ f3
      have n2 := hga.normal (Q (p / ga.n) / 3) (by omega) (Q (p / ga.n) % 3) (by omega) _ hi'
      have hseg : Ctx.segLen (faceEnds (g.tri (Q (p / ga.n) / 3)) (Q (p / ga.n) % 3)) = Ctx.segLen (faceEnds (g.tri (p / ga.n / 3)) (p / ga.n % 3)) := by
        unfold Grid.ends at l1 l2 m3 m4
        unfold Ctx.segLen hypot
        rw [l1, l2, m3, m4]
        congr 1
        ring
      constructor
      · unfold weightAt
        rw [e1, r1, r2, s1, s2, w1, w2, hw1 _ f3, hseg]
      · unfold normalAt
        rw [e1, r1, r2, s1, s2]
        rw [hseg] at n2
        unfold Grid.ends at l1 l2 m3 m4
        obtain ⟨a1, a2, a3⟩ := n1
        obtain ⟨b1, b2, -⟩ := n2
        rw [m3, m4] at b1
        rw [← l2] at b2
        rw [← l1] at a2
        refine Prod.ext ?_ ?_
        · refine mul_right_cancel₀ a3.ne' ?_
          simp only
          rw [b1, neg_mul, a1]
          ring
        · refine mul_right_cancel₀ a3.ne' ?_
          simp only
          rw [b2, neg_mul, a2]
          ring
    · rw [shut p ho]
      rw [hch.rest _ f1 ho] at hq
      exact own.opp p hp hq

/-- **C116, channel.** In a periodic channel whose Gauss points on outflow faces are at least 1e-3 apart, the index arrays of the Gauss points built by the driver pair every point of an outflow face with the
point at the same height on the other side, where the weight is the same and the normal opposite, and leave all other pairs as they were.  With these arrays a call of the right-hand side meets the hypotheses
of C115. -/
theorem C116_channel (hg : GridSpec P x bt g) (hga : GaussSpec g P bt NG ga) (hch : Channel g P bt Q left right) (hsp : Spread g P bt ga) (hex : ∃ e < 3 * g.K, IsOpen P bt e) (hpos : 1 ≤ NG) :
    ∃ gP σ, g.gaussPeriodic ga = .ok (ga.mapM, gP) ∧ FacePairs g ga Q gP σ ∧
      (∀ p < 3 * ga.n * g.K, IsOpen P bt (p / ga.n) → (pointAt ga (σ p)).2 = (pointAt ga p).2 ∧ (pointAt ga (σ p)).1 ≠ (pointAt ga p).1) ∧
      ∀ p < 3 * ga.n * g.K, ¬ IsOpen P bt (p / ga.n) → ga.mapP[p]? = some (σ p) := by
  have own := own_pairs hg hga
  have hpart := gauss_partners hg.posN hga hch hsp
  obtain rfl := hga.count
  have hlen : ga.mapP.length = 3 * ga.n * g.K := own.len
  obtain ⟨o, ho⟩ : ∃ o, ga.bc 2 = some o := by
    obtain ⟨e, he, h1, h2⟩ := hex
    rcases h : ga.bc 2 with _ | o
    · have := ((hga.tags 2).2 (ga.n * e)).2 ⟨e, 0, he, hpos, h1, h2, rfl⟩
      rw [h] at this
      simp at this
    · exact ⟨o, rfl⟩
  have hnod := (hga.tags 2).1
  have mem := (hga.tags 2).2
  rw [ho] at hpart hnod mem
  simp only [Option.getD_some] at hpart hnod mem
  have hr : ∀ p ∈ o, p < 3 * ga.n * g.K := by
    intro p hp
    obtain ⟨e, i, he, hi, -, -, rfl⟩ := (mem p).1 hp
    exact fnum_lt he hi
  obtain ⟨r, h1, h2, h3, -⟩ := C116_unique ga.mapM ga.mapP o _ _ (by rw [hga.mapM, hga.lenP, List.length_range]) hnod (fun i hi => by rw [flatG_length, flatG_length]; exact ⟨hr i hi, hr i hi⟩) hpart
  have hval : ∀ p < ga.mapP.length, r[p]? = some (mate P bt ga Q p) := by
    intro p hp
    have hp' : p < 3 * ga.n * g.K := by omega
    rw [h3 p hp]
    have e0 : ga.mapM.getD p 0 = p := by
      rw [hga.mapM, List.getD_eq_getElem?_getD, List.getElem?_range (by rwa [hga.lenP] at hp)]
      rfl
    rw [e0]
    split_ifs with hm
    · rfl
    · congr 1
      unfold mate
      rw [if_neg]
      intro hop
      obtain ⟨f1, f2, f3⟩ := face_of hp'
      exact hm ((mem p).2 ⟨_, _, f1, f3, hop.1, hop.2, f2⟩)
  refine ⟨r, mate P bt ga Q, ?_, open_pairs hg hga hch h2 hval, fun p hp hop => ?_, fun p hp hno => ?_⟩
  · unfold Grid.gaussPeriodic
    rw [ho]
    obtain ⟨e, he, ho1, ho2⟩ := hex
    have hmem := (mem (ga.n * e + 0)).2 ⟨e, 0, he, hpos, ho1, ho2, rfl⟩
    obtain ⟨a, l, rfl⟩ : ∃ a l, o = a :: l := List.exists_cons_of_ne_nil (List.ne_nil_of_mem hmem)
    simp only
    rw [pick_getD _ _ (fun i hi => by rw [flatG_length]; exact hr i hi), pick_getD _ _ (fun i hi => by rw [flatG_length]; exact hr i hi), Out.bind_ok, Out.bind_ok, h1]
  · obtain ⟨f1, f2, f3⟩ := face_of hp
    obtain ⟨q1, q2, q3⟩ := mate_point hga hch f1 f3 hop
    have e1 : mate P bt ga Q p = ga.n * Q (p / ga.n) + (ga.n - 1 - p % ga.n) := by unfold mate; rw [if_pos hop]
    rw [← f2] at q1 q3
    rw [e1, q3, q1, q2]
    exact ⟨rfl, (hch.mate _ f1 hop).2.1⟩
  · unfold mate
    rw [if_neg hno, List.getElem?_eq_getElem (by omega), List.getD_eq_getElem _ _ (by omega)]

/-- Without an outflow face the arrays cannot be built. -/
theorem C116_no_open (hga : GaussSpec g P bt NG ga) (hno : ¬ ∃ e < 3 * g.K, IsOpen P bt e) : g.gaussPeriodic ga = .throws := by
  have mem := (hga.tags 2).2
  unfold Grid.gaussPeriodic
  rcases h : ga.bc 2 with _ | _ | ⟨a, l⟩
  · rfl
  · rfl
  · rw [h] at mem
    obtain ⟨e, -, he, -, h1, h2, -⟩ := (mem a).1 (by simp)
    exact absurd ⟨e, he, h1, h2⟩ hno

variable {ts : TriSolve} {NC : ℕ} {c : Cubature} {J : DMat ℝ} {curved : List ℕ}

/-- **C116, setup.** In a periodic channel the arrays built by the driver meet the hypotheses of the theorems of C115, if those of the Gauss face context do. -/
theorem C116_setup {σ₀ : ℕ → ℕ} (h : WeakSetup ts P bt g NC NG c ga J curved P ga.mapP σ₀) (hch : Channel g P bt Q left right) (hsp : Spread g P bt ga) (hex : ∃ e < 3 * g.K, IsOpen P bt e) :
    ∃ gP σ, g.gaussPeriodic ga = .ok (ga.mapM, gP) ∧ WeakSetup ts P bt g NC NG c ga J curved Q gP σ := by
  obtain ⟨x, hg⟩ := h.grid
  obtain ⟨gP, σ, h1, h2, -, -⟩ := C116_channel hg h.gauss hch hsp hex h.pos
  refine ⟨gP, σ, h1, h.grid, h.cub, h.gauss, h.pos, h2, h.wall, fun e he hw => ?_, h.chol, h.jac, h.solve⟩
  rw [hch.rest e he, hw.1]
  intro ho
  have := ho.2
  rw [hw.2] at this
  simp at this

/-- **C116, conservation in a channel.** In a periodic channel bounded by walls otherwise, the totals of the rates of volume and tracer vanish, up to the error of the cubature on elements listed as curved. -/
theorem C116_total {σ₀ : ℕ → ℕ} (h : WeakSetup ts P bt g NC NG c ga J curved P ga.mapP σ₀) (hch : Channel g P bt Q left right) (hsp : Spread g P bt ga) (hex : ∃ e < 3 * g.K, IsOpen P bt e)
    (hb : ∀ e < 3 * g.K, P e = e → IsWall P bt e ∨ IsOpen P bt e) (hNC : g.N ≤ NC) (grav f : ℝ) (CD zx zy : DMat ℝ) (q : Fields) (hN : DMat ℝ) :
    ∃ gM gP r n, g.gaussPeriodic ga = .ok (gM, gP) ∧ g.rhsWeak ts c ga grav f CD zx zy J curved gM gP q hN = .ok (r, n) ∧
      (∀ A, Pieces g r.h.at' A → |∑ k ∈ Finset.range g.K, over (g.tri k) (A k)| ≤ 2e-14 * ∑ k ∈ curved.toFinset, cross (g.tri k) / 4 * size (g.tri k) (A k)) ∧
      ∀ A, Pieces g n.at' A → |∑ k ∈ Finset.range g.K, over (g.tri k) (A k)| ≤ 2e-14 * ∑ k ∈ curved.toFinset, cross (g.tri k) / 4 * size (g.tri k) (A k) := by
  obtain ⟨gP, σ, h1, h2⟩ := C116_setup h hch hsp hex
  have hq : ∀ e < 3 * g.K, Q e = e → IsWall P bt e := by
    intro e he hq
    by_cases ho : IsOpen P bt e
    · have := (hch.mate e he ho).2.1
      rw [hq] at this
      exact absurd rfl this
    · rw [hch.rest e he ho] at hq
      exact (hb e he hq).resolve_right ho
  obtain ⟨r, n, h3⟩ := C115_total h2 hq hNC grav f CD zx zy q hN
  exact ⟨ga.mapM, gP, r, n, h1, h3⟩

/-! ### What goes wrong -/

theorem choose_cases (cs : List (List ℕ)) (i : ℕ) (l : List ℕ) : (∃ v, choosePartner cs i l = .ok v) ∨ choosePartner cs i l = .throws := by
  have hi : ∀ (l : List ℕ) n, (∃ v, item l n = .ok v) ∨ item l n = .throws := fun l n => by
    unfold item
    rcases l[n]? with _ | v
    · exact Or.inr rfl
    · exact Or.inl ⟨v, rfl⟩
  have hL : ∀ n, (∃ v, itemL cs n = .ok v) ∨ itemL cs n = .throws := fun n => by
    unfold itemL
    rcases cs[n]? with _ | v
    · exact Or.inr rfl
    · exact Or.inl ⟨v, rfl⟩
  have hc : ∀ (l : List ℕ) b, (∃ v, closeArr l b = .ok v) ∨ closeArr l b = .throws := fun l b => by
    rcases l with _ | ⟨a, _ | ⟨a', l⟩⟩
    · exact Or.inl ⟨_, rfl⟩
    · exact Or.inl ⟨_, rfl⟩
    · exact Or.inr rfl
  have bnd : ∀ {α β : Type} {a : Out α} {f : α → Out β}, ((∃ v, a = .ok v) ∨ a = .throws) → (∀ v, (∃ w, f v = .ok w) ∨ f v = .throws) → (∃ w, (a >>= f) = .ok w) ∨ (a >>= f) = .throws := by
    intro α β a f h1 h2
    rcases h1 with ⟨v, rfl⟩ | rfl
    · exact h2 v
    · exact Or.inr rfl
  unfold choosePartner
  split_ifs
  · exact hi l 0
  · refine bnd (hL _) fun n => bnd (hi _ _) fun l0 => bnd (hc _ _) fun b => ?_
    split_ifs
    · exact hi l 0
    · exact hi l 1
  · refine bnd (hL _) fun p => bnd (hi _ _) fun p0 => bnd (hi _ _) fun l0 => ?_
    split_ifs
    · exact hi l 0
    · refine bnd (hL _) fun n => bnd (hi _ _) fun n0 => ?_
      split_ifs
      · exact hi l 0
      · exact hi l 1
  · refine bnd (hL _) fun p => bnd (hi _ _) fun l0 => bnd (hc _ _) fun b => ?_
    split_ifs
    · exact hi l 0
    · exact hi l 1

theorem close_iff (a b : ℕ) : close a b = true ↔ |(a : ℤ) - b| ≤ 1 := by
  unfold close
  rw [decide_eq_true_iff, abs_le]
  omega

/-- **C116, choice.** Where a point has two or more candidates, the first of them, `a`, is taken if its number differs by at most one from the first candidate of the point before or after in the list, and the second one
otherwise.  The first and the last point look at their only neighbour in the list; that neighbour must have no more than one candidate, or the call raises. -/
theorem C116_choice (cs : List (List ℕ)) (i a b : ℕ) (r : List ℕ) :
    (∀ p ps n ns, 0 < i → cs[i - 1]? = some (p :: ps) → cs[i + 1]? = some (n :: ns) →
      choosePartner cs i (a :: b :: r) = .ok (if |(p : ℤ) - a| ≤ 1 ∨ |(n : ℤ) - a| ≤ 1 then a else b)) ∧
    (∀ j, i = 0 ∧ j = 1 ∨ 0 < i ∧ i + 1 = cs.length ∧ j + 1 = i →
      (∀ p, cs[j]? = some [p] → choosePartner cs i (a :: b :: r) = .ok (if |(p : ℤ) - a| ≤ 1 then a else b)) ∧
      (cs[j]? = some [] → choosePartner cs i (a :: b :: r) = .ok b) ∧ ∀ p p' ps, cs[j]? = some (p :: p' :: ps) → choosePartner cs i (a :: b :: r) = .throws) := by
  have hlen : (a :: b :: r).length ≠ 1 := by simp
  have i0 : item (a :: b :: r) 0 = .ok a := rfl
  have i1 : item (a :: b :: r) 1 = .ok b := rfl
  constructor
  · intro p ps n ns hi hp hn
    have hlt : i < cs.length - 1 := by have := (List.getElem?_eq_some_iff.1 hn).1; omega
    have e1 : itemL cs (i - 1) = .ok (p :: ps) := by unfold itemL; rw [hp]
    have e2 : itemL cs (i + 1) = .ok (n :: ns) := by unfold itemL; rw [hn]
    have e3 : item (p :: ps) 0 = .ok p := rfl
    have e4 : item (n :: ns) 0 = .ok n := rfl
    unfold choosePartner
    rw [if_neg hlen, if_neg (by omega), if_pos hlt, e1, Out.bind_ok, e3, Out.bind_ok, i0, Out.bind_ok, e2, Out.bind_ok, e4, Out.bind_ok, i1]
    simp only [close_iff]
    by_cases h1 : |(p : ℤ) - a| ≤ 1 <;> by_cases h2 : |(n : ℤ) - a| ≤ 1 <;> simp [h1, h2]
  · intro j hj
    have key : ∀ l, cs[j]? = some l → choosePartner cs i (a :: b :: r) = closeArr l a >>= fun c => if c then .ok a else .ok b := by
      intro l hl
      have e : itemL cs j = .ok l := by unfold itemL; rw [hl]
      unfold choosePartner
      rcases hj with ⟨rfl, rfl⟩ | ⟨h0, h1, h2⟩
      · rw [if_neg hlen, if_pos rfl, e, Out.bind_ok, i0, Out.bind_ok, i1]
      · obtain rfl : j = i - 1 := by omega
        rw [if_neg hlen, if_neg (by omega), if_neg (by omega), e, Out.bind_ok, i0, Out.bind_ok, i1]
    refine ⟨fun p hp => ?_, fun hp => ?_, fun p p' ps hp => ?_⟩
    · rw [key _ hp]
      simp only [closeArr, Out.bind_ok, close_iff]
      by_cases h1 : |(p : ℤ) - a| ≤ 1 <;> simp [h1]
    · rw [key _ hp]; rfl
    · rw [key _ hp]; rfl

/-- Three points, the second with the candidates 7 and 9: beside a point paired with 8 the choice is 7, beside points paired with 10 and 12 it is 9. -/
example : choosePartner [[8], [7, 9], [12]] 1 [7, 9] = .ok 7 ∧ choosePartner [[10], [7, 9], [12]] 1 [7, 9] = .ok 9 :=
  ⟨(C116_choice [[8], [7, 9], [12]] 1 7 9 []).1 8 [] 12 [] (by norm_num) rfl rfl, (C116_choice [[10], [7, 9], [12]] 1 7 9 []).1 10 [] 12 [] (by norm_num) rfl rfl⟩

theorem choose_nil (cs : List (List ℕ)) (i : ℕ) : choosePartner cs i [] = .throws := by
  have hL : ∀ n, (∃ v, itemL cs n = .ok v) ∨ itemL cs n = .throws := fun n => by
    unfold itemL
    rcases cs[n]? with _ | v
    · exact Or.inr rfl
    · exact Or.inl ⟨v, rfl⟩
  have hi : ∀ (l : List ℕ) n, (∃ v, item l n = .ok v) ∨ item l n = .throws := fun l n => by
    unfold item
    rcases l[n]? with _ | v
    · exact Or.inr rfl
    · exact Or.inl ⟨v, rfl⟩
  have h0 : item [] 0 = .throws := rfl
  unfold choosePartner
  rw [if_neg (by simp)]
  split_ifs
  · rcases hL 1 with ⟨v, h⟩ | h <;> simp only [h, h0] <;> rfl
  · rcases hL (i - 1) with ⟨v, h⟩ | h
    · rcases hi v 0 with ⟨w, h'⟩ | h' <;> simp only [h, h0, Out.bind_ok, h'] <;> rfl
    · simp only [h]; rfl
  · rcases hL (i - 1) with ⟨v, h⟩ | h <;> simp only [h, h0] <;> rfl

theorem choose_throws (cs : List (List ℕ)) (l : List (List ℕ)) (i : ℕ) (h : [] ∈ l) : choosePartners cs i l = .throws := by
  induction l generalizing i with
  | nil => simp at h
  | cons a l ih =>
    unfold choosePartners
    rcases List.mem_cons.1 h with rfl | h
    · rw [choose_nil]; rfl
    · rcases choose_cases cs i a with ⟨v, hv⟩ | hv
      · rw [hv, Out.bind_ok, ih (i + 1) h]; rfl
      · rw [hv]; rfl

open Classical in
/-- **C116, no partner.** If a listed point has no other across from it, nothing is returned: the function raises. -/
theorem C116_unmatched (M V O : List ℕ) (x y : List ℝ) (hr : ∀ i ∈ O, i < x.length ∧ i < y.length) (hu : ∃ i ∈ O, ∀ j ∈ O, ¬ Across x y i j) :
    makePeriodic M V O x y (O.map fun j => x.getD j 0) (O.map fun j => y.getD j 0) = .throws := by
  obtain ⟨i, hi, hu⟩ := hu
  unfold makePeriodic
  rw [if_neg (by simp), candidates_eq O x y O hr, Out.bind_ok, choose_throws]
  · rfl
  · refine List.mem_map.2 ⟨i, hi, ?_⟩
    rw [List.filter_eq_nil_iff]
    intro j hj
    simpa using hu j hj

/-- The partner of `C116_unmatched` raising: two points of one side and none on the other. -/
example : ∃ i ∈ [0, 1], ∀ j ∈ [0, 1], ¬ Across [0, 0] [0, 10] i j := ⟨0, by simp, by simp [Across]⟩

/-- **C116, repeated points, refuted.** If a point is listed twice, points other than the two concerned are redirected to points not across from them, although every point has exactly one across. -/
theorem C116_repeated_false : ∃ (O : List ℕ) (x y : List ℝ) (π : ℕ → ℕ), (∀ i ∈ O, i < x.length ∧ i < y.length) ∧ Partners x y O π ∧
    ∃ r, makePeriodic [0, 1, 2, 3] [0, 1, 2, 3] O x y (O.map fun j => x.getD j 0) (O.map fun j => y.getD j 0) = .ok ([0, 1, 2, 3], r) ∧ ∃ i ∈ O, r[i]? ≠ some (π i) ∧ ∀ j, r[i]? = some j → ¬ Across x y i j := by
  have key : ∀ i ∈ [0, 0, 1, 2, 3], ∀ j ∈ [0, 0, 1, 2, 3], Across [0, 0, 2000, 2000] [0, 10, 0, 10] i j ↔ j = (i + 2) % 4 := by
    intro i hi j hj
    simp only [List.mem_cons, List.not_mem_nil, or_false] at hi hj
    rcases hi with rfl | rfl | rfl | rfl | rfl <;> rcases hj with rfl | rfl | rfl | rfl | rfl <;> simp [Across] <;> norm_num
  have hr : ∀ i ∈ [0, 0, 1, 2, 3], i < [(0 : ℝ), 0, 2000, 2000].length ∧ i < [(0 : ℝ), 10, 0, 10].length := by simp
  refine ⟨[0, 0, 1, 2, 3], [0, 0, 2000, 2000], [0, 10, 0, 10], fun i => (i + 2) % 4, hr, fun i hi => ⟨?_, ?_, fun j hj h => (key i hi j hj).1 h⟩, [2, 2, 3, 0], ?_, 1, by simp, by simp, ?_⟩
  · simp only [List.mem_cons, List.not_mem_nil, or_false] at hi
    rcases hi with rfl | rfl | rfl | rfl | rfl <;> simp
  · refine (key i hi _ ?_).2 rfl
    simp only [List.mem_cons, List.not_mem_nil, or_false] at hi
    rcases hi with rfl | rfl | rfl | rfl | rfl <;> simp
  · unfold makePeriodic
    have e : (([0, 0, 1, 2, 3] : List ℕ).map fun i => ([0, 0, 1, 2, 3] : List ℕ).filter fun j => decide (j = (i + 2) % 4)) = [[2], [2], [3], [0, 0], [1]] := by decide
    rw [if_neg (by simp), candidates_eq _ _ _ _ hr, Out.bind_ok]
    rw [List.map_congr_left (g := fun i => ([0, 0, 1, 2, 3] : List ℕ).filter fun j => decide (j = (i + 2) % 4)) fun i hi => List.filter_congr fun j hj => by
      rw [Bool.eq_iff_iff]; simp only [decide_eq_true_eq]; exact key i hi j hj, e]
    rfl
  · intro j hj
    have : j = 2 := by simpa using hj.symm
    subst this
    rw [key 1 (by simp) 2 (by simp)]
    norm_num

end Blitzdg.SW
