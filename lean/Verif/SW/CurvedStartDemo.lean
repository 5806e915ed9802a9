import Mathlib.Data.List.Sort
import Verif.SW.CurvedStartProps
import Verif.SW.PyMapsDemo

/-!
C156: a channel of four triangles with a straight upper wall, on which the set-up of sw2d_curved.py returns and lists one element as curved.
-/

namespace Blitzdg.SW

open MvPolynomial
open Blitzdg.Sparse (DMat)
open Blitzdg.Nodes1D (Lapack exactLapack exactLapack_ok)
open Blitzdg.DG2D
open Blitzdg.Ctx (Cubature GaussFace CubatureSpec GaussSpec atNode atPoint atGauss over pointAt size)

/-- An index sort exists. -/
noncomputable def argsort (l : List ℝ) : List ℕ := (List.range l.length).insertionSort fun i j => l.getD i 0 ≤ l.getD j 0

theorem argsort_ok (l : List ℝ) : Curved.IsArgsort l (argsort l) := by
  refine ⟨List.perm_insertionSort _ _, ?_⟩
  rw [List.pairwise_map]
  have : Std.Total fun i j : ℕ => l.getD i 0 ≤ l.getD j 0 := ⟨fun a b => le_total _ _⟩
  have : IsTrans ℕ fun i j : ℕ => l.getD i 0 ≤ l.getD j 0 := ⟨fun a b c => le_trans⟩
  exact List.pairwise_insertionSort _ _

/-- The channel from (0, 0) to (8000, 1000) as a fan of four triangles; the upper wall has corners at x = 4700 and x = 3300.  All boundary faces come with the tag of walls. -/
noncomputable def basin : Mesh where
  K := 4
  nv := 6
  ev := [0, 1, 2, 0, 2, 3, 0, 3, 4, 0, 4, 5]
  vert := [0, 0, 0, 8000, 0, 0, 8000, 1000, 0, 4700, 1000, 0, 3300, 1000, 0, 0, 1000, 0]
  E := [0, 0, 1, 0, 1, 2, 1, 2, 3, 2, 3, 3]
  F := [0, 1, 0, 2, 1, 0, 2, 1, 0, 2, 1, 2]
  bcType := [3, 3, 0, 0, 3, 0, 0, 3, 0, 0, 3, 3]

def basinP (e : ℕ) : ℕ := if e = 2 then 3 else if e = 3 then 2 else if e = 5 then 6 else if e = 6 then 5 else if e = 8 then 9 else if e = 9 then 8 else e
def basinQ (e : ℕ) : ℕ := if e = 1 then 11 else if e = 11 then 1 else basinP e

theorem basin_ok : basin.Ok basinP where
  conn := ⟨rfl, rfl, by decide, by decide, by decide, by decide, by decide⟩
  lenEv := rfl
  ltEv := by intro v hv; simp only [basin, List.mem_cons, List.not_mem_nil, or_false] at hv ⊢; omega
  lenVert := rfl
  lenBc := le_refl _
  ccw := by
    intro k hk
    have hk : k < 4 := hk
    interval_cases k <;> norm_num [cross, Mesh.tri, Mesh.corner, basin]
  meet := by
    intro e he hne
    have he : e < 12 := he
    interval_cases e <;> first | exact absurd rfl hne | (norm_num [basinP, faceEnds, Mesh.tri, Mesh.corner, basin])

theorem basin_ends : SW.Mesh.ends basin 0 = ((0, 0), (8000, 0)) ∧ SW.Mesh.ends basin 1 = ((8000, 0), (8000, 1000)) ∧ SW.Mesh.ends basin 2 = ((8000, 1000), (0, 0)) ∧
    SW.Mesh.ends basin 3 = ((0, 0), (8000, 1000)) ∧ SW.Mesh.ends basin 4 = ((8000, 1000), (4700, 1000)) ∧ SW.Mesh.ends basin 5 = ((4700, 1000), (0, 0)) ∧
    SW.Mesh.ends basin 6 = ((0, 0), (4700, 1000)) ∧ SW.Mesh.ends basin 7 = ((4700, 1000), (3300, 1000)) ∧ SW.Mesh.ends basin 8 = ((3300, 1000), (0, 0)) ∧
    SW.Mesh.ends basin 9 = ((0, 0), (3300, 1000)) ∧ SW.Mesh.ends basin 10 = ((3300, 1000), (0, 1000)) ∧ SW.Mesh.ends basin 11 = ((0, 1000), (0, 0)) := by
  refine ⟨?_, ?_, ?_, ?_, ?_, ?_, ?_, ?_, ?_, ?_, ?_, ?_⟩ <;> norm_num [SW.Mesh.ends, faceEnds, Mesh.tri, Mesh.corner, basin]

theorem basin_line (e : ℕ) (he : e < 12) : OnLine basin e ↔ e = 1 ∨ e = 11 := by
  obtain ⟨e0, e1, e2, e3, e4, e5, e6, e7, e8, e9, e10, e11⟩ := basin_ends
  unfold OnLine
  interval_cases e <;> simp only [e0, e1, e2, e3, e4, e5, e6, e7, e8, e9, e10, e11] <;> norm_num

theorem basin_channel : FileChannel basin basinP basinQ where
  ok := basin_ok
  tags := rfl
  between := by
    intro k hk j hj
    have hk : k < 4 := hk
    interval_cases k <;> interval_cases j <;> norm_num [Mesh.corner, basin]
  lt := by show ∀ e < 12, basinQ e < 12; decide
  inv := by show ∀ e < 12, basinQ (basinQ e) = e; decide
  rest := by
    intro e he hl
    have he : e < 12 := he
    rw [basin_line e he] at hl
    unfold basinQ
    rw [if_neg fun h => hl (Or.inl h), if_neg fun h => hl (Or.inr h)]
  mate := by
    intro e he hl
    have he : e < 12 := he
    obtain ⟨e0, e1, e2, e3, e4, e5, e6, e7, e8, e9, e10, e11⟩ := basin_ends
    rcases (basin_line e he).1 hl with rfl | rfl
    · rw [show basinQ 1 = 11 from rfl, e1, e11, basin_line 11 (by norm_num)]; norm_num
    · rw [show basinQ 11 = 1 from rfl, e1, e11, basin_line 1 (by norm_num)]; norm_num
  walls := by
    intro e he hp hl
    have he : e < 12 := he
    rw [basin_line e he] at hl
    interval_cases e <;> first | rfl | exact absurd hp (by decide)
  wall := ⟨0, by norm_num [basin], rfl, by rw [basin_line 0 (by norm_num)]; norm_num⟩
  lines := ⟨1, by norm_num [basin], by rw [basin_line 1 (by norm_num)]; norm_num⟩

theorem basin_numerics : Numerics exactLapack (1 / 2 ^ 52) 1e-10 1e-5 1 :=
  ⟨exactLapack_ok, by norm_num, by norm_num, by norm_num, by norm_num, by norm_num, by norm_num, le_refl _, by norm_num⟩

theorem basin_table : correctTable basin.ev basin.vert 2 basin.bcType = .ok [3, 2, 0, 0, 3, 0, 0, 3, 0, 0, 3, 2] := by
  obtain ⟨bc, h1, hok, h2⟩ := C117_channel basin_ok rfl basin_channel.between 2
  obtain ⟨bc', h1', hl, -⟩ := C117_table basin_ok rfl 2
  rw [h1, Out.ok.injEq] at h1'
  subst h1'
  have hl : bc.length = 12 := hl
  rw [h1]
  congr 1
  refine List.ext_getElem? fun e => ?_
  by_cases he : e < 12
  · have key := h2 e he
    change (OnLine basin e → _) ∧ (¬ OnLine basin e → _) at key
    rw [basin_line e he] at key
    interval_cases e <;> first | exact (key.1 (by norm_num)).2 | exact key.2 (by norm_num)
  · rw [List.getElem?_eq_none (by omega), List.getElem?_eq_none (by simp; omega)]

/-- The mesh after the correction of the tags. -/
noncomputable def basin2 : Mesh := { basin with bcType := [3, 2, 0, 0, 3, 0, 0, 3, 0, 0, 3, 2] }

theorem basin_grid : ∃ g x, Provisioned exactLapack (1 / 2 ^ 52) 1e-10 1e-5 1 basin2 basinP g ∧ GridSpec basinP x basin2.bcType g ∧ g.N = 1 ∧ g.K = 4 ∧ (∀ k < 4, g.tri k = basin.tri k) ∧ Curved.Placed 1 g.n x := by
  have hok : basin2.Ok basinP := ⟨basin_ok.conn, basin_ok.lenEv, basin_ok.ltEv, basin_ok.lenVert, by simp [basin2, basin], basin_ok.ccw, basin_ok.meet⟩
  rcases C47_grid_low exactLapack exactLapack_ok (1 / 2 ^ 52) (by norm_num) (by norm_num) 1e-10 1e-5 (by norm_num) (by norm_num) (by norm_num) (by norm_num) 1 le_rfl (by norm_num) basin2 basinP hok with
    ⟨h, -⟩ | ⟨g, hg⟩
  · obtain ⟨x, hx⟩ := exact_gll (1 / 2 ^ 52) (by norm_num) (by norm_num) 1 le_rfl
    exact absurd hx (h x)
  obtain ⟨x, hs, hN, hK, ht⟩ := hg.spec
  obtain ⟨z, hp⟩ := start_placed basin_numerics hg.built
  have hz : ∀ i ≤ 1, z.getD i 0 = x.getD i 0 := by
    intro i hi
    have h1 := hp.pt 0 (by norm_num) i hi
    have h2 := hs.maskPt 0 (by norm_num) i (by omega)
    rw [h1] at h2
    simpa [triFacePt] using h2
  refine ⟨g, x, hg, hs, hN, hK, ht, hp.len, hp.lt, fun f hf j hj => ?_, fun i j hij hj => ?_, ?_, ?_⟩
  · rw [← hz j hj]; exact hp.pt f hf j hj
  · rw [← hz j hj, ← hz i (by omega)]; exact hp.inc i j hij hj
  · rw [← hz 0 (by norm_num)]; exact hp.first
  · rw [← hz 1 le_rfl]; exact hp.last

/-- The nodes of a face are its two corners. -/
theorem basin_nodes {g : Grid} {x : List ℝ} (ht : ∀ k < 4, g.tri k = basin.tri k) (hp : Curved.Placed 1 g.n x) (e : ℕ) (he : e < 12) :
    g.faceNode e 0 = (if e % 3 = 2 then (SW.Mesh.ends basin e).2 else (SW.Mesh.ends basin e).1) ∧ g.faceNode e 1 = (if e % 3 = 2 then (SW.Mesh.ends basin e).1 else (SW.Mesh.ends basin e).2) := by
  have hf : e % 3 < 3 := Nat.mod_lt _ (by norm_num)
  have key : ∀ i ≤ 1, g.faceNode e i = lerp (SW.Mesh.ends basin e) (ori (e % 3) (x.getD i 0)) := by
    intro i hi
    show (gridX (g.tri (e / 3)) g.n _, gridY (g.tri (e / 3)) g.n _) = _
    rw [face_point _ _ _ _ hf _ (hp.pt _ hf i hi), ht _ (by omega)]
    rfl
  rw [key 0 (by norm_num), key 1 le_rfl, hp.first, hp.last]
  by_cases h : e % 3 = 2
  · rw [if_pos h, if_pos h]; constructor <;> simp [lerp, ori, h]
  · rw [if_neg h, if_neg h]; constructor <;> simp [lerp, ori, h]

/-- The upper wall between the two corners in the window, by its length from x = 3300. -/
def topWall (t : ℝ) : ℝ × ℝ := (3300 + t, 1000)

/-- The samples of the wall. -/
noncomputable def topCurve : List (ℝ × ℝ) := (Curved.linspace 0 1400 4096).map topWall

/-- On a level polygon running to the right the arc length is the difference of the abscissae. -/
theorem level_length {p : List (ℝ × ℝ)} (hs : p.Pairwise fun a b => a.1 ≤ b.1) (hy : ∀ q ∈ p, q.2 = 1000) (i : ℕ) (hi : i < p.length) : Curved.lengthTo p i = (Curved.nth p i).1 - (Curved.nth p 0).1 := by
  have get : ∀ j (hj : j < p.length), Curved.nth p j = p[j] := fun j hj => by unfold Curved.nth; rw [List.getD_eq_getElem _ _ hj]
  induction i with
  | zero => simp [Curved.lengthTo]
  | succ i ih =>
    rw [Curved.lengthTo_succ, ih (by omega)]
    have h1 := List.pairwise_iff_getElem.1 hs i (i + 1) (by omega) hi (by omega)
    have e : Curved.apart (Curved.nth p i) (Curved.nth p (i + 1)) = (Curved.nth p (i + 1)).1 - (Curved.nth p i).1 := by
      unfold Curved.apart
      rw [get i (by omega), get (i + 1) hi, hy _ (List.getElem_mem _), hy _ (List.getElem_mem _), sub_self, ← neg_sq, neg_sub]
      rw [show (0 : ℝ) ^ 2 = 0 by norm_num, add_zero, Real.sqrt_sq (by linarith)]
    rw [e]
    ring

/-- The nodes in the window are the two corners. -/
theorem basin_top {g : Grid} {x : List ℝ} (hs : GridSpec basinP x basin2.bcType g) (hN : g.N = 1) (hK : g.K = 4) (ht : ∀ k < 4, g.tri k = basin.tri k) (hp : Curved.Placed 1 g.n x) :
    ∃ w, g.wallPoints = .ok w ∧ ∀ p, p ∈ Curved.topPoints w ↔ p = (3300, 1000) ∨ p = (4700, 1000) := by
  obtain ⟨w, h1, h2⟩ := (wall_points hs).2 ⟨0, by omega, rfl⟩
  refine ⟨w, h1, fun p => ?_⟩
  obtain ⟨e0, e1, e2, e3, e4, e5, e6, e7, e8, e9, e10, e11⟩ := basin_ends
  unfold Curved.topPoints
  rw [List.mem_filter, h2, hN, hK]
  constructor
  · rintro ⟨⟨e, he, i, hi, htag, rfl⟩, hq⟩
    obtain ⟨n0, n1⟩ := basin_nodes ht hp e he
    have hq := of_decide_eq_true hq
    have he : e < 12 := he
    have hc : e = 0 ∨ e = 4 ∨ e = 7 ∨ e = 10 := by
      clear hq n0 n1
      interval_cases e <;> simp [basin2] at htag ⊢
    have hi' : i = 0 ∨ i = 1 := by omega
    rcases hc with rfl | rfl | rfl | rfl <;> rcases hi' with rfl | rfl
    all_goals first | rw [n0] at hq ⊢ | rw [n1] at hq ⊢
    all_goals
      simp only [e0, e4, e7, e10] at hq ⊢
      first | (norm_num at hq; done) | norm_num
  · obtain ⟨n0, n1⟩ := basin_nodes ht hp 7 (by norm_num)
    rw [e7] at n0 n1
    rintro (rfl | rfl)
    · exact ⟨⟨7, by norm_num, 1, le_rfl, rfl, by rw [n1]; norm_num⟩, decide_eq_true (by norm_num)⟩
    · exact ⟨⟨7, by norm_num, 0, by norm_num, rfl, by rw [n0]; norm_num⟩, decide_eq_true (by norm_num)⟩

/-- The arc length of the sorted nodes runs from 0 to 1400. -/
theorem basin_arc {w : List (ℝ × ℝ)} (hw : ∀ p, p ∈ Curved.topPoints w ↔ p = (3300, 1000) ∨ p = (4700, 1000)) {o : List ℕ} (ho : Curved.IsArgsort ((Curved.topPoints w).map Prod.fst) o) :
    Curved.takeOrder (Curved.topPoints w) o ≠ [] ∧ (Curved.arcLength (Curved.takeOrder (Curved.topPoints w) o)).getD 0 0 = 0 ∧
      (Curved.arcLength (Curved.takeOrder (Curved.topPoints w) o)).getD ((Curved.arcLength (Curved.takeOrder (Curved.topPoints w) o)).length - 1) 0 = 1400 := by
  obtain ⟨hperm, hsort⟩ := Curved.order_perm ho
  generalize Curved.takeOrder (Curved.topPoints w) o = p at hperm hsort ⊢
  have hm : ∀ q, q ∈ p ↔ q = (3300, 1000) ∨ q = (4700, 1000) := fun q => hperm.mem_iff.trans (hw q)
  have hne : p ≠ [] := List.ne_nil_of_mem ((hm _).2 (Or.inl rfl))
  have hlen : 0 < p.length := List.length_pos_iff.2 hne
  obtain ⟨a1, a2, a3, -⟩ := Curved.C140_arc p hne
  refine ⟨hne, a2, ?_⟩
  have get : ∀ j (hj : j < p.length), Curved.nth p j = p[j] := fun j hj => by unfold Curved.nth; rw [List.getD_eq_getElem _ _ hj]
  rw [a1, a3 _ (by omega), level_length hsort (fun q hq => by rcases (hm q).1 hq with rfl | rfl <;> rfl) _ (by omega), get _ (by omega), get 0 hlen]
  have le : ∀ i j (hi : i < p.length) (hj : j < p.length), i ≤ j → p[i].1 ≤ p[j].1 := by
    intro i j hi hj hij
    rcases Nat.lt_or_eq_of_le hij with h | rfl
    · exact List.pairwise_iff_getElem.1 hsort i j hi hj h
    · exact le_rfl
  obtain ⟨i, hi, ei⟩ := List.getElem_of_mem ((hm _).2 (Or.inl rfl))
  obtain ⟨j, hj, ej⟩ := List.getElem_of_mem ((hm _).2 (Or.inr rfl))
  have l1 := le 0 i hlen hi (Nat.zero_le _)
  have l2 := le j (p.length - 1) hj (by omega) (by omega)
  rw [ei] at l1
  rw [ej] at l2
  have b1 := (hm p[0]).1 (List.getElem_mem hlen)
  have b2 := (hm p[p.length - 1]).1 (List.getElem_mem _)
  rcases b1 with b1 | b1 <;> rcases b2 with b2 | b2 <;> rw [b1] at l1 ⊢ <;> rw [b2] at l2 ⊢ <;> first | (norm_num at l1; done) | (norm_num at l2; done) | norm_num

/-! ### The samples -/

theorem sample (i : ℕ) (hi : i < 4096) : topCurve[i]? = some (3300 + (i : ℝ) * (1400 / 4095), 1000) := by
  unfold topCurve Curved.linspace topWall
  rw [List.getElem?_map, List.getElem?_map, List.getElem?_range hi]
  simp only [Option.map_some]
  by_cases h : i + 1 = 4096
  · obtain rfl : i = 4095 := by omega
    norm_num
  · rw [if_neg h]
    norm_num

theorem parameter (i : ℕ) (hi : i < 4096) : (Curved.linspace 0 1400 4096)[i]? = some (i * (1400 / 4095) : ℝ) := by
  unfold Curved.linspace
  rw [List.getElem?_map, List.getElem?_range hi]
  simp only [Option.map_some]
  by_cases h : i + 1 = 4096
  · obtain rfl : i = 4095 := by omega
    norm_num
  · rw [if_neg h]
    norm_num

theorem topCurve_length : topCurve.length = 4096 := by simp [topCurve, Curved.linspace]

theorem sample_mem (q : ℝ × ℝ) (hq : q ∈ topCurve) : ∃ i : ℕ, i < 4096 ∧ q = (3300 + (i : ℝ) * (1400 / 4095), 1000) := by
  obtain ⟨i, hi, rfl⟩ := List.getElem_of_mem hq
  rw [topCurve_length] at hi
  refine ⟨i, hi, ?_⟩
  have := sample i hi
  rw [List.getElem?_eq_getElem (by rw [topCurve_length]; exact hi)] at this
  exact Option.some.inj this

theorem eucl_sq (p q : ℝ × ℝ) {d : ℝ} (hd : 0 ≤ d) : Curved.eucl p q ≤ d ↔ (p.1 - q.1) ^ 2 + (p.2 - q.2) ^ 2 ≤ d ^ 2 := by
  unfold Curved.eucl
  rw [Real.sqrt_le_left hd]

theorem close_end (i : ℕ) (hi : i < 4096) : Curved.Close topCurve (3300 + (i : ℝ) * (1400 / 4095), 1000) :=
  ⟨_, List.mem_of_getElem? (sample i hi), by rw [Curved.eucl_self]; norm_num⟩

theorem not_close {v : ℝ × ℝ} (h : v.1 ≤ 3000 ∨ 5000 ≤ v.1 ∨ v.2 ≤ 700) : ¬ Curved.Close topCurve v := by
  rintro ⟨q, hq, hd⟩
  obtain ⟨i, hi, rfl⟩ := sample_mem q hq
  rw [eucl_sq _ _ (by norm_num)] at hd
  have h0 : (0 : ℝ) ≤ i := Nat.cast_nonneg _
  have h1 : (i : ℝ) ≤ 4095 := by exact_mod_cast Nat.lt_succ_iff.1 hi
  simp only at hd
  rcases h with h | h | h
  · nlinarith [sq_nonneg (v.2 - 1000), sq_nonneg (v.1 - (3300 + (i : ℝ) * (1400 / 4095)))]
  · nlinarith [sq_nonneg (v.2 - 1000), sq_nonneg (v.1 - (3300 + (i : ℝ) * (1400 / 4095)))]
  · nlinarith [sq_nonneg (v.2 - 1000), sq_nonneg (v.1 - (3300 + (i : ℝ) * (1400 / 4095)))]

theorem only_at (m : ℕ) (hm : m < 4096) : Curved.OnlyAt topCurve (3300 + (m : ℝ) * (1400 / 4095), 1000) m := by
  refine ⟨sample m hm, fun j q hj hne => ?_⟩
  have hj' : j < 4096 := by rw [← topCurve_length]; exact (List.getElem?_eq_some_iff.1 hj).1
  rw [sample j hj'] at hj
  obtain rfl := Option.some.inj hj
  have h1 : (1 : ℝ) ≤ |(m : ℝ) - j| := by
    have : (1 : ℤ) ≤ |(m : ℤ) - j| := Int.one_le_abs (by omega)
    exact_mod_cast this
  unfold Curved.eucl
  apply Real.le_sqrt_of_sq_le
  simp only [sub_self, add_sub_add_left_eq_sub]
  rw [← sub_mul, mul_pow, ← sq_abs ((m : ℝ) - j)]
  nlinarith [h1]

theorem nearest_self {curve : List (ℝ × ℝ)} {p p' : ℝ × ℝ} (hp : p ∈ curve) (h : Curved.Nearest curve p p') : p' = p := by
  obtain ⟨i, -, h, -⟩ := h
  have := h p hp
  rw [Curved.eucl_self] at this
  unfold Curved.eucl at this
  have h0 := Real.sqrt_eq_zero'.1 (le_antisymm this (Real.sqrt_nonneg _))
  have h1 : (p.1 - p'.1) ^ 2 = 0 := by nlinarith [sq_nonneg (p.1 - p'.1), sq_nonneg (p.2 - p'.2)]
  have h2 : (p.2 - p'.2) ^ 2 = 0 := by nlinarith [sq_nonneg (p.1 - p'.1), sq_nonneg (p.2 - p'.2)]
  rw [sq_eq_zero_iff, sub_eq_zero] at h1 h2
  exact Prod.ext h1.symm h2.symm

/-- One face is fitted, and its corners stay where they are. -/
theorem basin_snapped : ∃ a, Curved.adjustStraightEdges basin.points basin.elements (bcFaces basin.K 3 [3, 2, 0, 0, 3, 0, 0, 3, 0, 0, 3, 2]) topCurve 3 = .ok a ∧ a.faces = [(2, 1)] ∧
    a.verts[3]? = some (4700, 1000) ∧ a.verts[4]? = some (3300, 1000) := by
  classical
  have hne : topCurve ≠ [] := by
    intro e
    have := topCurve_length
    rw [e] at this
    simp at this
  obtain ⟨a, h1, hr⟩ := Curved.C112_result basin.points basin.elements 3 topCurve _ hne (faces_ok basin_ok [3, 2, 0, 0, 3, 0, 0, 3, 0, 0, 3, 2])
  have hD : ((4700 : ℝ), (1000 : ℝ)) ∈ topCurve := by
    have := List.mem_of_getElem? (sample 4095 (by norm_num))
    norm_num at this
    exact this
  have hE : ((3300 : ℝ), (1000 : ℝ)) ∈ topCurve := by
    have := List.mem_of_getElem? (sample 0 (by norm_num))
    norm_num at this
    exact this
  have cl : ∀ v ∈ topCurve, Curved.Close topCurve v := fun v hv => ⟨v, hv, by rw [Curved.eucl_self]; norm_num⟩
  obtain ⟨e0, e1, e2, e3, e4, e5, e6, e7, e8, e9, e10, e11⟩ := basin_ends
  have near : ∀ k f, k < 4 → f < 3 → _ := fun k f hk hf => nearCurve_iff basin_ok topCurve (k := k) (f := f) hk hf
  have n00 : ¬ Curved.NearCurve basin.points basin.elements 3 topCurve (0, 0) := by
    rw [near 0 0 (by norm_num) (by norm_num), e0]; exact fun h => not_close (by norm_num) h.1
  have n01 : ¬ Curved.NearCurve basin.points basin.elements 3 topCurve (0, 1) := by
    rw [near 0 1 (by norm_num) (by norm_num), e1]; exact fun h => not_close (by norm_num) h.1
  have n11 : ¬ Curved.NearCurve basin.points basin.elements 3 topCurve (1, 1) := by
    rw [near 1 1 (by norm_num) (by norm_num), e4]; exact fun h => not_close (by norm_num) h.1
  have n21 : Curved.NearCurve basin.points basin.elements 3 topCurve (2, 1) := by
    rw [near 2 1 (by norm_num) (by norm_num), e7]; exact ⟨cl _ hD, cl _ hE⟩
  have n31 : ¬ Curved.NearCurve basin.points basin.elements 3 topCurve (3, 1) := by
    rw [near 3 1 (by norm_num) (by norm_num), e10]; exact fun h => not_close (by norm_num) h.2
  have n32 : ¬ Curved.NearCurve basin.points basin.elements 3 topCurve (3, 2) := by
    rw [near 3 2 (by norm_num) (by norm_num), e11]; exact fun h => not_close (by norm_num) h.1
  have hfaces : a.faces = [(2, 1)] := by
    rw [hr.faces, show bcFaces basin.K 3 [3, 2, 0, 0, 3, 0, 0, 3, 0, 0, 3, 2] = [(0, 0), (0, 1), (1, 1), (2, 1), (3, 1), (3, 2)] by decide]
    simp only [List.filter_cons, List.filter_nil, n00, n01, n11, n21, n31, n32, decide_true, decide_false, if_true, Bool.false_eq_true, if_false]
  have hend : ∀ v, v = 3 ∨ v = 4 → Curved.EndOf basin.elements 3 a.faces v := by
    rintro v hv
    rw [hfaces]
    exact ⟨(2, 1), by simp, 3, 4, ⟨_, rfl, rfl, rfl⟩, hv⟩
  have p3 : basin.points[3]? = some (4700, 1000) := by rw [points_get basin (by norm_num [basin])]; norm_num [basin]
  have p4 : basin.points[4]? = some (3300, 1000) := by rw [points_get basin (by norm_num [basin])]; norm_num [basin]
  obtain ⟨q3, a3, b3, -⟩ := hr.moved 3 _ p3 (hend 3 (Or.inl rfl))
  obtain ⟨q4, a4, b4, -⟩ := hr.moved 4 _ p4 (hend 4 (Or.inr rfl))
  rw [nearest_self hD b3] at a3
  rw [nearest_self hE b4] at a4
  exact ⟨a, h1, hfaces, a3, a4⟩

/-- On this mesh the set-up returns and hands on element 2 as curved. -/
theorem basin_start : ∃ s x, curvedStart exactLapack (1 / 2 ^ 52) 1e-10 1e-5 1 argsort (fun _ _ => .ok topWall) basin = .ok s ∧ s.els = [2] ∧ s.bc = basin2.bcType ∧
    Provisioned exactLapack (1 / 2 ^ 52) 1e-10 1e-5 1 basin2 basinP s.grid ∧ GridSpec basinP x basin2.bcType s.grid ∧ s.grid.N = 1 ∧ s.grid.K = 4 ∧ ∀ k < 4, s.grid.tri k = basin.tri k := by
  obtain ⟨g, x, hg, hs, hN, hK, ht, hp⟩ := basin_grid
  obtain ⟨w, hw, htop⟩ := basin_top hs hN hK ht hp
  obtain ⟨hne, ha0, ha1⟩ := basin_arc htop (argsort_ok _)
  obtain ⟨q, hq, -⟩ := (Curved.C140_resampled w (argsort ((Curved.topPoints w).map Prod.fst))).2 hne
  obtain ⟨a, hsnap, hfaces, v3, v4⟩ := basin_snapped
  obtain ⟨e0, e1, e2, e3, e4, e5, e6, e7, e8, e9, e10, e11⟩ := basin_ends
  obtain ⟨F, hF, -⟩ := hs.filter_total (0.9 * (1 : ℕ)) (by positivity) (by rw [hN]; norm_num) 4 (by norm_num)
  obtain ⟨i, k, hc, -⟩ := (Curved.C140_centre g.np g.K g.pyX.at' g.pyY.at').1 ⟨g.n.mask 0 0, hs.maskLt 0 (by norm_num) 0 (Nat.zero_le _), 0, by omega, by
    have := (basin_nodes ht hp 0 (by norm_num)).1
    rw [e0] at this
    simp only [Nat.zero_mod, OfNat.zero_ne_ofNat, if_false] at this
    show Curved.apart (g.faceNode 0 0) (0, 0) < 19
    rw [this, Curved.apart_self]
    norm_num⟩
  obtain ⟨n0, n1⟩ := basin_nodes ht hp 7 (by norm_num)
  rw [e7] at n0 n1
  norm_num at n0 n1
  obtain ⟨s', pre, X, Y, hd, -⟩ := Curved.C113_dropped_partial exactLapack exactLapack_ok g.n 1 x hp (fun j hj => by
      obtain rfl : j = 0 := by omega
      rw [hp.first]; norm_num) a.verts basin.elements topCurve (Curved.linspace 0 1400 4096) topWall ⟨g.pyX, g.pyY, [], []⟩ 2 1 (by norm_num) [0, 3, 4] rfl 3 4 rfl rfl (4700, 1000) (3300, 1000) v3 v4
      4095 0 (by norm_num) (by have := only_at 4095 (by norm_num); norm_num at this; exact this) (by have := only_at 0 (by norm_num); norm_num at this; exact this) 1400 0
      (by have := parameter 4095 (by norm_num); norm_num at this; exact this) (by have := parameter 0 (by norm_num); norm_num at this; exact this) (by show 2 < g.K; omega) (by show 2 < g.K; omega)
      (by rw [show topWall 1400 = (4700, 1000) by norm_num [topWall]]; exact n0.symm) (by rw [show topWall 0 = (3300, 1000) by norm_num [topWall]]; exact n1.symm)
  have hblend : ∃ m, Curved.deformAndBlend exactLapack g.n 1 ((1 : ℕ) : ℤ) a.verts basin.elements topCurve (Curved.linspace 0 1400 4096) topWall g.pyX g.pyY a.faces = .ok m := by
    unfold Curved.deformAndBlend
    rw [hfaces, loopM_cons, hd, Out.bind_ok, loopM_nil, Out.bind_ok]
    simp only [Curved.Mem.readX, Curved.Mem.readY]
    rw [Curved.index_some (a := s'.cx) (by simp), Out.bind_ok, Curved.index_some (a := s'.cy) (by simp), Out.bind_ok]
    exact ⟨_, rfl⟩
  obtain ⟨⟨X', Y', els, mem⟩, hblend⟩ := hblend
  obtain ⟨rfl, rfl, -, -, hels⟩ := Curved.C113_no_effect hblend
  obtain ⟨X2, hX, -⟩ := Py.C95_coordinates_partial g.pyX ⟨Py.storage g.pyX, 0, g.pyX.rows, g.pyX.cols, g.pyX.cols, 1⟩ ⟨rfl, rfl, by simp [Py.storage_length]⟩ rfl rfl
  obtain ⟨Y2, hY, -⟩ := Py.C95_coordinates_partial g.pyY ⟨Py.storage g.pyY, 0, g.pyY.rows, g.pyY.cols, g.pyY.cols, 1⟩ ⟨rfl, rfl, by simp [Py.storage_length]⟩ rfl rfl
  refine ⟨⟨basin2.bcType, g, topCurve, a.verts, els, X2, Y2⟩, x, ?_, by rw [hels, hfaces]; rfl, rfl, hg, hs, hN, hK, ht⟩
  unfold curvedStart
  rw [basin_table, Out.bind_ok, show buildGrid exactLapack (1 / 2 ^ 52) 1e-10 1e-5 1 { basin with bcType := [3, 2, 0, 0, 3, 0, 0, 3, 0, 0, 3, 2] } = .ok g from hg.built, Out.bind_ok, hF, Out.bind_ok, hc, Out.bind_ok, hw, Out.bind_ok]
  dsimp only
  rw [hq, Out.bind_ok, Out.bind_ok, ha0, ha1]
  rw [show (Curved.linspace 0 1400 4096).map topWall = topCurve from rfl, hsnap, Out.bind_ok]
  rw [hblend, Out.bind_ok]
  dsimp only
  rw [hX, Out.bind_ok, hY, Out.bind_ok]
  rfl

/-- Two Gauss points on each face of the mesh. -/
theorem basin_points {g : Grid} {ga : GaussFace} (hK : g.K = 4) (ht : ∀ k < 4, g.tri k = basin.tri k) (hga : GaussSpec g basinP basin2.bcType 2 ga) :
    ∃ z : ℝ, z ^ 2 = 1 / 3 ∧ 0 < z ∧ ∀ e < 12, pointAt ga (2 * e) = lerp (g.ends e) (-z) ∧ pointAt ga (2 * e + 1) = lerp (g.ends e) z := by
  have hn := hga.count
  obtain ⟨z, h1, h2, h3, h4⟩ := hga.place
  obtain ⟨w, w1, w2⟩ := hga.weights
  have z0 : z 0 = -z 1 := by have := h3 1 (by norm_num); simpa using this
  have ww : w 0 = w 1 := by have := w1 1 (by norm_num); simpa using this
  have zlt := h2 0 1 (by norm_num) (by norm_num)
  have e1 : faceEnds (g.tri 0) 1 = ((8000, 0), (8000, 1000)) := by
    rw [ht 0 (by norm_num)]
    exact basin_ends.2.1
  have seg : Ctx.segLen (faceEnds (g.tri 0) 1) = 1000 := by
    rw [e1]
    unfold Ctx.segLen hypot
    norm_num
    rw [show (1000000 : ℝ) = 1000 ^ 2 by norm_num, Real.sqrt_sq (by norm_num)]
  have q0 := hga.quad 1 (by simp) 0 (by omega) 1 (by norm_num)
  have q2 := hga.quad (X 1 ^ 2) ((totalDegree_pow _ _).trans (by rw [totalDegree_X]; norm_num)) 0 (by omega) 1 (by norm_num)
  have pt : ∀ i < 2, ga.y.at' (1 * 2 + i) 0 = 500 * (1 + z i) := by
    intro i hi
    have := congrArg Prod.snd (h4 0 (by omega) 1 (by norm_num) i hi)
    rw [e1] at this
    simp only [lerp] at this
    rw [this]
    ring
  have p0 := pt 0 (by norm_num)
  have p1 := pt 1 (by norm_num)
  have v0 := w2 0 (by omega) 1 (by norm_num) 0 (by norm_num)
  have v1 := w2 0 (by omega) 1 (by norm_num) 1 (by norm_num)
  rw [seg] at v0 v1
  unfold Ctx.along at q0 q2
  rw [seg, e1] at q0 q2
  simp only [Finset.sum_range_succ, Finset.sum_range_zero, zero_add, atGauss, lerp] at q0 q2
  simp only [ev, map_one, map_pow, eval_X, Matrix.cons_val_one, Matrix.cons_val_zero] at q0 q2
  rw [v0, v1, ww] at q0 q2
  rw [p0, p1] at q2
  have i2 : ∫ t in (-1 : ℝ)..1, ((1 - t) / 2 * 0 + (1 + t) / 2 * 1000) ^ 2 = 2000000 / 3 := by
    have e : ∀ t : ℝ, ((1 - t) / 2 * 0 + (1 + t) / 2 * 1000) ^ 2 = 250000 + 500000 * t + 250000 * t ^ 2 := fun t => by ring
    simp only [e]
    rw [intervalIntegral.integral_add ((by fun_prop : Continuous _).intervalIntegrable _ _) ((by fun_prop : Continuous _).intervalIntegrable _ _),
      intervalIntegral.integral_add ((by fun_prop : Continuous _).intervalIntegrable _ _) ((by fun_prop : Continuous _).intervalIntegrable _ _), intervalIntegral.integral_const_mul,
      intervalIntegral.integral_const_mul]
    simp
    norm_num
  rw [i2] at q2
  simp only [intervalIntegral.integral_const] at q0
  norm_num at q0 q2
  have hw : w 1 = 1 := by linarith
  rw [hw, z0] at q2
  refine ⟨z 1, by nlinarith, by linarith, fun e he => ?_⟩
  obtain ⟨r1, r2⟩ := fnum_row (ga := ga) (e := e) (i := 0) (by omega)
  obtain ⟨s1, s2⟩ := fnum_row (ga := ga) (e := e) (i := 1) (by omega)
  rw [hn] at r1 r2 s1 s2
  unfold pointAt Grid.ends
  rw [hn, s1, s2, show 2 * e = 2 * e + 0 from rfl, r1, r2, h4 (e / 3) (by omega) (e % 3) (by omega) 0 (by norm_num), h4 (e / 3) (by omega) (e % 3) (by omega) 1 (by norm_num), z0]
  exact ⟨rfl, rfl⟩

theorem basin_open (e : ℕ) (he : e < 12) : IsOpen basinP basin2.bcType e ↔ e = 1 ∨ e = 11 := by
  interval_cases e <;> simp [IsOpen, basinP, basin2]

theorem basin_spread {g : Grid} {ga : GaussFace} (hK : g.K = 4) (ht : ∀ k < 4, g.tri k = basin.tri k) (hga : GaussSpec g basinP basin2.bcType 2 ga) : Spread g basinP basin2.bcType ga := by
  obtain ⟨z, z1, z2, h⟩ := basin_points hK ht hga
  have hn := hga.count
  have e1 : g.ends 1 = ((8000, 0), (8000, 1000)) := by
    unfold Grid.ends
    rw [show (1 : ℕ) / 3 = 0 by norm_num, ht 0 (by norm_num)]
    exact basin_ends.2.1
  have e11 : g.ends 11 = ((0, 1000), (0, 0)) := by
    unfold Grid.ends
    rw [show (11 : ℕ) / 3 = 3 by norm_num, ht 3 (by norm_num)]
    exact basin_ends.2.2.2.2.2.2.2.2.2.2.2
  have hz : (1 / 2 : ℝ) ≤ z := by nlinarith
  obtain ⟨a1, a2⟩ := h 1 (by norm_num)
  obtain ⟨b1, b2⟩ := h 11 (by norm_num)
  norm_num at a1 a2 b1 b2
  rw [e1] at a1 a2
  rw [e11] at b1 b2
  intro p hp p' hp' ho ho' hne hx
  rw [hn, hK] at hp hp'
  rw [hn] at ho ho'
  rw [basin_open _ (by omega)] at ho ho'
  have h1 : p = 2 ∨ p = 3 ∨ p = 22 ∨ p = 23 := by omega
  have h2 : p' = 2 ∨ p' = 3 ∨ p' = 22 ∨ p' = 23 := by omega
  have big : ∀ a b : ℝ, b - a = 1000 * z ∨ b - a = -(1000 * z) → (1e-3 : ℝ) ≤ |b - a| := by
    intro a b hab
    rcases hab with hab | hab
    · rw [hab, abs_of_pos (by linarith)]; linarith
    · rw [hab, abs_neg, abs_of_pos (by linarith)]; linarith
  rcases h1 with rfl | rfl | rfl | rfl <;> rcases h2 with rfl | rfl | rfl | rfl
  all_goals first
    | exact absurd rfl hne
    | (exfalso; simp only [a1, a2, b1, b2, lerp] at hx; linarith)
    | (simp only [a1, a2, b1, b2, lerp]; refine big _ _ (Or.inl ?_); linarith)
    | (simp only [a1, a2, b1, b2, lerp]; refine big _ _ (Or.inr ?_); linarith)

/-- The mesh, with three cubature points and two Gauss points for each face, meets the hypotheses of `C156_run`. -/
example : ∃ s c ga, FileChannel basin basinP basinQ ∧ Numerics exactLapack (1 / 2 ^ 52) 1e-10 1e-5 1 ∧ curvedStart exactLapack (1 / 2 ^ 52) 1e-10 1e-5 1 argsort (fun _ _ => .ok topWall) basin = .ok s ∧
    TriSolves exactTri ∧ Dense.PotrfOk Dense.exactPotrf ∧ Ctx.buildCubature exactLapack Dense.exactPotrf s.grid 2 = .ok c ∧ Cub.Works 2 ((Cub.triples Cub.vals1).map Cub.real) ∧
    Ctx.Determines 1 ((Cub.triples Cub.vals1).map Cub.real) ∧ Ctx.buildGauss exactLapack (1 / 2 ^ 52) s.grid { basin with bcType := s.bc } 2 = .ok ga ∧ Spread s.grid basinP s.bc ga ∧ s.els ≠ [] := by
  obtain ⟨s, x, h, hels, hbc, hg, hs, hN, hK, ht⟩ := basin_start
  have hw : Cub.Works 2 ((Cub.triples Cub.vals1).map Cub.real) := Cub.works (rule := ⟨3, Cub.vals1⟩) rfl Cub.check1
  obtain ⟨c, hc, -⟩ := Ctx.C93_returns_partial hs (Ctx.solves_of_ok exactLapack_ok.gesv) Dense.exactPotrf_full 2 _ hw (by rw [hN]; exact three_points) (Or.inl (by unfold Grid.np; rw [hN]; rfl))
  obtain ⟨ga, hga, hgs⟩ := Ctx.C94_returns hg 2 (by norm_num)
  exact ⟨s, c, ga, basin_channel, basin_numerics, h, exactTri_solves, Dense.exactPotrf_full.toPotrfOk, hc, hw, three_points, by rw [hbc]; exact hga, by rw [hbc]; exact basin_spread hK ht hgs, by rw [hels]; simp⟩

/-! ### A mesh on which the set-up raises -/

theorem channel_table : correctTable channel.ev channel.vert 2 channel.bcType = .ok channel.bcType := by
  have hb : Between channel := by
    intro k hk j hj
    have hk : k < 2 := hk
    interval_cases k <;> interval_cases j <;> norm_num [Mesh.corner, channel]
  obtain ⟨bc, h1, hok, h2⟩ := C117_channel channel_ok rfl hb 2
  obtain ⟨bc', h1', hl, -⟩ := C117_table channel_ok rfl 2
  rw [h1, Out.ok.injEq] at h1'
  subst h1'
  have hl : bc.length = 6 := hl
  rw [h1]
  congr 1
  refine List.ext_getElem? fun e => ?_
  by_cases he : e < 6
  · have key := h2 e he
    interval_cases e
    · exact key.2 (by norm_num [SW.Mesh.ends, faceEnds, Mesh.tri, Mesh.corner, channel])
    · exact key.2 (by norm_num [SW.Mesh.ends, faceEnds, Mesh.tri, Mesh.corner, channel])
    · exact (key.1 (by norm_num [SW.Mesh.ends, faceEnds, Mesh.tri, Mesh.corner, channel])).2
    · exact (key.1 (by norm_num [SW.Mesh.ends, faceEnds, Mesh.tri, Mesh.corner, channel])).2
    · exact key.2 (by norm_num [SW.Mesh.ends, faceEnds, Mesh.tri, Mesh.corner, channel])
    · exact key.2 (by norm_num [SW.Mesh.ends, faceEnds, Mesh.tri, Mesh.corner, channel])
  · rw [List.getElem?_eq_none (by omega), List.getElem?_eq_none (by simp [channel]; omega)]

/-- The channel of two triangles with elements of degree one has no wall node in the window, so the set-up raises on it. -/
theorem channel_raises (spl : List ℝ → List (ℝ × ℝ) → Out (ℝ → ℝ × ℝ)) : curvedStart exactLapack (1 / 2 ^ 52) 1e-10 1e-5 1 argsort spl channel = .throws := by
  obtain ⟨g, x, hg, hs, hx, hN, hK, ht, -⟩ := channel_grid
  refine C156_needs basin_numerics channel_ok rfl argsort_ok channel_table hg.built (Or.inr ?_)
  rintro ⟨e, he, i, hi, -, h1, h2, -⟩
  have he : e < 6 := he
  have hf : e % 3 < 3 := Nat.mod_lt _ (by norm_num)
  have key : g.faceNode e i = lerp (SW.Mesh.ends channel e) (ori (e % 3) (x.getD i 0)) := by
    show (gridX (g.tri (e / 3)) g.n _, gridY (g.tri (e / 3)) g.n _) = _
    rw [face_point _ _ _ _ hf _ (hs.maskPt _ hf i (by omega)), ht _ (by omega)]
    rfl
  rw [key, hx] at h1 h2
  have h := And.intro h1 h2
  clear h1 h2
  interval_cases e <;> interval_cases i <;> norm_num [SW.Mesh.ends, faceEnds, Mesh.tri, Mesh.corner, channel, lerp, ori] at h

end Blitzdg.SW
