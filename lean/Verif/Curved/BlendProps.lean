import Verif.Curved.Blend
import Verif.Curved.SnapProps
import Verif.Curved.VandProps
import Verif.DG2D.NodesProps
import Mathlib.LinearAlgebra.Lagrange
import Mathlib.Tactic.IntervalCases

/-! C113: deforming the elements along a curved boundary. -/

namespace Blitzdg.Curved

open Polynomial
open Blitzdg.Sparse (DMat)
open Blitzdg.Nodes1D (Lapack exactLapack)
open Blitzdg.DG2D (RefNodes triFacePt)
open Blitzdg.Py (NdArray)

theorem sum_list_range (n : ℕ) (f : ℕ → ℝ) : ((List.range n).map f).sum = ∑ k ∈ Finset.range n, f k := by
  induction n with
  | zero => simp
  | succ n ih => rw [List.range_succ, List.map_append, List.sum_append, ih, Finset.sum_range_succ]; simp

/-- Interpolation at one of the points. -/
theorem interp_at (la : Lapack) (hla : la.Ok) (r t : List ℝ) (N : ℕ) (hr : r.Nodup) (hl : r.length = N + 1) :
    ∃ a b v, buildVandermonde la r true N = .ok (a, some b) ∧ buildVandermonde la t false N = .ok (v, none) ∧
      ∀ (d : ℕ → ℝ), ∀ i < t.length, ∀ j ≤ N, t.getD i 0 = r.getD j 0 → applyVand v b (N + 1) d i = d j := by
  obtain ⟨a, b, v, e1, e2, h⟩ := C111_interp la hla r t N hr hl
  refine ⟨a, b, v, e1, e2, fun d i hi j hj hij => ?_⟩
  have hinj : Set.InjOn (fun m => r.getD m 0) (Finset.range (N + 1)) := by
    intro m hm m' hm' e
    have hm := Finset.mem_range.1 (Finset.mem_coe.1 hm)
    have hm' := Finset.mem_range.1 (Finset.mem_coe.1 hm')
    rcases lt_trichotomy m m' with h | h | h
    · exact absurd e (distinct_getD hr m m' h (by omega))
    · exact h
    · exact absurd e.symm (distinct_getD hr m' m h (by omega))
  have hp := h d (Lagrange.interpolate (Finset.range (N + 1)) (fun m => r.getD m 0) d) (by
      have := Lagrange.degree_interpolate_lt (r := d) hinj
      rw [Finset.card_range] at this
      exact natDegree_le_of_degree_le (Order.lt_succ_iff.1 (by exact_mod_cast this)))
    (fun m hm => Lagrange.eval_interpolate_at_node d hinj (Finset.mem_range.2 (by omega))) i hi
  rw [hij, Lagrange.eval_interpolate_at_node d hinj (Finset.mem_range.2 (by omega))] at hp
  rw [← hp]
  unfold applyVand
  rw [sum_list_range]
  refine Finset.sum_congr rfl fun k _ => ?_
  rw [sum_list_range]
  rfl

/-! ### No effect -/

theorem addAt_frame {s s' : Mem} {p : ℕ} {sel : ℕ → Prop} [DecidablePred sel] {k : ℕ} {v : ℕ → ℝ} (h : s.addAt p sel k v = .ok s') : s'.cx = s.cx ∧ s'.cy = s.cy ∧ s'.els = s.els := by
  unfold Mem.addAt at h
  cases ha : index s.heap p with
  | ok a =>
    rw [ha, Out.bind_ok] at h
    split_ifs at h
    · obtain rfl := Out.ok.inj h
      exact ⟨rfl, rfl, rfl⟩
  | throws => rw [ha] at h; cases h
  | ub => rw [ha] at h; cases h

theorem bind_ok_inv {α β : Type} {x : Out α} {f : α → Out β} {b : β} (h : (x >>= f) = .ok b) : ∃ a, x = .ok a ∧ f a = .ok b := by
  cases x with
  | ok a => exact ⟨a, rfl, h⟩
  | throws => cases h
  | ub => cases h

theorem deformFace_frame {la n N NOrder verts EToV curve ss ev} {s s' : Mem} {kf : ℕ × ℕ} (h : deformFace la n N NOrder verts EToV curve ss ev s kf = .ok s') :
    s'.cx = s.cx ∧ s'.cy = s.cy ∧ s'.els = s.els ++ [kf.1] := by
  unfold deformFace at h
  simp only [] at h
  split_ifs at h
  obtain ⟨row, -, h⟩ := bind_ok_inv h
  obtain ⟨i1, -, h⟩ := bind_ok_inv h
  obtain ⟨i2, -, h⟩ := bind_ok_inv h
  obtain ⟨v1, -, h⟩ := bind_ok_inv h
  obtain ⟨v2, -, h⟩ := bind_ok_inv h
  split at h
  swap
  · cases h
  split_ifs at h
  · obtain rfl := Out.ok.inj h
    exact ⟨rfl, rfl, rfl⟩
  obtain ⟨t1, -, h⟩ := bind_ok_inv h
  obtain ⟨t2, -, h⟩ := bind_ok_inv h
  obtain ⟨ax, -, h⟩ := bind_ok_inv h
  obtain ⟨ay, -, h⟩ := bind_ok_inv h
  split_ifs at h
  obtain ⟨face, -, h⟩ := bind_ok_inv h
  split at h
  · cases h
  obtain ⟨vol, -, h⟩ := bind_ok_inv h
  obtain ⟨s1, h1, h⟩ := bind_ok_inv h
  obtain ⟨a1, a2, a3⟩ := addAt_frame h1
  obtain ⟨b1, b2, b3⟩ := addAt_frame h
  rw [b1, b2, b3]
  exact ⟨a1, a2, a3⟩

/-- **C113, refuted: no effect.** Whatever the mesh, the curve and the faces: whenever the call returns, the coordinates it returns and those stored in the context are the ones it started with.  (`ctx.x[ids, k] += ...`
changes an array that is dropped at once.) -/
theorem C113_no_effect {la n N NOrder verts EToV curve ss ev cx cy faces x y els m} (h : deformAndBlend la n N NOrder verts EToV curve ss ev cx cy faces = .ok (x, y, els, m)) :
    x = cx ∧ y = cy ∧ m.cx = cx ∧ m.cy = cy ∧ els = faces.map Prod.fst := by
  have H : ∀ (faces : List (ℕ × ℕ)) (s s' : Mem), loopM (deformFace la n N NOrder verts EToV curve ss ev) s faces = .ok s' → s'.cx = s.cx ∧ s'.cy = s.cy ∧ s'.els = s.els ++ faces.map Prod.fst := by
    intro faces
    induction faces with
    | nil => intro s s' h; obtain rfl := Out.ok.inj h; simp
    | cons kf rest ih =>
      intro s s' h
      rw [loopM_cons] at h
      obtain ⟨s1, h1, h⟩ := bind_ok_inv h
      obtain ⟨a1, a2, a3⟩ := deformFace_frame h1
      obtain ⟨b1, b2, b3⟩ := ih s1 s' h
      rw [b1, b2, b3, a1, a2, a3]
      simp
  unfold deformAndBlend at h
  obtain ⟨s, h1, h⟩ := bind_ok_inv h
  obtain ⟨a1, a2, a3⟩ := H _ _ _ h1
  simp only [Mem.readX, Mem.readY] at h
  obtain ⟨x', h2, h⟩ := bind_ok_inv h
  obtain ⟨y', h3, h⟩ := bind_ok_inv h
  rw [index_some (a := s.cx) (by simp)] at h2
  rw [index_some (a := s.cy) (by simp)] at h3
  obtain rfl := Out.ok.inj h2
  obtain rfl := Out.ok.inj h3
  have := Out.ok.inj h
  simp only [Prod.mk.injEq] at this
  obtain ⟨rfl, rfl, rfl, rfl⟩ := this
  exact ⟨a1, a2, a1, a2, by simpa using a3⟩

/-! ### What the dropped arrays hold -/

/-- Nodes on the edges of the reference triangle at the points `x`, from `-1` to `1`. -/
structure Placed (N : ℕ) (n : RefNodes) (x : List ℝ) : Prop where
  len : n.s.length = n.r.length
  lt : ∀ f < 3, ∀ j ≤ N, n.mask j f < n.r.length
  pt : ∀ f < 3, ∀ j ≤ N, (n.r.getD (n.mask j f) 0, n.s.getD (n.mask j f) 0) = triFacePt f (x.getD j 0)
  inc : ∀ i j : ℕ, i < j → j ≤ N → x.getD i 0 < x.getD j 0
  first : x.getD 0 0 = -1
  last : x.getD N 0 = 1

/-- The coordinates in element `k` follow the curve `pt` along face `f` and are unchanged elsewhere on the boundary of the element and in all other elements. -/
structure Deformed (N : ℕ) (n : RefNodes) (x : List ℝ) (k f : ℕ) (pt : ℝ → ℝ × ℝ) (cx cy X Y : DMat ℝ) : Prop where
  shape : X.rows = cx.rows ∧ X.cols = cx.cols ∧ Y.rows = cy.rows ∧ Y.cols = cy.cols
  others : ∀ k' ≠ k, ∀ i, X.at' i k' = cx.at' i k' ∧ Y.at' i k' = cy.at' i k'
  face : ∀ j ≤ N, (X.at' (n.mask j f) k, Y.at' (n.mask j f) k) = pt (x.getD j 0)
  sides : ∀ g < 3, g ≠ f → ∀ j ≤ N, X.at' (n.mask j g) k = cx.at' (n.mask j g) k ∧ Y.at' (n.mask j g) k = cy.at' (n.mask j g) k

theorem Placed.running {N : ℕ} {n : RefNodes} {x : List ℝ} (h : Placed N n x) {f j : ℕ} (hf : f < 3) (hj : j ≤ N) : (running f n).getD (n.mask j f) 0 = x.getD j 0 := by
  have := h.pt f hf j hj
  unfold triFacePt at this
  unfold Curved.running
  rcases (by omega : f = 0 ∨ f = 1 ∨ f = 2) with rfl | rfl | rfl <;> simp at this ⊢ <;> exact (by first | exact this.1 | exact this.2)

theorem Placed.points {N : ℕ} {n : RefNodes} {x : List ℝ} (h : Placed N n x) {f : ℕ} (hf : f < 3) :
    ((List.range (N + 1)).map fun j => (Curved.running f n).getD (n.mask j f) 0) = (List.range (N + 1)).map fun j => x.getD j 0 :=
  List.map_congr_left fun j hj => h.running hf (by have := List.mem_range.1 hj; omega)

theorem Placed.nodup {N : ℕ} {n : RefNodes} {x : List ℝ} (h : Placed N n x) : ((List.range (N + 1)).map fun j => x.getD j 0).Nodup := by
  rw [List.nodup_map_iff_inj_on List.nodup_range]
  intro i hi j hj e
  have hi := List.mem_range.1 hi
  have hj := List.mem_range.1 hj
  rcases lt_trichotomy i j with h' | h' | h'
  · exact absurd e (h.inc i j h' (by omega)).ne
  · exact h'
  · exact absurd e (h.inc j i h' (by omega)).ne'

/-- The vertex `v` is at sample `m` of the curve, and at a distance from all others. -/
def OnlyAt (curve : List (ℝ × ℝ)) (v : ℝ × ℝ) (m : ℕ) : Prop := curve[m]? = some v ∧ ∀ j q, curve[j]? = some q → j ≠ m → 1e-8 ≤ eucl v q

theorem filter_range_single {n m : ℕ} (hm : m < n) (p : ℕ → Bool) (h : ∀ i < n, p i = true ↔ i = m) : (List.range n).filter p = [m] := by
  have e : (List.range n).filter p = (List.range n).filter (fun i => i == m) := List.filter_congr fun i hi => by
    have := h i (List.mem_range.1 hi)
    rw [Bool.eq_iff_iff, this]; simp
  rw [e]
  have : (List.range n).filter (fun i => i == m) = List.replicate ((List.range n).count m) m := List.filter_beq ..
  rw [this, List.count_eq_one_of_mem List.nodup_range (List.mem_range.2 hm)]
  rfl

theorem OnlyAt.hits {curve : List (ℝ × ℝ)} {v : ℝ × ℝ} {m : ℕ} (h : OnlyAt curve v m) : hits curve v = [m] := by
  obtain ⟨h1, h2⟩ := h
  have hm := (List.getElem?_eq_some_iff.1 h1).1
  unfold Curved.hits
  refine filter_range_single hm _ fun i hi => ?_
  have hq : curve[i]? = some (curve.getD i 0) := by rw [List.getD_eq_getElem _ _ hi]; exact List.getElem?_eq_getElem hi
  simp only [decide_eq_true_eq]
  constructor
  · intro hlt
    by_contra hne
    have := h2 i _ hq hne
    unfold eucl at this
    norm_num at this hlt
    linarith
  · rintro rfl
    rw [h1] at hq
    rw [← Option.some.inj hq]
    simp
    norm_num

/-- The two columns of the table of elements with the ends of face `f`, in the direction of the running coordinate. -/
theorem endCols_eq (f : ℕ) (hf : f < 3) : endCols f = (if f = 1 then 1 else 0, if f = 0 then 1 else 2) := by
  rcases (by omega : f = 0 ∨ f = 1 ∨ f = 2) with rfl | rfl | rfl <;> rfl

theorem blend_face {f : ℕ} (hf : f < 3) {t : ℝ} (ht : 1 - t ≠ 0) : blend f (triFacePt f t).1 (triFacePt f t).2 = 1 := by
  rcases (by omega : f = 0 ∨ f = 1 ∨ f = 2) with rfl | rfl | rfl <;> simp [blend, triFacePt]
  · rw [div_eq_one_iff_eq ht]; ring
  · rw [div_eq_one_iff_eq ht]; ring
  · rw [div_eq_one_iff_eq ht]; ring

/-- On the other two faces the blending function vanishes or the running coordinate is that of the first end. -/
theorem blend_side {f g : ℕ} (hf : f < 3) (hg : g < 3) (h : g ≠ f) (t : ℝ) :
    blend f (triFacePt g t).1 (triFacePt g t).2 = 0 ∨ (if f = 0 then (triFacePt g t).1 else (triFacePt g t).2) = -1 := by
  rcases (by omega : f = 0 ∨ f = 1 ∨ f = 2) with rfl | rfl | rfl <;> rcases (by omega : g = 0 ∨ g = 1 ∨ g = 2) with rfl | rfl | rfl <;> simp [blend, triFacePt] at h ⊢

theorem index_last {α : Type} (l : List α) (a : α) : index (l ++ [a]) l.length = .ok a := index_some (by simp)

theorem addAt_last (s : Mem) (l : List (DMat ℝ)) (a : DMat ℝ) (hs : s.heap = l ++ [a]) (sel : ℕ → Prop) [DecidablePred sel] (k : ℕ) (hk : k < a.cols) (v : ℕ → ℝ) :
    s.addAt l.length sel k v = .ok { s with heap := l ++ [{ a with at' := fun i j => if j = k ∧ sel i then a.at' i j + v i else a.at' i j }] } := by
  unfold Mem.addAt
  rw [hs, index_last, Out.bind_ok, if_pos hk]
  simp

/-- **C113, partial: the arrays that are dropped.** For a face whose two ends are each at one sample of the curve (with parameters `t1` and `t2`), where the curve passes through the end nodes of the face, the two arrays
changed by the body of the loop hold what was intended: the nodes of the face lie on the curve, at the parameters in proportion to the nodes; nodes on the other two faces and in other elements have not moved.

Missing: these arrays do not become the coordinates of the context (`C113_no_effect`). -/
theorem C113_dropped_partial (la : Lapack) (hla : la.Ok) (n : RefNodes) (N : ℕ) (x : List ℝ) (hp : Placed N n x) (hgap : ∀ j < N, 1e-7 < 1 - x.getD j 0)
    (verts : List (ℝ × ℝ)) (EToV : List (List ℕ)) (curve : List (ℝ × ℝ)) (ss : List ℝ) (ev : ℝ → ℝ × ℝ) (s : Mem) (k f : ℕ) (hf : f < 3) (row : List ℕ) (hrow : EToV[k]? = some row)
    (i1 i2 : ℕ) (hi1 : row[if f = 1 then 1 else 0]? = some i1) (hi2 : row[if f = 0 then 1 else 2]? = some i2) (v1 v2 : ℝ × ℝ) (hv1 : verts[i1]? = some v1) (hv2 : verts[i2]? = some v2)
    (m1 m2 : ℕ) (hm : m1 ≠ m2) (hm1 : OnlyAt curve v1 m1) (hm2 : OnlyAt curve v2 m2) (t1 t2 : ℝ) (ht1 : ss[m1]? = some t1) (ht2 : ss[m2]? = some t2) (hk : k < s.cx.cols) (hk' : k < s.cy.cols)
    (fit1 : ev t1 = (s.cx.at' (n.mask 0 f) k, s.cy.at' (n.mask 0 f) k)) (fit2 : ev t2 = (s.cx.at' (n.mask N f) k, s.cy.at' (n.mask N f) k)) :
    ∃ s' pre X Y, deformFace la n N N verts EToV curve ss ev s (k, f) = .ok s' ∧ s'.heap = pre ++ [X, Y] ∧
      Deformed N n x k f (fun τ => ev ((1 - τ) / 2 * t1 + (1 + τ) / 2 * t2)) s.cx s.cy X Y := by
  have hec := endCols_eq f hf
  have e1 : index row (endCols f).1 = .ok i1 := by rw [hec]; exact index_some hi1
  have e2 : index row (endCols f).2 = .ok i2 := by rw [hec]; exact index_some hi2
  have hfr := hp.points hf
  obtain ⟨xs, hxs⟩ : ∃ xs, xs = (List.range (N + 1)).map fun j => x.getD j 0 := ⟨_, rfl⟩
  have hxl : xs.length = N + 1 := by rw [hxs]; simp
  have hxg : ∀ j ≤ N, xs.getD j 0 = x.getD j 0 := fun j hj => by
    rw [List.getD_eq_getElem _ _ (by omega)]
    simp [hxs]
  rw [← hxs] at hfr
  have hnd : xs.Nodup := by rw [hxs]; exact hp.nodup
  obtain ⟨a, b, v, c1, c2, hint⟩ := interp_at la hla xs (running f n) N hnd hxl
  have hrl : (running f n).length = n.r.length := by
    unfold running
    split_ifs
    · rfl
    · exact hp.len
  have hrun : ∀ i, (running f n).getD i 0 = if f = 0 then n.r.getD i 0 else n.s.getD i 0 := fun i => by
    unfold running
    split_ifs <;> rfl
  have hx1 : ∀ j < N, x.getD j 0 < 1 := fun j hj => by rw [← hp.last]; exact hp.inc j N hj (le_refl N)
  have hpar : ∀ j ≤ N, 0.5 * t1 * (1 - xs.getD j 0) + 0.5 * t2 * (1 + xs.getD j 0) = (1 - x.getD j 0) / 2 * t1 + (1 + x.getD j 0) / 2 * t2 := fun j hj => by
    rw [hxg j hj]; ring
  unfold deformFace
  simp only [index_some hrow, e1, e2, index_some hv1, index_some hv2, Out.bind_ok, hm1.hits, hm2.hits, if_neg hm, index_some ht1, index_some ht2, Mem.readX, Mem.readY, ge_iff_le, not_le.2 hf, if_false,
    show ∀ (l : List (DMat ℝ)) (p q : DMat ℝ), index (l ++ [p] ++ [q]) l.length = .ok p from fun l p q => index_some (by simp), index_last, hk, if_true, hfr, c1, c2, Int.toNat_natCast_add_one]
  rw [addAt_last _ (s.heap ++ [s.cx] ++ [s.cy]) s.cx rfl _ k hk, Out.bind_ok]
  simp only []
  rw [addAt_last _ (s.heap ++ [s.cx] ++ [s.cy] ++ _) s.cy rfl _ k hk']
  refine ⟨_, s.heap ++ [s.cx] ++ [s.cy], _, _, rfl, List.append_assoc _ [_] [_], ⟨⟨rfl, rfl, rfl, rfl⟩, ?_, ?_, ?_⟩⟩
  · intro k' hk' i
    simp only [hk', false_and, if_false, and_self]
  · intro j hj
    simp only [true_and]
    have hpt := hp.pt f hf j hj
    have hlt : n.mask j f < (running f n).length := by rw [hrl]; exact hp.lt f hf j hj
    have hrj : (running f n).getD (n.mask j f) 0 = x.getD j 0 := hp.running hf hj
    rcases hj.lt_or_eq with hjN | rfl
    · have hsel : n.mask j f < (running f n).length ∧ |1 - (running f n).getD (n.mask j f) 0| > 1.0e-7 := by
        refine ⟨hlt, ?_⟩
        rw [hrj, abs_of_pos (by have := hx1 j hjN; linarith)]
        have := hgap j hjN
        norm_num at this ⊢
        exact this
      have hb : blend f (n.r.getD (n.mask j f) 0) (n.s.getD (n.mask j f) 0) = 1 := by
        rw [show n.r.getD (n.mask j f) 0 = _ from congrArg Prod.fst hpt, show n.s.getD (n.mask j f) 0 = _ from congrArg Prod.snd hpt]
        exact blend_face hf (by have := hx1 j hjN; intro h; linarith)
      rw [if_pos hsel, if_pos hsel, hb, one_mul, one_mul, hint _ _ hlt j hj (by rw [hrj, hxg j hj]), hint _ _ hlt j hj (by rw [hrj, hxg j hj]), hpar j hj]
      ext <;> simp
    · have hsel : ¬ (n.mask j f < (running f n).length ∧ |1 - (running f n).getD (n.mask j f) 0| > 1.0e-7) := by
        rintro ⟨-, h⟩
        rw [hrj, hp.last] at h
        norm_num at h
      rw [if_neg hsel, if_neg hsel, hp.last, ← fit2]
      congr 1; ring
  · intro g hg hgf j hj
    simp only [true_and]
    have hpt := hp.pt g hg j hj
    have hlt : n.mask j g < (running f n).length := by rw [hrl]; exact hp.lt g hg j hj
    have hr := congrArg Prod.fst hpt
    have hs := congrArg Prod.snd hpt
    simp only [] at hr hs
    have hz : ∀ d : ℕ → ℝ, d 0 = 0 → blend f (n.r.getD (n.mask j g) 0) (n.s.getD (n.mask j g) 0) * applyVand v b (N + 1) d (n.mask j g) = 0 := by
      intro d hd
      rcases blend_side hf hg hgf (x.getD j 0) with h | h
      · rw [hr, hs, h, zero_mul]
      · rw [hint d _ hlt 0 (Nat.zero_le _) (by rw [hrun, hr, hs, h, hxg 0 (Nat.zero_le _), hp.first]), hd, mul_zero]
    have hd : (1 - x.getD 0 0) / 2 * t1 + (1 + x.getD 0 0) / 2 * t2 = t1 := by rw [hp.first]; ring
    constructor
    · split_ifs
      · rw [hz _ (by rw [hpar 0 (Nat.zero_le _), hd, fit1]; simp), add_zero]
      · rfl
    · split_ifs
      · rw [hz _ (by rw [hpar 0 (Nat.zero_le _), hd, fit1]; simp), add_zero]
      · rfl

/-- The nodes of the triangle provisioner are placed like that, for every order. -/
theorem placed (la : Lapack) (hla : la.Ok) (eps : ℝ) (he0 : 0 < eps) (he1 : eps ≤ 0.1) (ztol tol : ℝ) (h0 : 0 < ztol) (ht : 0 < tol) (N : ℕ) (hN : 1 ≤ N) (hz : ztol < 2 / N) (n : RefNodes)
    (h : DG2D.triRefNodes la eps ztol tol N = .ok n) : ∃ x, DG2D.IsGLL la eps N x ∧ Placed N n x := by
  rcases DG2D.C74_triangle la hla eps he0 he1 ztol tol h0 ht N hN hz with h' | ⟨x, hx, r, s, -, hl, -, ⟨h', -⟩ | ⟨n', h', rfl, rfl, hm⟩⟩
  · rw [h'] at h; cases h
  · rw [h'] at h; cases h
  rw [h'] at h
  obtain rfl := Out.ok.inj h
  have hg := Jacobi.C70_gauss_lobatto la.query la.dsyevd hla.syevd 0 eps he0 he1 N hN (List.replicate (N + 1) 0) (by simp)
  simp only [Nat.cast_zero] at hg
  have hx' := hx
  unfold DG2D.IsGLL at hx'
  rcases hg with ⟨x', hx''⟩ | ⟨x', hx'', -, h1, h2, hinc, -⟩
  · rw [hx''] at hx'; simp at hx'
  · rw [hx''] at hx'
    obtain rfl : x' = x := by simpa using hx'
    exact ⟨x', hx, hl, hm.lt, hm.pt, hinc, h1, h2⟩

/-! ### A triangle of order two below which the curve is a parabola -/

/-- The six nodes. -/
def quadratic : RefNodes := ⟨[-1, 0, 1, -1, 0, -1], [-1, -1, -1, 0, 0, 1], [[0, 1, 2], [2, 4, 5], [0, 3, 5]]⟩

theorem quadratic_placed : Placed 2 quadratic [-1, 0, 1] where
  len := rfl
  lt := by
    intro f hf j hj
    interval_cases f <;> interval_cases j <;> decide
  pt := by
    intro f hf j hj
    interval_cases f <;> interval_cases j <;> simp [quadratic, RefNodes.mask, triFacePt]
  inc := by
    intro i j hij hj
    interval_cases j <;> interval_cases i <;> simp
  first := rfl
  last := rfl

/-- The element with corners `(-1, 0)`, `(1, 0)`, `(-1, 2)`. -/
noncomputable def oneX : DMat ℝ := ⟨6, 1, fun i _ => quadratic.r.getD i 0⟩
noncomputable def oneY : DMat ℝ := ⟨6, 1, fun i _ => quadratic.s.getD i 0 + 1⟩
/-- The curve: a parabola through two corners. -/
noncomputable def parabola (t : ℝ) : ℝ × ℝ := (t, t ^ 2 - 1)

theorem oneFace : ∃ s' pre X Y, deformFace exactLapack quadratic 2 2 [(-1, 0), (1, 0), (-1, 2)] [[0, 1, 2]] [(-1, 0), (0, -1), (1, 0)] [-1, 0, 1] parabola ⟨oneX, oneY, [], []⟩ (0, 0) = .ok s' ∧
    s'.heap = pre ++ [X, Y] ∧ Deformed 2 quadratic [-1, 0, 1] 0 0 (fun τ => parabola ((1 - τ) / 2 * (-1) + (1 + τ) / 2 * 1)) oneX oneY X Y := by
  refine C113_dropped_partial exactLapack Nodes1D.exactLapack_ok quadratic 2 [-1, 0, 1] quadratic_placed ?_ [(-1, 0), (1, 0), (-1, 2)] [[0, 1, 2]] [(-1, 0), (0, -1), (1, 0)] [-1, 0, 1] parabola ⟨oneX, oneY, [], []⟩ 0 0 (by norm_num)
    [0, 1, 2] rfl 0 1 rfl rfl (-1, 0) (1, 0) rfl rfl 0 2 (by norm_num) ⟨rfl, ?_⟩ ⟨rfl, ?_⟩ (-1) 1 rfl rfl (by simp [oneX]) (by simp [oneY]) ?_ ?_
  · intro j hj
    interval_cases j <;> norm_num
  · intro j q hq hj
    have hl := (List.getElem?_eq_some_iff.1 hq).1
    simp at hl
    apply Real.le_sqrt_of_sq_le
    interval_cases j <;> simp at hq hj <;> subst hq <;> norm_num
  · intro j q hq hj
    have hl := (List.getElem?_eq_some_iff.1 hq).1
    simp at hl
    apply Real.le_sqrt_of_sq_le
    interval_cases j <;> simp at hq hj <;> subst hq <;> norm_num
  · simp [parabola, oneX, oneY, quadratic, RefNodes.mask]
  · simp [parabola, oneX, oneY, quadratic, RefNodes.mask]

/-- **C113, refuted.** A triangle with one curved face, of order two: the call returns, and the middle node of the face is not on the curve (it is at `(0, 0)`; the curve passes through `(0, -1)`), although the array
that was dropped had it there. -/
theorem C113_refuted : ∃ x y els m, deformAndBlend exactLapack quadratic 2 2 [(-1, 0), (1, 0), (-1, 2)] [[0, 1, 2]] [(-1, 0), (0, -1), (1, 0)] [-1, 0, 1] parabola oneX oneY [(0, 0)] = .ok (x, y, els, m) ∧
    (∀ t, (x.at' (quadratic.mask 1 0) 0, y.at' (quadratic.mask 1 0) 0) ≠ parabola t) ∧ ∃ X Y, X ∈ m.heap ∧ Y ∈ m.heap ∧ (X.at' (quadratic.mask 1 0) 0, Y.at' (quadratic.mask 1 0) 0) = parabola 0 := by
  obtain ⟨s', pre, X, Y, h1, h2, h3⟩ := oneFace
  have hrun : ∃ x y els m, deformAndBlend exactLapack quadratic 2 2 [(-1, 0), (1, 0), (-1, 2)] [[0, 1, 2]] [(-1, 0), (0, -1), (1, 0)] [-1, 0, 1] parabola oneX oneY [(0, 0)] = .ok (x, y, els, m) ∧
      m.heap = pre ++ [X, Y] ++ [s'.cx] ++ [s'.cy] := by
    unfold deformAndBlend
    simp only [loopM_cons, loopM_nil, h1, Out.bind_ok, Mem.readX, Mem.readY, show ∀ (l : List (DMat ℝ)) (p q : DMat ℝ), index (l ++ [p] ++ [q]) l.length = .ok p from fun l p q => index_some (by simp), index_last, Out.pure_eq]
    exact ⟨_, _, _, _, rfl, by rw [h2]⟩
  obtain ⟨x, y, els, m, h4, h5⟩ := hrun
  obtain ⟨rfl, rfl, -⟩ := C113_no_effect h4
  refine ⟨_, _, els, m, h4, fun t h => ?_, X, Y, by rw [h5]; simp, by rw [h5]; simp, ?_⟩
  · simp [parabola, oneX, oneY, quadratic, RefNodes.mask] at h
    obtain ⟨rfl, h⟩ := h
    norm_num at h
  · have := h3.face 1 (by norm_num)
    rw [this]
    norm_num

end Blitzdg.Curved
