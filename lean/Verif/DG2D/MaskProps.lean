import Verif.DG2D.Nodes
import Verif.Jacobi.QuadProps
import Verif.DG2D.ModesProps

/-! Face masks: the loop that collects the nodes of a face. -/

namespace Blitzdg.DG2D

open Blitzdg.Jacobi (before rowMajor_sorted mem_rowMajor')

theorem faceMask_loop (tol : ℝ) (nfp : ℕ) (test : List ℝ) (idx pre : List ℕ) (hp : pre.length ≤ nfp) :
    loopM (fun (st : ℕ × List ℕ) i =>
      if |test.getD i 0| < tol then do
        let l ← wr st.2 st.1 i
        pure (st.1 + 1, l)
      else pure st) (pre.length, pre ++ List.replicate (nfp - pre.length) 0) idx
    = if pre.length + (idx.filter fun i => |test.getD i 0| < tol).length ≤ nfp then
        .ok (pre.length + (idx.filter fun i => |test.getD i 0| < tol).length,
          pre ++ (idx.filter fun i => |test.getD i 0| < tol) ++ List.replicate (nfp - (pre.length + (idx.filter fun i => |test.getD i 0| < tol).length)) 0)
      else .ub := by
  induction idx generalizing pre with
  | nil => simp [hp]
  | cons i idx ih =>
    rw [loopM_cons]
    by_cases hi : |test.getD i 0| < tol
    · rw [if_pos hi, List.filter_cons_of_pos (by simpa using hi)]
      by_cases hl : pre.length < nfp
      · rw [wr_of_lt (by simp; omega)]
        simp only [Out.bind_ok, Out.pure_eq]
        have e : (pre ++ List.replicate (nfp - pre.length) 0).set pre.length i = (pre ++ [i]) ++ List.replicate (nfp - (pre ++ [i]).length) 0 := by
          rw [List.set_append_right _ _ (le_refl _), Nat.sub_self]
          obtain ⟨k, hk⟩ : ∃ k, nfp - pre.length = k + 1 := ⟨nfp - pre.length - 1, by omega⟩
          rw [hk, List.replicate_succ, List.set_cons_zero]
          have : nfp - (pre ++ [i]).length = k := by simp; omega
          rw [this]; simp
        rw [e]
        have := ih (pre ++ [i]) (by simp; omega)
        rw [List.length_append, List.length_singleton] at this
        rw [List.length_append, List.length_singleton]
        refine this.trans ?_
        simp only [List.length_cons]
        rw [show pre.length + 1 + (idx.filter fun i => |test.getD i 0| < tol).length = pre.length + ((idx.filter fun i => |test.getD i 0| < tol).length + 1) by omega]
        simp only [List.append_assoc, List.cons_append, List.nil_append]
      · rw [wr, if_neg (by simp; omega)]
        simp only [Out.bind_ub, List.length_cons]
        rw [if_neg (by omega)]
    · rw [if_neg hi, List.filter_cons_of_neg (by simpa using hi)]
      simp only [Out.pure_eq, Out.bind_ok]
      exact ih pre hp

/-- The mask holds the nodes within the tolerance, in order, padded with zeros; more than `nfp` of them overflow the array. -/
theorem faceMask_eq (tol : ℝ) (nfp : ℕ) (test : List ℝ) :
    faceMask tol nfp test = if ((List.range test.length).filter fun i => |test.getD i 0| < tol).length ≤ nfp then
      .ok (((List.range test.length).filter fun i => |test.getD i 0| < tol)
        ++ List.replicate (nfp - ((List.range test.length).filter fun i => |test.getD i 0| < tol).length) 0)
      else .ub := by
  have h := faceMask_loop tol nfp test (List.range test.length) [] (by simp)
  unfold faceMask
  simp only [List.length_nil, List.nil_append, Nat.sub_zero, zero_add] at h
  rw [h]
  split_ifs <;> rfl

theorem range_filter_map {α : Type} (pts : List α) (d : α) (P : α → Bool) :
    ((List.range pts.length).filter fun k => P (pts.getD k d)).map (fun k => pts.getD k d) = pts.filter P := by
  have h : pts = (List.range pts.length).map fun k => pts.getD k d := by
    apply List.ext_getElem (by simp)
    intro i h1 h2
    rw [List.getElem_map, List.getElem_range, List.getD_eq_getElem _ _ h1]
  conv_rhs => rw [h, List.filter_map]
  rfl

/-- A face of the lattice: its points, as the code meets them, are `key 0, ..., key N`. -/
theorem filter_key (pts : List (ℕ × ℕ)) (hs : pts.Pairwise before) (N : ℕ) (key : ℕ → ℕ × ℕ) (F : ℕ × ℕ → Bool)
    (hF : ∀ p, (p ∈ pts ∧ F p = true) ↔ ∃ i ≤ N, p = key i) (hk : ∀ i j : ℕ, i < j → j ≤ N → before (key i) (key j)) :
    pts.filter F = (List.range (N + 1)).map key := by
  have irr : ∀ p, ¬ before p p := by intro p h; unfold before at h; omega
  have h2 : ((List.range (N + 1)).map key).Pairwise before := by
    rw [List.pairwise_map]
    exact (List.pairwise_lt_range).imp_of_mem fun {a b} _ hb h => hk a b h (by have := List.mem_range.1 hb; omega)
  have h1 : (pts.filter F).Pairwise before := hs.filter _
  have n1 : (pts.filter F).Nodup := h1.imp fun {a b} (h : before a b) (e : a = b) => irr a (e ▸ h)
  have n2 : ((List.range (N + 1)).map key).Nodup := h2.imp fun {a b} (h : before a b) (e : a = b) => irr a (e ▸ h)
  apply List.Perm.eq_of_pairwise (le := before) _ h1 h2
  · apply (List.perm_ext_iff_of_nodup n1 n2).2
    intro p
    rw [List.mem_filter, hF, List.mem_map]
    constructor
    · rintro ⟨i, hi, rfl⟩; exact ⟨i, List.mem_range.2 (by omega), rfl⟩
    · rintro ⟨i, hi, rfl⟩; exact ⟨i, by have := List.mem_range.1 hi; omega, rfl⟩
  · intro a b _ _ h h'; unfold before at h h'; omega

/-- **Masks.** If the face points `key 0, ..., key N` of the lattice pass the test, then either another point passes it too and the array overflows, or the mask lists the
nodes of exactly these points in this order. -/
theorem faceMask_face (tol : ℝ) (pts : List (ℕ × ℕ)) (hs : pts.Pairwise before) (N : ℕ) (key : ℕ → ℕ × ℕ) (F : ℕ × ℕ → Bool)
    (hF : ∀ p, (p ∈ pts ∧ F p = true) ↔ ∃ i ≤ N, p = key i) (hk : ∀ i j : ℕ, i < j → j ≤ N → before (key i) (key j))
    (test : List ℝ) (hl : test.length = pts.length) (hon : ∀ k < pts.length, F (pts.getD k (0, 0)) = true → |test.getD k 0| < tol) :
    (faceMask tol (N + 1) test = .ub ∧ ∃ k < pts.length, F (pts.getD k (0, 0)) = false ∧ |test.getD k 0| < tol) ∨
    ∃ m, faceMask tol (N + 1) test = .ok m ∧ m.length = N + 1 ∧ (∀ i ≤ N, m.getD i 0 < pts.length ∧ pts.getD (m.getD i 0) (0, 0) = key i) ∧
      ∀ k < pts.length, |test.getD k 0| < tol → ∃ i ≤ N, k = m.getD i 0 := by
  set hits := (List.range test.length).filter fun i => |test.getD i 0| < tol with hh
  set E := (List.range pts.length).filter fun k => F (pts.getD k (0, 0)) with hE
  have hEm : E.map (fun k => pts.getD k (0, 0)) = (List.range (N + 1)).map key := by
    rw [hE, range_filter_map, filter_key pts hs N key F hF hk]
  have hEl : E.length = N + 1 := by have := congrArg List.length hEm; simpa using this
  have hEh : E = hits.filter fun k => F (pts.getD k (0, 0)) := by
    rw [hh, hE, List.filter_filter, hl]
    apply List.filter_congr
    intro k hk'
    have hk' := List.mem_range.1 hk'
    by_cases h : F (pts.getD k (0, 0)) = true
    · have := hon k hk' h
      simpa [h] using fun _ => this
    · simp at h; simp [h]
  rw [faceMask_eq, ← hh]
  have hsub : E.Sublist hits := hEh ▸ List.filter_sublist
  by_cases h : hits.length ≤ N + 1
  · right
    have e : E = hits := hsub.eq_of_length_le (by omega)
    rw [if_pos h]
    refine ⟨_, rfl, ?_, ?_, ?_⟩
    · simp; omega
    · intro i hi
      have hi' : i < hits.length := by rw [← e]; omega
      rw [List.getD_append _ _ _ _ hi', ← e]
      have hiE : i < E.length := by omega
      constructor
      · have : E.getD i 0 ∈ E := by rw [List.getD_eq_getElem _ _ hiE]; exact List.getElem_mem _
        exact List.mem_range.1 (List.mem_filter.1 (hE ▸ this)).1
      · have h1 := congrArg (fun l => l[i]?) hEm
        simp only [List.getElem?_map, List.getElem?_eq_getElem hiE, Option.map_some] at h1
        rw [List.getElem?_eq_getElem (by simp; omega)] at h1
        rw [List.getD_eq_getElem _ _ hiE]
        simpa using h1
    · intro k hk' ht
      have hm : k ∈ hits := by
        rw [hh]; exact List.mem_filter.2 ⟨List.mem_range.2 (by omega), by simpa using ht⟩
      obtain ⟨i, hi, rfl⟩ := List.mem_iff_getElem.1 hm
      refine ⟨i, by omega, ?_⟩
      rw [List.getD_append _ _ _ _ hi, List.getD_eq_getElem _ _ hi]
  · left
    rw [if_neg h]
    refine ⟨rfl, ?_⟩
    by_contra hno
    push Not at hno
    apply h
    have : E = hits := by
      rw [hEh]
      apply List.filter_eq_self.2
      intro k hk'
      have := List.mem_filter.1 (hh ▸ hk')
      have hk2 : k < pts.length := by have := List.mem_range.1 this.1; omega
      by_contra hf
      have := hno k hk2 (by simpa using hf)
      have h3 := (List.mem_filter.1 (hh ▸ hk')).2
      simp at h3 this
      linarith
    rw [← this, hEl]

end Blitzdg.DG2D
