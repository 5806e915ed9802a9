import Verif.Py.BuildMesh
import Verif.Py.ImportProps
import Verif.Mesh.ReadProps
import Mathlib.Tactic.Positivity
import Mathlib.Tactic.FieldSimp
import Mathlib.Tactic.NormNum

/-!
C132: meshes built from Python arrays.
-/

namespace Blitzdg.Py

open Blitzdg.Mesh (MM TablesOK vtx)

variable {R : Type} [Field R] [LinearOrder R] [IsStrictOrderedRing R]

/-! ### Specification -/

/-- The element array holds, as doubles, the vertex numbers `v`. -/
def HoldsDoubles (ev : View ℕ) (v : ℕ → ℕ → ℕ) : Prop :=
  ∀ i < ev.s0, ∀ j < ev.s1, ∃ w, ev.at' i j = some w ∧ decode64 w = some (v i j : ℚ)

/-! ### Lemmas -/

theorem castInt_nat {n : ℕ} (h : n ≤ 2147483647) : castInt (some (n : ℚ)) = .ok (n : Int) := by
  unfold castInt
  have h0 : (0 : ℚ) ≤ n := Nat.cast_nonneg n
  simp only [h0, if_true, Int.floor_natCast]
  rw [if_pos (by omega)]

/-- The top bit of a word is the sign of the number. -/
theorem C132_sign (w : ℕ) (h : w < 9223372036854775808) : decode64 (w + 9223372036854775808) = (decode64 w).map Neg.neg := by
  have h1 : (w + 9223372036854775808) % 4503599627370496 = w % 4503599627370496 := by omega
  have h2 : (w + 9223372036854775808) / 4503599627370496 % 2048 = w / 4503599627370496 % 2048 := by omega
  have h3 : (w + 9223372036854775808) / 9223372036854775808 % 2 = 1 := by omega
  have h4 : w / 9223372036854775808 % 2 ≠ 1 := by omega
  unfold decode64
  simp only [h1, h2, h3, if_true, if_neg h4]
  split_ifs
  · rfl
  · exact congrArg some (by rw [neg_one_mul, neg_div, one_mul])
  · exact congrArg some (by rw [neg_one_mul, neg_mul, neg_div, one_mul])

/-- A negative whole number is converted exactly. -/
theorem C132_negative {n : ℕ} (h : n ≤ 2147483648) : castInt (some (-(n : ℚ))) = .ok (-(n : Int)) := by
  unfold castInt
  by_cases h0 : n = 0
  · subst h0; simp
  · have hn : ¬ (0 : ℚ) ≤ -(n : ℚ) := by
      have : (0 : ℚ) < n := by exact_mod_cast Nat.pos_of_ne_zero h0
      linarith
    simp only [if_neg hn, Int.ceil_neg, Int.floor_natCast]
    rw [if_pos (by omega)]

example : castInt (decode64 (4611686018427387904 + 9223372036854775808)) = .ok (-2) := by decide +kernel

theorem castInt_small {w : ℕ} (h : w < 4503599627370496) : castInt (decode64 w) = .ok 0 := by
  have h1 : w % 4503599627370496 = w := Nat.mod_eq_of_lt h
  have h2 : w / 4503599627370496 = 0 := Nat.div_eq_of_lt h
  have h3 : w / 9223372036854775808 = 0 := Nat.div_eq_of_lt (by omega)
  unfold decode64 castInt
  simp only [h1, h2, h3, Nat.zero_mod]
  rw [if_neg (by omega), if_pos trivial, if_neg (by omega)]
  have hw : (0 : ℚ) ≤ w := Nat.cast_nonneg w
  have hlt : (w : ℚ) < 4503599627370496 := by exact_mod_cast h
  have hp : (4503599627370496 : ℚ) ≤ 2 ^ 1074 := by
    rw [show (4503599627370496 : ℚ) = 2 ^ 52 by norm_num]
    exact pow_le_pow_right₀ (by norm_num) (by norm_num)
  have hpos : (0 : ℚ) < 2 ^ 1074 := by positivity
  generalize (2 : ℚ) ^ 1074 = P at hp hpos
  have hx0 : (0 : ℚ) ≤ 1 * w / P := by positivity
  have hx1 : (1 : ℚ) * w / P < 1 := by rw [div_lt_one hpos]; linarith
  have hfl : ⌊(1 : ℚ) * w / P⌋ = 0 := Int.floor_eq_zero_iff.2 ⟨hx0, hx1⟩
  simp only [hx0, if_true, hfl]
  rfl

theorem castLoop (words : List ℕ) (vals : List Int) (h : List.Forall₂ (fun w v => castInt (decode64 w) = .ok v) words vals) (acc : List Int) :
    loopM (fun l w => do let v ← castInt (decode64 w); pure (l ++ [v])) acc words = .ok (acc ++ vals) := by
  induction h generalizing acc with
  | nil => simp
  | @cons w v ws vs hw _ ih =>
    rw [loopM_cons, hw, Out.bind_ok]
    show loopM _ (acc ++ [v]) ws = _
    rw [ih]
    simp

theorem forall₂_get {α β : Type} {P : α → β → Prop} {l : List α} {l' : List β} (hl : l.length = l'.length)
    (h : ∀ i (hi : i < l.length), P l[i] (l'[i]'(hl ▸ hi))) : List.Forall₂ P l l' := by
  rw [List.forall₂_iff_get]
  exact ⟨hl, fun i h1 h2 => h i h1⟩

/-- **C132, element numbers given as doubles.** From C-contiguous arrays of doubles with in-range, pairwise different vertex numbers in every element, `buildMesh` makes the mesh with these
vertices and elements: each element keeps its vertices, the second and third exchanged if they were in clockwise order; the tables describe this mesh. -/
theorem C132_doubles_partial (wrap : Bool) (ev : View ℕ) (vv : View R) (v : ℕ → ℕ → ℕ) (he : ev.Contiguous) (hv : vv.Contiguous) (hnf : ev.s1 = 3 ∨ ev.s1 = 4) (hdim : 2 ≤ vv.s1)
    (hold : HoldsDoubles ev v) (hr : ∀ i < ev.s0, ∀ j < ev.s1, v i j < vv.s0) (hd : ∀ i < ev.s0, ∀ j < ev.s1, ∀ j' < ev.s1, j ≠ j' → v i j ≠ v i j')
    (hov : vv.s0 * (ev.s1 * ev.s0) ≤ intMax) :
    ∃ M, buildMeshNumpy wrap ev vv = .ok M ∧ M.nv = vv.s0 ∧ M.dim = vv.s1 ∧ M.k = ev.s0 ∧ M.nf = ev.s1 ∧
      (∀ i < vv.s0, ∀ d < vv.s1, M.vert[i * vv.s1 + d]? = vv.at' i d) ∧
      (∀ e < ev.s0, (∀ i < ev.s1, M.e2v[e * ev.s1 + i]? = some (v e i : Int)) ∨
        (M.e2v[e * ev.s1]? = some (v e 0 : Int) ∧ M.e2v[e * ev.s1 + 1]? = some (v e 2 : Int) ∧ M.e2v[e * ev.s1 + 2]? = some (v e 1 : Int) ∧
          ∀ i < ev.s1, 3 ≤ i → M.e2v[e * ev.s1 + i]? = some (v e i : Int))) ∧ TablesOK M := by
  set K := ev.s0 with hK
  set nf := ev.s1 with hn
  set E : List Int := (List.range (K * nf)).map fun g => ((v (g / nf) (g % nf) : ℕ) : Int) with hE
  have hnf0 : 0 < nf := by omega
  have hlen : E.length = nf * K := by simp [hE, Nat.mul_comm]
  have hget : ∀ e < K, ∀ i < nf, E.getD (e * nf + i) 0 = (v e i : Int) := by
    intro e hh i hi
    have hlt : e * nf + i < K * nf := idx_lt hh hi
    have h1 : (e * nf + i) / nf = e := by rw [Nat.mul_comm, Nat.mul_add_div hnf0, Nat.div_eq_of_lt hi, Nat.add_zero]
    have h2 : (e * nf + i) % nf = i := by rw [Nat.mul_comm, Nat.mul_add_mod, Nat.mod_eq_of_lt hi]
    simp [hE, hlt, h1, h2]
  have hvl := take_len hv.fits
  have hel := take_len he.fits
  have hcast : loopM (fun l w => do let v ← castInt (decode64 w); pure (l ++ [v])) [] ((ev.mem.drop ev.off).take (ev.s0 * ev.s1)) = .ok E := by
    have := castLoop ((ev.mem.drop ev.off).take (ev.s0 * ev.s1)) E (forall₂_get (by rw [hel, hlen, Nat.mul_comm]) ?_) []
    · simpa using this
    · intro g hg
      have hg' : g < K * nf := by rw [hel] at hg; exact hg
      have hdiv : g / nf < K := Nat.div_lt_of_lt_mul (by rwa [Nat.mul_comm] at hg')
      have hmod : g % nf < nf := Nat.mod_lt _ hnf0
      obtain ⟨w, hw, hdw⟩ := hold (g / nf) hdiv (g % nf) hmod
      rw [he.at_eq hdiv hmod, ← hn, Nat.div_add_mod'] at hw
      have hwe : ((ev.mem.drop ev.off).take (ev.s0 * ev.s1))[g] = w := by
        rw [List.getElem?_eq_getElem hg] at hw
        exact Option.some.inj hw
      rw [hwe, hdw]
      have hle : v (g / nf) (g % nf) ≤ 2147483647 := by
        have h1 := hr _ hdiv _ hmod
        have h2 : vv.s0 * 1 ≤ vv.s0 * (nf * K) := Nat.mul_le_mul_left _ (Nat.mul_pos hnf0 (Nat.lt_of_le_of_lt (Nat.zero_le _) hdiv))
        unfold intMax at hov
        omega
      rw [castInt_nat hle]
      simp [hE]
  have hin : ∀ x ∈ E, 0 ≤ x ∧ x < (vv.s0 : Int) := by
    intro x hx
    rw [hE, List.mem_map] at hx
    obtain ⟨g, hg, rfl⟩ := hx
    rw [List.mem_range] at hg
    have h1 := hr _ (Nat.div_lt_of_lt_mul (by rwa [Nat.mul_comm] at hg)) _ (Nat.mod_lt g hnf0)
    omega
  have hdist : ∀ e < K, ∀ i < nf, ∀ j < nf, i ≠ j → vtx nf E e i ≠ vtx nf E e j := by
    intro e hh i hi j hj hij
    unfold vtx
    rw [hget e hh i hi, hget e hh j hj]
    have := hd e hh i hi j hj hij
    exact_mod_cast this
  obtain ⟨M, m1, m2, m3, m4, m5, m6, m7, m8⟩ := Mesh.finish_ok wrap vv.s1 vv.s0 nf K ((vv.mem.drop vv.off).take (vv.s0 * vv.s1)) E hnf hdim
    (by rw [hvl, Nat.mul_comm]) hlen hin hdist (Or.inl hov)
  refine ⟨M, ?_, m4, m3, m6, m5, ?_, ?_, m8⟩
  · unfold buildMeshNumpy Mesh.buildMesh
    rw [raw_ok vv hv.fits, Out.bind_ok, raw_ok ev he.fits, Out.bind_ok, hcast, Out.bind_ok, m1]
  · intro i hi d hdd
    rw [m7, hv.at_eq hi hdd]
  · intro e hh
    have hMlen : M.e2v.length = nf * K := by have := m8.1; rwa [m5, m6] at this
    have toOpt : ∀ i < nf, ∀ x : Int, vtx nf M.e2v e i = x → M.e2v[e * nf + i]? = some x := by
      intro i hi x hx
      have hlt : e * nf + i < M.e2v.length := by rw [hMlen, Nat.mul_comm nf K]; exact idx_lt hh hi
      rw [getD_of_lt hlt]
      exact congrArg some hx
    have hvt : ∀ i < nf, vtx nf E e i = (v e i : Int) := fun i hi => hget e hh i hi
    rcases hnf with h3 | h4
    · rw [h3] at m2 hvt hlen toOpt ⊢
      obtain ⟨e', a1, -, -, a4⟩ := Mesh.C23_triangles vv.s0 vv.s1 K _ E hdim (by rw [hvl, Nat.mul_comm]) hlen hin
      rw [m2, Out.ok.injEq] at a1
      subst a1
      obtain ⟨b, -⟩ := a4 e hh
      rcases b with ⟨b0, b1, b2⟩ | ⟨b0, b1, b2⟩
      · left
        intro i hi
        interval_cases i
        · exact toOpt 0 (by omega) _ (b0.trans (hvt 0 (by omega)))
        · exact toOpt 1 (by omega) _ (b1.trans (hvt 1 (by omega)))
        · exact toOpt 2 (by omega) _ (b2.trans (hvt 2 (by omega)))
      · right
        exact ⟨toOpt 0 (by omega) _ (b0.trans (hvt 0 (by omega))), toOpt 1 (by omega) _ (b1.trans (hvt 2 (by omega))), toOpt 2 (by omega) _ (b2.trans (hvt 1 (by omega))), by omega⟩
    · rw [h4] at m2 hvt hlen toOpt ⊢
      obtain ⟨e', a1, -, -, a4⟩ := Mesh.C23_quads_partial vv.s0 vv.s1 K _ E hdim (by rw [hvl, Nat.mul_comm]) hlen hin
      rw [m2, Out.ok.injEq] at a1
      subst a1
      obtain ⟨b, -⟩ := a4 e hh
      rcases b with b | ⟨b0, b1, b2, b3⟩
      · left
        intro i hi
        exact toOpt i hi _ ((b i hi).trans (hvt i hi))
      · right
        refine ⟨toOpt 0 (by omega) _ (b0.trans (hvt 0 (by omega))), toOpt 1 (by omega) _ (b1.trans (hvt 2 (by omega))), toOpt 2 (by omega) _ (b2.trans (hvt 1 (by omega))), ?_⟩
        intro i hi h3
        obtain rfl : i = 3 := by omega
        exact toOpt 3 (by omega) _ (b3.trans (hvt 3 (by omega)))

omit [IsStrictOrderedRing R] in
/-- **C132, refuted for integer arrays.** If the element array holds 64-bit integers between 0 and 2^52 (numpy's default for integers), its contents have no influence: the outcome is the one
for any other such array of the same shape, in particular for all vertex numbers zero. -/
theorem C132_int64 (wrap : Bool) (ev ev' : View ℕ) (vv : View R) (he : ev.Contiguous) (he' : ev'.Contiguous) (h0 : ev.s0 = ev'.s0) (h1 : ev.s1 = ev'.s1)
    (hs : ∀ w ∈ ev.mem, w < 4503599627370496) (hs' : ∀ w ∈ ev'.mem, w < 4503599627370496) : buildMeshNumpy wrap ev vv = buildMeshNumpy wrap ev' vv := by
  have key : ∀ u : View ℕ, u.Contiguous → (∀ w ∈ u.mem, w < 4503599627370496) →
      loopM (fun l w => do let v ← castInt (decode64 w); pure (l ++ [v])) [] ((u.mem.drop u.off).take (u.s0 * u.s1)) = .ok (List.replicate (u.s0 * u.s1) 0) := by
    intro u hu hw
    have := castLoop ((u.mem.drop u.off).take (u.s0 * u.s1)) (List.replicate (u.s0 * u.s1) 0) (forall₂_get (by rw [take_len hu.fits, List.length_replicate]) ?_) []
    · simpa using this
    · intro i hi
      rw [List.getElem_replicate]
      exact castInt_small (hw _ (List.mem_of_mem_drop (List.mem_of_mem_take (List.getElem_mem hi))))
  unfold buildMeshNumpy
  rw [raw_ok ev he.fits, raw_ok ev' he'.fits]
  cases vv.raw with
  | ok verts =>
    simp only [Out.bind_ok, key ev he hs, key ev' he' hs']
    rw [h0, h1]
  | throws => rfl
  | ub => rfl

omit [IsStrictOrderedRing R] in
/-- **C132, refuted for 32-bit arrays.** An element array with fewer than eight bytes per entry is read past its end. -/
theorem C132_int32 (wrap : Bool) (ev : View ℕ) (vv : View R) (hv : vv.Contiguous) (ho : ev.off ≤ ev.mem.length) (hm : ev.mem.length < ev.off + ev.s0 * ev.s1) :
    buildMeshNumpy wrap ev vv = .ub := by
  unfold buildMeshNumpy
  rw [raw_ok vv hv.fits, Out.bind_ok]
  have : ev.raw = .ub := rawLoop_ub ev.mem ev.off _ [] hm ho
  rw [this]
  rfl

/-! ### Examples -/

/-- The square of two triangles, vertex numbers as doubles (0.0, 1.0, 2.0, 3.0 are the words below); the first triangle is clockwise. -/
def sqVerts : View ℚ := ⟨[0, 0, 1, 0, 1, 1, 0, 1], 0, 4, 2, 2, 1⟩
def sqDoubles : View ℕ := ⟨[0, 4611686018427387904, 4607182418800017408, 0, 4611686018427387904, 4613937818241073152], 0, 2, 3, 3, 1⟩
def sqInts : View ℕ := ⟨[0, 2, 1, 0, 2, 3], 0, 2, 3, 3, 1⟩

example : sqVerts.Contiguous ∧ sqDoubles.Contiguous ∧ sqInts.Contiguous := ⟨⟨rfl, rfl, by decide⟩, ⟨rfl, rfl, by decide⟩, ⟨rfl, rfl, by decide⟩⟩

example : HoldsDoubles sqDoubles fun i j => ([[0, 2, 1], [0, 2, 3]].getD i []).getD j 0 := by
  unfold HoldsDoubles
  have e : sqDoubles.s0 = 2 ∧ sqDoubles.s1 = 3 := ⟨rfl, rfl⟩
  rw [e.1, e.2]
  intro i hi j hj
  interval_cases i <;> interval_cases j
  · exact ⟨0, rfl, by decide +kernel⟩
  · exact ⟨4611686018427387904, rfl, by decide +kernel⟩
  · exact ⟨4607182418800017408, rfl, by decide +kernel⟩
  · exact ⟨0, rfl, by decide +kernel⟩
  · exact ⟨4611686018427387904, rfl, by decide +kernel⟩
  · exact ⟨4613937818241073152, rfl, by decide +kernel⟩

example : buildMeshNumpy false sqDoubles sqVerts = .ok
    { dim := 2, nv := 4, nf := 3, k := 2, vert := [0, 0, 1, 0, 1, 1, 0, 1], e2v := [0, 1, 2, 0, 2, 3],
      e2e := [0, 0, 1, 0, 1, 1], e2f := [0, 1, 0, 2, 1, 2], bc := [3, 3, 0, 0, 3, 3] } := by decide +kernel

/-- **C132, counterexample.** The same element table as an integer array: both triangles consist of vertex 0 only. -/
theorem C132_int64_wrong : ∃ M, buildMeshNumpy false sqInts sqVerts = .ok M ∧ M.e2v = [0, 0, 0, 0, 0, 0] ∧ M.k = 2 :=
  ⟨{ dim := 2, nv := 4, nf := 3, k := 2, vert := [0, 0, 1, 0, 1, 1, 0, 1], e2v := [0, 0, 0, 0, 0, 0],
      e2e := [0, 0, 0, 1, 1, 1], e2f := [0, 1, 2, 0, 1, 2], bc := [3, 3, 3, 3, 3, 3] }, by decide +kernel, rfl, rfl⟩

end Blitzdg.Py
