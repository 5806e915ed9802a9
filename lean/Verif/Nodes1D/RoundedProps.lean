import Verif.Nodes1D.Rounded
import Verif.Nodes1D.Props
import Verif.Time.FloatExact

/-! C142 in one dimension: elements meet exactly, whatever the rounding. -/

namespace Blitzdg.Nodes1D

open Blitzdg.Sparse

variable {R : Type} [Field R] [LinearOrder R] [IsStrictOrderedRing R]

/-- The surface maps, for any coordinates which agree where elements meet. -/
theorem maps_any (tol : R) (htol : 0 < tol) (n K : Nat) (xg : DMat R) (hrow : xg.rows = n + 1) (hcol : xg.cols = K)
    (hx : ∀ g < 2 * K, xg.at' (if across K g % 2 = 0 then 0 else n) (across K g / 2) = xg.at' (if g % 2 = 0 then 0 else n) (g / 2)) {E F : List Nat}
    (hE : ∀ g < 2 * K, E[g]? = some (across K g / 2) ∧ F[g]? = some (across K g % 2)) :
    ∃ vm vp, buildMaps tol (n + 1) K xg E F = .ok (vm, vp) ∧ vm.length = 2 * K ∧ vp.length = 2 * K ∧
      ∀ g < 2 * K, vm[g]? = some (faceNode n g) ∧ vp[g]? = some (faceNode n (across K g)) := by
  obtain ⟨x, x1, x2, x3, _⟩ := Blitz.C10_flatten xg (List.replicate (K * (n + 1)) 0) false
    (by simp [hrow, hcol, Nat.mul_comm])
  obtain ⟨vm, v1, v2, v3⟩ := vmapM_ok n K
  have hxg : ∀ g < 2 * K, rd x (faceNode n g) = .ok (xg.at' (if g % 2 = 0 then 0 else n) (g / 2)) := by
    intro g hg
    rw [rd_eq_ok]
    have := x3 (if g % 2 = 0 then 0 else n) (g / 2) (by rw [hrow]; split_ifs <;> omega) (by rw [hcol]; omega)
    rw [← this]
    congr 1
    simp only [Blitz.pos, faceNode, hrow]
    simp only [Bool.false_eq_true, if_false]
    split_ifs <;> omega
  obtain ⟨vp, p1, p2, p3⟩ := scatter (vmapPStep tol x E F vm) (fun g => g) (fun g => faceNode n (across K g)) (fun g => g)
    (fun g => (g / 2, g % 2)) (2 * K) (2 * K) (by
      intro l g hg hl
      have hd : g / 2 * 2 + g % 2 = g := by omega
      have ha := across_lt hg
      have hd' : across K g / 2 * 2 + across K g % 2 = across K g := by omega
      simp only [vmapPStep, hd]
      rw [rd_eq_ok.2 (hE g hg).1, Out.bind_ok, rd_eq_ok.2 (hE g hg).2, Out.bind_ok, rd_eq_ok.2 (v3 g hg), Out.bind_ok, hd',
        rd_eq_ok.2 (v3 _ ha), Out.bind_ok, hxg g hg, Out.bind_ok, hxg _ ha, Out.bind_ok,
        hx g hg, sub_self, abs_zero, if_pos htol, wr_of_lt (by omega)]
      rfl) (fun g hg => hg) (fun _ _ _ _ h => h) (List.replicate (2 * K) 0) (by simp)
  refine ⟨vm, vp, ?_, v2, p2, fun g hg => ⟨v3 g hg, p3 g hg⟩⟩
  rw [← items] at p1
  simp only [buildMaps, x1, Out.bind_ok, v1, p1, Out.pure_eq]

omit [LinearOrder R] [IsStrictOrderedRing R] in
/-- End nodes of elements, in rounding arithmetic. -/
theorem rounded_face [NeZero (2 : R)] (rnd : R → R) (hint : ∀ z : ℕ, z ≤ intMax → rnd (z : R) = z) (xmin xmax : R) (n K : Nat) (hK : K ≤ intMax) (r : List R)
    (h0 : r[0]? = some (-1 : R)) (hn : r[n]? = some (1 : R)) (g : Nat) (hg : g < 2 * K) :
    (gridRounded rnd xmin xmax K r).at' (if g % 2 = 0 then 0 else n) (g / 2) = rnd (xmin + rnd (rnd (rnd (xmax - xmin) / K) * ((vert g : Nat) : R))) := by
  have e0 : r.getD 0 0 = -1 := by rw [List.getD_eq_getElem?_getD, h0]; rfl
  have en : r.getD n 0 = 1 := by rw [List.getD_eq_getElem?_getD, hn]; rfl
  have z0 : rnd 0 = 0 := by simpa using hint 0 (by decide)
  have z1 : rnd 1 = 1 := by simpa using hint 1 (by decide)
  have z2 : rnd 2 = 2 := by simpa using hint 2 (by decide)
  rw [vert_eq]
  have hm : g % 2 = 0 ∨ g % 2 = 1 := by omega
  rcases hm with hm | hm
  · simp only [gridRounded, hm, if_true, e0]
    rw [show (-1 : R) + 1 = 0 by ring, z0, mul_zero, z0, add_zero, hint _ (by omega)]
    simp
  · simp only [gridRounded, hm]
    simp only [one_ne_zero, if_false, en]
    rw [show (1 : R) + 1 = 2 by norm_num, z2, one_div_mul_cancel two_ne_zero, z1, show ((g / 2 : ℕ) : R) + 1 = ((g / 2 + 1 : ℕ) : R) by push_cast; ring, hint _ (by omega)]

/-- **C142 in one dimension.**  Whatever the rounding, as long as integers of type `int` are not changed by it: for every order, number of elements and interval, with reference nodes from exactly -1 to exactly 1, the grid
computed in rounding arithmetic has the connectivity and surface maps of the exact one, and the coordinates on the two sides of every face are the same number.  Nothing is required of the size of the elements or of
their distance from the origin. -/
theorem C142_interval (rnd : R → R) (hint : ∀ z : ℕ, z ≤ intMax → rnd (z : R) = z) (wrap : Bool) (tol xmin xmax : R) (htol : 0 < tol) (n K : Nat) (hK : 0 < K) (r : List R)
    (hlen : r.length = n + 1) (h0 : r[0]? = some (-1 : R)) (hn : r[n]? = some (1 : R)) (o : Tables R) (ho : Sized o K) (hov : (K + 1) * (2 * K) ≤ intMax) :
    ∃ t t', buildNodes wrap tol xmin xmax K r o = .ok t ∧ buildNodesRounded rnd wrap tol xmin xmax K r o = .ok t' ∧ t'.e2v = t.e2v ∧ t'.e2e = t.e2e ∧ t'.e2f = t.e2f ∧ t'.nx = t.nx ∧
      t'.vmapM = t.vmapM ∧ t'.vmapP = t.vmapP ∧ (∀ k, k + 1 < K → t'.x.at' n k = t'.x.at' 0 (k + 1)) ∧
      ∀ g < 2 * K, ∃ a b, t'.vmapM[g]? = some a ∧ t'.vmapP[g]? = some b ∧ t'.x.at' (a % (n + 1)) (a / (n + 1)) = t'.x.at' (b % (n + 1)) (b / (n + 1)) := by
  have hK' : K ≤ intMax := by nlinarith
  obtain ⟨e2v, a1, a2, a3⟩ := e2v_ok K o.e2v ho.e2v
  obtain ⟨E, F, b1, b2, b3, b4⟩ := conn_ok (wrap := wrap) hK a3 ho.e2e ho.e2f (Or.inl hov)
  obtain ⟨fx, c1, -⟩ := fx_ok n K (grid xmin xmax K r) o.fx ho.fx
  obtain ⟨fx', c1', -⟩ := fx_ok n K (gridRounded rnd xmin xmax K r) o.fx ho.fx
  obtain ⟨vm, vp, d1, d2, d3, d4⟩ := maps_ok tol htol xmin xmax n K r hlen h0 hn b4
  have hface := rounded_face rnd hint xmin xmax n K hK' r h0 hn
  have hx : ∀ g < 2 * K, (gridRounded rnd xmin xmax K r).at' (if across K g % 2 = 0 then 0 else n) (across K g / 2) = (gridRounded rnd xmin xmax K r).at' (if g % 2 = 0 then 0 else n) (g / 2) := by
    intro g hg
    rw [hface g hg, hface _ (across_lt hg), vert_across K g]
  obtain ⟨vm', vp', d1', d2', d3', d4'⟩ := maps_any tol htol n K (gridRounded rnd xmin xmax K r) hlen rfl hx b4
  obtain ⟨nx, f1, -⟩ := normals_ok K o.nx ho.nx
  have hvm : vm' = vm := by
    apply List.ext_getElem? fun g => ?_
    by_cases hg : g < 2 * K
    · rw [(d4' g hg).1, (d4 g hg).1]
    · rw [List.getElem?_eq_none (by omega), List.getElem?_eq_none (by omega)]
  have hvp : vp' = vp := by
    apply List.ext_getElem? fun g => ?_
    by_cases hg : g < 2 * K
    · rw [(d4' g hg).2, (d4 g hg).2]
    · rw [List.getElem?_eq_none (by omega), List.getElem?_eq_none (by omega)]
  refine ⟨⟨grid xmin xmax K r, e2v, E, F, fx, vm, vp, nx⟩, ⟨gridRounded rnd xmin xmax K r, e2v, E, F, fx', vm', vp', nx⟩, ?_, ?_, rfl, rfl, rfl, rfl, hvm, hvp, ?_, ?_⟩
  · simp only [buildNodes, a1, Out.bind_ok, b1, hlen, c1, d1, f1, Out.pure_eq]
  · simp only [buildNodesRounded, a1, Out.bind_ok, b1, hlen, c1', d1', f1, Out.pure_eq]
  · intro k hk
    have p := hface (2 * k + 1) (by omega)
    have q := hface (2 * (k + 1)) (by omega)
    rw [show (2 * k + 1) % 2 = 1 by omega, show (2 * k + 1) / 2 = k by omega, if_neg (by omega)] at p
    rw [show 2 * (k + 1) % 2 = 0 by omega, show 2 * (k + 1) / 2 = k + 1 by omega, if_pos rfl] at q
    rw [p, q]
    rw [show vert (2 * k + 1) = vert (2 * (k + 1)) by unfold vert; omega]
  · intro g hg
    refine ⟨faceNode n g, faceNode n (across K g), (d4' g hg).1, (d4' g hg).2, ?_⟩
    have key : ∀ g, faceNode n g % (n + 1) = (if g % 2 = 0 then 0 else n) ∧ faceNode n g / (n + 1) = g / 2 := by
      intro g
      unfold faceNode
      split_ifs
      · exact ⟨Nat.mul_mod_left _ _, Nat.mul_div_cancel _ (by omega)⟩
      · constructor
        · rw [Nat.add_comm, Nat.add_mul_mod_self_right, Nat.mod_eq_of_lt (by omega)]
        · rw [Nat.add_comm, Nat.add_mul_div_right _ _ (by omega), Nat.div_eq_of_lt (by omega), Nat.zero_add]
    rw [(key g).1, (key g).2, (key (across K g)).1, (key (across K g)).2]
    exact (hx g hg).symm

/-- C142_interval applies to double precision. -/
theorem double_int {S : Type} [Field S] [LinearOrder S] [IsStrictOrderedRing S] [FloorRing S] (z : ℕ) (hz : z ≤ intMax) : Time.fl 53 (z : S) = z := by
  have := Time.fl_int (R := S) (z : ℤ) (by
    unfold intMax at hz
    rw [abs_of_nonneg (by omega)]
    have : (z : ℤ) ≤ 2147483647 := by omega
    exact lt_of_le_of_lt this (by norm_num))
  exact_mod_cast this

/-- For example two elements of order two on the interval from 0 to 1/10. -/
example : ∃ t, buildNodesRounded (Time.fl 53) false (1 / 100000 : ℚ) 0 (1 / 10) 2 [-1, 0, 1] exOld = .ok t ∧ t.vmapP = [0, 3, 2, 5] ∧ t.x.at' 2 0 = t.x.at' 0 1 := by
  obtain ⟨t, t', h1, h2, -, -, -, -, -, h3, h4, -⟩ := C142_interval (Time.fl 53) double_int false (1 / 100000 : ℚ) 0 (1 / 10) (by norm_num) 2 2 (by omega) [-1, 0, 1] rfl rfl rfl exOld ⟨rfl, rfl, rfl, rfl, rfl⟩ (by decide)
  refine ⟨t', h2, ?_, h4 0 (by omega)⟩
  rw [h3]
  have : (buildNodes false (1 / 100000 : ℚ) 0 (1 / 10) 2 [-1, 0, 1] exOld >>= fun t => .ok t.vmapP) = .ok [0, 3, 2, 5] := by decide +kernel
  rw [h1] at this
  simpa using this

end Blitzdg.Nodes1D
