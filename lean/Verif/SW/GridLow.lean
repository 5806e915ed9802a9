import Verif.DG2D.LowOrder
import Verif.SW.MassProps
import Verif.Output.VtkProps

/-! Triangle grids of orders one to five: with the constants of the code, on every conforming counter-clockwise mesh, the provisioner is built unless the eigenvalue routine fails.  All theorems about
`Provisioned` grids therefore apply to these orders without conditions on the reference nodes. -/

namespace Blitzdg.SW

open Blitzdg.Sparse (DMat)
open Blitzdg.Nodes1D (Lapack exactLapack exactLapack_ok)
open Blitzdg.Dense (toMat)
open Blitzdg.DG2D

/-- **C47, C71, C74 for whole grids, orders one to five.** The provisioner throws if the eigenvalue routine fails and otherwise builds a grid, for every conforming mesh. -/
theorem C47_grid_low (la : Lapack) (hla : la.Ok) (eps : ℝ) (he0 : 0 < eps) (he1 : eps ≤ 0.1) (ztol tol : ℝ) (h0 : 0 < ztol) (hz : ztol < 1 / 5) (ht : 0 < tol) (htol : tol ≤ 1 / 10) (N : ℕ)
    (hN : 1 ≤ N) (h5 : N ≤ 5) (m : Mesh) (P : ℕ → ℕ) (hm : m.Ok P) :
    ((∀ x, ¬ IsGLL la eps N x) ∧ buildGrid la eps ztol tol N m = .throws) ∨ ∃ g, Provisioned la eps ztol tol N m P g := by
  have hz' : ztol < 2 / N := by
    refine hz.trans_le ?_
    rw [le_div_iff₀ (by exact_mod_cast hN)]
    have : (N : ℝ) ≤ 5 := by exact_mod_cast h5
    linarith
  rcases C47_triangle_low la hla eps he0 he1 ztol tol h0 hz ht (by linarith) N hN h5 with ⟨h, h'⟩ | ⟨x, n, o, -, h1, -⟩
  · left
    refine ⟨h, ?_⟩
    unfold buildGrid
    rw [h']
    rfl
  · right
    have hgap : ∀ x, IsGLL la eps N x → ∀ i j : ℕ, i < j → j ≤ N → 2 * tol ≤ x.getD j 0 - x.getD i 0 := fun x hx i j hij hj => by
      linarith [gll_sep la hla eps he0 he1 N hN h5 x hx i j hij hj]
    obtain ⟨g, x, hb, -, -, rfl, -⟩ := buildGrid_spec la hla eps he0 he1 ztol tol h0 ht N hN hz' m P hm n o h1 hgap
    exact ⟨g, ⟨hla, he0, he1, h0, ht, hN, hz', hm, hb, hgap⟩⟩

/-- With an exact LAPACK and the constants of the code, the unit square cut in two is provisioned at every order from one to five. -/
theorem square_grid_low (N : ℕ) (hN : 1 ≤ N) (h5 : N ≤ 5) : ∃ g, Provisioned exactLapack (1 / 2 ^ 52) 1e-10 1e-5 N square twoTri g := by
  rcases C47_grid_low exactLapack exactLapack_ok (1 / 2 ^ 52) (by norm_num) (by norm_num) 1e-10 1e-5 (by norm_num) (by norm_num) (by norm_num) (by norm_num) N hN h5 square twoTri square_ok with
    ⟨h, -⟩ | h
  · obtain ⟨x, hx⟩ := exact_gll (1 / 2 ^ 52) (by norm_num) (by norm_num) N hN
    exact absurd hx (h x)
  · exact h

/-- For example C80 applies to a non-uniform moving state at order three. -/
example : ∃ g : Grid, g.N = 3 ∧ ∃ q : Fields, q.Fits g ∧ Wet g q ∧ q.h.at' 0 0 ≠ q.h.at' 1 0 ∧ q.hu.at' 0 1 ≠ 0 ∧
    ∃ r, g.rhsSimple 9.81 q = .ok r ∧ r.Fits g ∧ ∀ M, IsTotal g r.h.at' M ↔ M = 0 := by
  obtain ⟨g, hg⟩ := square_grid_low 3 (by omega) (by omega)
  obtain ⟨-, -, h3, -⟩ := hg.spec
  have hf : Fields.Fits ⟨⟨g.np, g.K, fun i k => 1 + i + k⟩, ⟨g.np, g.K, fun i k => i + 2 * k⟩, ⟨g.np, g.K, fun i _ => -i⟩⟩ g := ⟨⟨rfl, rfl⟩, ⟨rfl, rfl⟩, rfl, rfl⟩
  have hwet : Wet g ⟨⟨g.np, g.K, fun i k => 1 + i + k⟩, ⟨g.np, g.K, fun i k => i + 2 * k⟩, ⟨g.np, g.K, fun i _ => -i⟩⟩ := by
    intro i _ k _; simp only; positivity
  exact ⟨g, h3, _, hf, hwet, by norm_num, by norm_num, C80_mass hg square_walls.1 square_walls.2 9.81 _ hf hwet⟩

end Blitzdg.SW

namespace Blitzdg.Output

open Blitzdg.Sparse (DMat)
open Blitzdg.Nodes1D (Lapack exactLapack exactLapack_ok)
open Blitzdg.DG2D

/-- **C135, triangles of orders two to five, from the provisioner's constructor to the file.** -/
theorem C135_tri_low (la : Lapack) (hla : la.Ok) (eps : ℝ) (he0 : 0 < eps) (he1 : eps ≤ 0.1) (ztol tol : ℝ) (h0 : 0 < ztol) (hz : ztol < 1 / 5) (ht : 0 < tol) (htol : tol ≤ 1 / 5) (N : ℕ)
    (hN : 2 ≤ N) (h5 : N ≤ 5) (hx : ∃ x, IsGLL la eps N x) :
    ∃ n o, triElement la eps ztol tol N = .ok (n, o) ∧ ∀ (K : ℕ) (T : ℕ → Tri) (U : ℕ → P2), (∀ k < K, (U k).totalDegree ≤ N) → ∀ u : List ℝ, u.length = n.r.length * K →
      ∃ F tr, vtkTri N o.Vinv (xOf n K T) (yOf n K T) (fieldOf n K T U) u = .ok F ∧ Pictures N K T U tr F := by
  rcases C47_triangle_low la hla eps he0 he1 ztol tol h0 hz ht htol N (by omega) h5 with ⟨h, -⟩ | ⟨x, n, o, -, h1, h2, h3, -, -, h4, h6⟩
  · obtain ⟨x, hx⟩ := hx
    exact absurd hx (h x)
  · exact ⟨n, o, h1, fun K T U hU u hu => C135_tri N hN n o h2 (fun k hk => regular_of_mem (h3 k hk).1 (h3 k hk).2.2) h4 h6 K T U hU u hu⟩

/-- The hypotheses hold with an exact LAPACK and the constants of the code, at order five. -/
example : ∃ n o, triElement exactLapack (1 / 2 ^ 52) 1e-10 1e-5 5 = .ok (n, o) ∧ ∀ (K : ℕ) (T : ℕ → Tri) (U : ℕ → P2), (∀ k < K, (U k).totalDegree ≤ 5) → ∀ u : List ℝ, u.length = n.r.length * K →
      ∃ F tr, vtkTri 5 o.Vinv (xOf n K T) (yOf n K T) (fieldOf n K T U) u = .ok F ∧ Pictures 5 K T U tr F :=
  C135_tri_low exactLapack exactLapack_ok (1 / 2 ^ 52) (by norm_num) (by norm_num) 1e-10 1e-5 (by norm_num) (by norm_num) (by norm_num) (by norm_num) 5 (by omega) (le_refl _)
    (exact_gll (1 / 2 ^ 52) (by norm_num) (by norm_num) 5 (by omega))

end Blitzdg.Output
