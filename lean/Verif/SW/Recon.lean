import Verif.SW.Flux
import Verif.Basic

/-!
Model of swhelpers/limiters.py lines 36-81: the reconstruction of the water depth at faces from surface and bed.
-/

namespace Blitzdg.SW

/-- Entry `i` of a one-dimensional array. -/
noncomputable def ent (a : List ℝ) (i : ℕ) : ℝ := a.getD i 0

/-- swhelpers/limiters.py lines 24-34 `minmod` on arrays: `soln` has the shape of `a`, and `b[i]` raises IndexError when `b` is shorter. -/
noncomputable def minmodA (a b : List ℝ) : Out (List ℝ) :=
  if a.length ≤ b.length then .ok ((List.range a.length).map fun i => minmod (ent a i) (ent b i)) else .throws

/-- Difference of arrays of equal length; other lengths raise (NumPy stretches an array of length one, which is left out). -/
noncomputable def subA (a b : List ℝ) : Out (List ℝ) :=
  if a.length = b.length then .ok ((List.range a.length).map fun i => ent a i - ent b i) else .throws

/-- swhelpers/limiters.py lines 57-64, pass `i` of the loop: the correction limited by the difference of the surfaces, the sign test, and the new `etaP[i]`.  A pass touches entry `i` only. -/
noncomputable def corrStep (etaM etaP : List ℝ) (corr : List ℝ) (i : ℕ) : ℝ :=
  let c := if ent corr i > ent etaM i - ent etaP i then ent etaM i - ent etaP i else ent corr i
  if c ≤ 0 then ent etaP i else ent etaP i + c

/-- swhelpers/limiters.py line 77 (79): `h[h <= 1e-3] = 1e-3`. -/
noncomputable def floorA (h : List ℝ) : List ℝ := h.map fun x => if x ≤ 1e-3 then 1e-3 else x

/-- What a call leaves behind: the two arrays returned and the array the caller passed as `etaP`, which line 64 adds to in place. -/
structure Recon where
  hM : List ℝ
  hP : List ℝ
  etaP : List ℝ

/-- swhelpers/limiters.py lines 36-81 `surfaceReconstruction`.  `maxz = zM` (line 71) is a second name of the array `zM`, whose entry `i` is read before it is overwritten. -/
noncomputable def surfaceReconstruction (etaM hM etaP hP : List ℝ) : Out Recon := do
  let zM ← subA etaM hM
  let zP ← subA etaP hP
  let up ← subA zP zM
  let down ← subA zM zP
  let m1 ← minmodA up (List.replicate zM.length 1e-3)
  let m2 ← minmodA down (List.replicate zM.length (-1 * 1e-3))
  let n := zM.length
  let dz := (List.range n).map fun i => (ent zP i - 0.5 * ent m1 i) - (ent zM i + 0.5 * ent m2 i)
  let corr := (List.range n).map fun i => ent zM i - ent zP i - ent dz i
  let etaP' := (List.range n).map (corrStep etaM etaP corr)
  let zP' ← subA etaP' hP
  let maxz := (List.range n).map fun i => if ent zP' i > ent zM i then ent zP' i else ent zM i
  let a ← subA etaM maxz
  let b ← subA etaP' maxz
  pure ⟨floorA a, floorA b, etaP'⟩

end Blitzdg.SW
