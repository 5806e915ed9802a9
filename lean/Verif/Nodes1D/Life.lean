import Verif.Nodes1D.Ops
import Verif.Py.Model

/-!
The life of a `Nodes1DProvisioner` object: constructor, any sequence of calls of `buildNodes` and `computeJacobian`, and what Python reads from it (src/pyblitzdg/pyblitzdg.cpp lines 66-81).
Arrays keep the extents the constructor gives them.  Before they are written they hold whatever was in memory; an index read from such memory is not usable (`fmask := none`).
-/

namespace Blitzdg.Nodes1D

open Blitzdg.Sparse (DMat)
open Blitzdg.Py (NdArray exportTo storage)

/-- The object (include/Nodes1DProvisioner.hpp lines 31-62).  `Dr` is `(N+1, N+1)`, `lift` `(N+1, 2)`, `J` and `rx` `(N+1, K)`, `fsc` `(2, K)`. -/
structure Prov where
  N : ℕ
  K : ℕ
  xmin : ℝ
  xmax : ℝ
  r : List ℝ
  V : ℕ → ℕ → ℝ
  Vinv : ℕ → ℕ → ℝ
  Dr : ℕ → ℕ → ℝ
  lift : ℕ → ℕ → ℝ
  tab : Tables ℝ
  fmask : Option (List ℕ)
  J : ℕ → ℕ → ℝ
  rx : ℕ → ℕ → ℝ
  fsc : ℕ → ℕ → ℝ

/-- The constructor (src/Nodes1DProvisioner.cpp lines 33-55): arrays are allocated, not written; `mem a`, `imem a` is what array number `a` happens to hold. -/
def Prov.new (N K : ℕ) (xmin xmax : ℝ) (mem : ℕ → ℕ → ℕ → ℝ) (imem : ℕ → ℕ → ℕ) : Prov where
  N := N
  K := K
  xmin := xmin
  xmax := xmax
  r := (List.range (N + 1)).map (mem 0 0)
  V := mem 1
  Vinv := mem 2
  Dr := mem 3
  lift := mem 4
  tab := { x := ⟨N + 1, K, mem 5⟩, e2v := (List.range (2 * K)).map (imem 0), e2e := (List.range (2 * K)).map (imem 1), e2f := (List.range (2 * K)).map (imem 2),
           fx := (List.range (2 * K)).map (mem 6 0), vmapM := (List.range (2 * K)).map (imem 3), vmapP := (List.range (2 * K)).map (imem 4), nx := (List.range (2 * K)).map (mem 7 0) }
  fmask := none
  J := mem 8
  rx := mem 9
  fsc := mem 10

/-- The two methods; LAPACK may behave differently at every call. -/
inductive Call | build (la : Lapack) | jacobian

/-- src/Nodes1DProvisioner.cpp lines 57-89.  `NodeTol = 1e-5` (line 31).  An exception leaves the object as it is, apart from the two ends of `rGrid` (src/JacobiBuilders.cpp lines 105-106): by C47 only
the eigenvalue routine can fail, which comes before everything else is written.  The flag tells whether the method returned normally. -/
noncomputable def Prov.build (eps : ℝ) (la : Lapack) (p : Prov) : Out (Prov × Bool) :=
  match buildOps la eps p.N p.r ⟨p.N + 1, p.N + 1, p.Vinv⟩ with
  | .ok o => do
    let t ← buildNodes false 1e-5 p.xmin p.xmax p.K o.r p.tab
    pure ({ p with r := o.r, V := o.V.at', Vinv := o.Vinv.at', Dr := o.Dr.at', lift := o.lift.at', tab := t, fmask := some (Nodes1D.fmask (p.N + 1)) }, true)
  | .throws => .ok ({ p with r := (p.r.set 0 (-1)).set p.N 1 }, false)
  | .ub => .ub

/-- src/Nodes1DProvisioner.cpp lines 261-281 `computeJacobian`. -/
noncomputable def Prov.jacobian (p : Prov) : Out Prov :=
  match p.fmask with
  | none => .ub
  | some m =>
    let J := fun i k => ∑ q ∈ Finset.range (p.N + 1), p.Dr i q * p.tab.x.at' q k
    .ok { p with J := J, rx := fun i k => 1 / J i k, fsc := fun f k => 1 / J (m.getD f 0) k }

/-- One call. -/
noncomputable def Prov.call (eps : ℝ) (p : Prov) : Call → Out (Prov × Bool)
  | .build la => p.build eps la
  | .jacobian => p.jacobian >>= fun q => .ok (q, true)

/-- A sequence of calls; which of them returned normally.  Exceptions are caught by the caller. -/
noncomputable def Prov.run (eps : ℝ) (p : Prov) : List Call → Out (Prov × List Bool)
  | [] => .ok (p, [])
  | c :: cs => do
    let (q, b) ← p.call eps c
    let (q, bs) ← q.run eps cs
    pure (q, b :: bs)

/-- src/Nodes1DProvisioner.cpp lines 317-350, 366-371: the matrices Python sees. -/
noncomputable def Prov.xGrid (p : Prov) : Out (NdArray ℝ) := exportTo [p.N + 1, p.K] (storage p.tab.x)
noncomputable def Prov.getDr (p : Prov) : Out (NdArray ℝ) := exportTo [p.N + 1, p.N + 1] (storage ⟨p.N + 1, p.N + 1, p.Dr⟩)
noncomputable def Prov.getFscale (p : Prov) : Out (NdArray ℝ) := exportTo [1 * 2, p.K] (storage ⟨2, p.K, p.fsc⟩)
noncomputable def Prov.getRx (p : Prov) : Out (NdArray ℝ) := exportTo [p.N + 1, p.K] (storage ⟨p.N + 1, p.K, p.rx⟩)
noncomputable def Prov.getLift (p : Prov) : Out (NdArray ℝ) := exportTo [p.N + 1, 1 * 2] (storage ⟨p.N + 1, 2, p.lift⟩)
noncomputable def Prov.getNx (p : Prov) : Out (NdArray ℝ) := exportTo [1 * 2, p.K] p.tab.nx

/-- src/Nodes1DProvisioner.cpp lines 352-364: the surface maps. -/
def Prov.getVmapM (p : Prov) : Out (NdArray ℕ) := exportTo [p.K * 1 * 2] p.tab.vmapM
def Prov.getVmapP (p : Prov) : Out (NdArray ℕ) := exportTo [p.K * 1 * 2] p.tab.vmapP

end Blitzdg.Nodes1D
