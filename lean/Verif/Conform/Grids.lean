import Verif.Nodes1D.Model
import Verif.DG2D.TraceProps
import Verif.DG2D.HashProps
import Verif.Conform.Files

/-!
The unit tests of the grids whose expected values are integers, run on the model: src/test/Nodes1DProvisionerTests.cpp (connectivity, face
mask, face coordinates, volume maps, normals) and src/test/TriangleNodesProvisionerTests.cpp (volume-to-face maps of coarse_box.msh).

As in `Verif.Conform.Helpers` these are tests of the model against the expected values of the authors; they prove no property.  The
reference nodes are roots of 5; here they are replaced by decimal approximations, which the tests allow.
-/

namespace Blitzdg.Conform

open Blitzdg.DG2D

/-! ### Nodes1DProvisionerTests.cpp: order 3, five elements on [-1, 1] -/

/-- The Legendre-Gauss-Lobatto nodes of order 3 to nine digits. -/
def lobatto3 : List ℚ := [-1, -0.447213595, 0.447213595, 1]

/-- Tables before the first call of `buildNodes`: right sizes, arbitrary entries. -/
def old1D : Nodes1D.Tables ℚ where
  x := ⟨0, 0, fun _ _ => 0⟩
  e2v := List.replicate 10 77
  e2e := List.replicate 10 77
  e2f := List.replicate 10 77
  fx := List.replicate 10 77
  vmapM := []
  vmapP := []
  nx := List.replicate 10 77

/-- The provisioner of the tests, lines 33-38. -/
def nodes1D : Out (Nodes1D.Tables ℚ) := Nodes1D.buildNodes false 1e-5 (-1) 1 5 lobatto3 old1D

/-- Lines 98-111, 168-196, 198-220, 222-245. -/
example : Out.map' (fun t => (t.e2v, t.e2e, t.e2f, t.vmapM, t.vmapP)) nodes1D = .ok
    ([0, 1, 1, 2, 2, 3, 3, 4, 4, 5], [0, 1, 0, 2, 1, 3, 2, 4, 3, 4], [0, 0, 1, 0, 1, 0, 1, 0, 1, 1], [0, 3, 4, 7, 8, 11, 12, 15, 16, 19],
      [0, 4, 3, 8, 7, 12, 11, 16, 15, 19]) := by decide +kernel

/-- Lines 198-220, 247-262: face mask, face coordinates (here exact), normals. -/
example : Nodes1D.fmask 4 = [0, 3] ∧ Out.map' (fun t => (t.fx, t.nx)) nodes1D = .ok
    ([-1, -0.6, -0.2, 0.2, 0.6, -0.6, -0.2, 0.2, 0.6, 1], [-1, -1, -1, -1, -1, 1, 1, 1, 1, 1]) := by decide +kernel

/-- Lines 79-96: the grid, within 1e-6 in each entry. -/
example : Out.map' (fun t => ((toRows t.x).zip [-1.000000, -0.600000, -0.200000, 0.200000, 0.600000,
    -0.889443, -0.489443, -0.089443, 0.310557, 0.710557,
    -0.710557, -0.310557, 0.089443, 0.489443, 0.889443,
    -0.600000, -0.200000, 0.200000, 0.600000, 1.000000]).all fun p => decide (|p.1 - p.2| < 1e-6)) nodes1D = .ok true := by decide +kernel

/-- Lines 113-146: `J`, `rx` and `Fscale` with the differentiation matrix printed in lines 65-68. -/
def dr3 : Sparse.DMat ℚ := ofRows 4 4 [-3, 4.0451, -1.5451, 0.5, -0.80902, 0, 1.1180, -0.30902, 0.30902, -1.1180, 0, 0.80902, -0.5, 1.5451, -4.0451, 3]

example : Out.map' (fun t => (Sparse.rowMajor 4 5).all fun ij => decide (|Nodes1D.jac dr3 t.x ij.1 ij.2 - 0.2| < 5e-5) &&
    decide (|Nodes1D.rx dr3 t.x ij.1 ij.2 - 5| < 2e-3) && decide (|Nodes1D.fscale dr3 t.x (ij.1 / 2) ij.2 - 5| < 2e-3)) nodes1D = .ok true := by
  decide +kernel

/-! ### TriangleNodesProvisionerTests.cpp: order 3 on coarse_box.msh -/

/-- Reference nodes `(r, s)` of order 3 in units of 1e-6, in the order of the code; node 5 is the centroid. -/
def tri3 : List (Int × Int) :=
  [(-1000000, -1000000), (-447214, -1000000), (447214, -1000000), (1000000, -1000000), (-1000000, -447214), (-333333, -333333),
   (447214, -447214), (-1000000, 447214), (-447214, 447214), (-1000000, 1000000)]

/-- Face masks of order 3: the nodes with `s = -1`, `r + s = 0`, `r = -1`. -/
def mask3 (n f : Nat) : Nat := (([[0, 1, 2, 3], [3, 6, 8, 9], [0, 4, 7, 9]] : List (List Nat)).getD f []).getD n 0

/-- The masks are what the tests of the code select, in increasing order. -/
example : ((List.range 3).map fun f => (List.range 4).map fun n => mask3 n f) =
    [(List.range 10).filter fun i => (tri3.getD i (0, 0)).2 = -1000000, (List.range 10).filter fun i => (tri3.getD i (0, 0)).1 + (tri3.getD i (0, 0)).2 = 0,
     (List.range 10).filter fun i => (tri3.getD i (0, 0)).1 = -1000000] := by decide +kernel

/-- A coordinate in units of 1e-9, rounded down. -/
def nano (q : ℚ) : Int := (q * 1000000000).floor

/-- Coordinates of all volume nodes of the mesh, element after element, in units of 1e-15. -/
def nodesOf (vert : List ℚ) (ev : List Int) (K : Nat) : List (Int × Int) :=
  (List.range K).flatMap fun k =>
    let c := fun j i => nano (vert.getD (3 * (ev.getD (3 * k + j) 0).toNat + i) 0)
    let a := (c 0 0, c 0 1)
    let b := (c 1 0, c 1 1)
    let d := (c 2 0, c 2 1)
    tri3.map fun rs => ((-(rs.1 + rs.2)) * a.1 + (1000000 + rs.1) * b.1 + (1000000 + rs.2) * d.1,
      (-(rs.1 + rs.2)) * a.2 + (1000000 + rs.1) * b.2 + (1000000 + rs.2) * d.2)

/-- All volume nodes of coarse_box.msh. -/
def coarsePts : List (Int × Int) := nodesOf fileVerts expectedElements 40

/-- Two volume nodes agree to 1e-5 of the side of the box in both coordinates. -/
def nearPts (P : List (Int × Int)) (a b : Nat) : Bool :=
  let p := P.getD a (0, 0)
  let q := P.getD b (1, 1)
  decide ((p.1 - q.1).natAbs < 10000000000) && decide ((p.2 - q.2).natAbs < 10000000000)

/-- Line 437, `expectedvmapM`. -/
def expectedvmapM : List Nat :=
   [0, 1, 2, 3, 3, 6, 8, 9, 0, 4, 7, 9, 10, 11, 12, 13, 13, 16, 18, 19, 10, 14, 17, 19, 20, 21, 22, 23, 23, 26, 28, 29, 20, 24, 27, 29, 30, 31, 32,
    33, 33, 36, 38, 39, 30, 34, 37, 39, 40, 41, 42, 43, 43, 46, 48, 49, 40, 44, 47, 49, 50, 51, 52, 53, 53, 56, 58, 59, 50, 54, 57, 59, 60, 61, 62,
    63, 63, 66, 68, 69, 60, 64, 67, 69, 70, 71, 72, 73, 73, 76, 78, 79, 70, 74, 77, 79, 80, 81, 82, 83, 83, 86, 88, 89, 80, 84, 87, 89, 90, 91, 92,
    93, 93, 96, 98, 99, 90, 94, 97, 99, 100, 101, 102, 103, 103, 106, 108, 109, 100, 104, 107, 109, 110, 111, 112, 113, 113, 116, 118, 119, 110, 114,
    117, 119, 120, 121, 122, 123, 123, 126, 128, 129, 120, 124, 127, 129, 130, 131, 132, 133, 133, 136, 138, 139, 130, 134, 137, 139, 140, 141, 142,
    143, 143, 146, 148, 149, 140, 144, 147, 149, 150, 151, 152, 153, 153, 156, 158, 159, 150, 154, 157, 159, 160, 161, 162, 163, 163, 166, 168, 169,
    160, 164, 167, 169, 170, 171, 172, 173, 173, 176, 178, 179, 170, 174, 177, 179, 180, 181, 182, 183, 183, 186, 188, 189, 180, 184, 187, 189, 190,
    191, 192, 193, 193, 196, 198, 199, 190, 194, 197, 199, 200, 201, 202, 203, 203, 206, 208, 209, 200, 204, 207, 209, 210, 211, 212, 213, 213, 216,
    218, 219, 210, 214, 217, 219, 220, 221, 222, 223, 223, 226, 228, 229, 220, 224, 227, 229, 230, 231, 232, 233, 233, 236, 238, 239, 230, 234, 237,
    239, 240, 241, 242, 243, 243, 246, 248, 249, 240, 244, 247, 249, 250, 251, 252, 253, 253, 256, 258, 259, 250, 254, 257, 259, 260, 261, 262, 263,
    263, 266, 268, 269, 260, 264, 267, 269, 270, 271, 272, 273, 273, 276, 278, 279, 270, 274, 277, 279, 280, 281, 282, 283, 283, 286, 288, 289, 280,
    284, 287, 289, 290, 291, 292, 293, 293, 296, 298, 299, 290, 294, 297, 299, 300, 301, 302, 303, 303, 306, 308, 309, 300, 304, 307, 309, 310, 311,
    312, 313, 313, 316, 318, 319, 310, 314, 317, 319, 320, 321, 322, 323, 323, 326, 328, 329, 320, 324, 327, 329, 330, 331, 332, 333, 333, 336, 338,
    339, 330, 334, 337, 339, 340, 341, 342, 343, 343, 346, 348, 349, 340, 344, 347, 349, 350, 351, 352, 353, 353, 356, 358, 359, 350, 354, 357, 359,
    360, 361, 362, 363, 363, 366, 368, 369, 360, 364, 367, 369, 370, 371, 372, 373, 373, 376, 378, 379, 370, 374, 377, 379, 380, 381, 382, 383, 383,
    386, 388, 389, 380, 384, 387, 389, 390, 391, 392, 393, 393, 396, 398, 399, 390, 394, 397, 399]

/-- Line 438, `expectedvmapP`. -/
def expectedvmapP : List Nat :=
   [240, 244, 247, 249, 189, 188, 186, 183, 90, 91, 92, 93, 250, 254, 257, 259, 199, 198, 196, 193, 100, 101, 102, 103, 270, 274, 277, 279, 179, 178,
    176, 173, 80, 81, 82, 83, 260, 264, 267, 269, 209, 208, 206, 203, 110, 111, 112, 113, 159, 158, 156, 153, 239, 238, 236, 233, 310, 311, 312, 313,
    139, 138, 136, 133, 219, 218, 216, 213, 290, 291, 292, 293, 149, 148, 146, 143, 229, 228, 226, 223, 300, 301, 302, 303, 129, 128, 126, 123, 169,
    168, 166, 163, 280, 281, 282, 283, 20, 24, 27, 29, 123, 122, 121, 120, 80, 84, 87, 89, 0, 4, 7, 9, 133, 132, 131, 130, 90, 94, 97, 99, 10, 14,
    17, 19, 143, 142, 141, 140, 100, 104, 107, 109, 30, 34, 37, 39, 153, 152, 151, 150, 110, 114, 117, 119, 89, 88, 86, 83, 73, 72, 71, 70, 120, 124,
    127, 129, 99, 98, 96, 93, 53, 52, 51, 50, 130, 134, 137, 139, 109, 108, 106, 103, 63, 62, 61, 60, 140, 144, 147, 149, 119, 118, 116, 113, 43, 42,
    41, 40, 150, 154, 157, 159, 180, 184, 187, 189, 79, 78, 76, 73, 170, 171, 172, 173, 160, 164, 167, 169, 29, 28, 26, 23, 230, 231, 232, 233, 210,
    214, 217, 219, 9, 8, 6, 3, 160, 161, 162, 163, 220, 224, 227, 229, 19, 18, 16, 13, 210, 211, 212, 213, 230, 234, 237, 239, 39, 38, 36, 33, 220,
    221, 222, 223, 190, 194, 197, 199, 59, 58, 56, 53, 180, 181, 182, 183, 200, 204, 207, 209, 69, 68, 66, 63, 190, 191, 192, 193, 170, 174, 177,
    179, 49, 48, 46, 43, 200, 201, 202, 203, 389, 388, 386, 383, 289, 288, 286, 283, 0, 1, 2, 3, 379, 378, 376, 373, 299, 298, 296, 293, 10, 11, 12,
    13, 369, 368, 366, 363, 309, 308, 306, 303, 30, 31, 32, 33, 399, 398, 396, 393, 319, 318, 316, 313, 20, 21, 22, 23, 70, 74, 77, 79, 249, 248,
    246, 243, 343, 346, 348, 349, 50, 54, 57, 59, 259, 258, 256, 253, 333, 336, 338, 339, 60, 64, 67, 69, 269, 268, 266, 263, 323, 326, 328, 329, 40,
    44, 47, 49, 279, 278, 276, 273, 353, 356, 358, 359, 320, 321, 322, 323, 300, 304, 307, 309, 360, 361, 362, 363, 330, 331, 332, 333, 290, 294,
    297, 299, 370, 371, 372, 373, 340, 341, 342, 343, 280, 284, 287, 289, 380, 381, 382, 383, 350, 351, 352, 353, 310, 314, 317, 319, 390, 391, 392,
    393, 320, 324, 327, 329, 263, 262, 261, 260, 360, 364, 367, 369, 330, 334, 337, 339, 253, 252, 251, 250, 370, 374, 377, 379, 340, 344, 347, 349,
    243, 242, 241, 240, 380, 384, 387, 389, 350, 354, 357, 359, 273, 272, 271, 270, 390, 394, 397, 399]

/-- Line 439, `expectedvmapB`. -/
def expectedvmapB : List Nat :=
   [80, 84, 87, 89, 90, 94, 97, 99, 100, 104, 107, 109, 110, 114, 117, 119, 120, 124, 127, 129, 130, 134, 137, 139, 140, 144, 147, 149, 150, 154,
    157, 159, 320, 321, 322, 323, 330, 331, 332, 333, 340, 341, 342, 343, 350, 351, 352, 353, 360, 364, 367, 369, 370, 374, 377, 379, 380, 384, 387,
    389, 390, 394, 397, 399]

/-- Line 440, `expectedmapB`. -/
def expectedmapB : List Nat :=
   [104, 105, 106, 107, 116, 117, 118, 119, 128, 129, 130, 131, 140, 141, 142, 143, 152, 153, 154, 155, 164, 165, 166, 167, 176, 177, 178, 179, 188,
    189, 190, 191, 384, 385, 386, 387, 396, 397, 398, 399, 408, 409, 410, 411, 420, 421, 422, 423, 440, 441, 442, 443, 452, 453, 454, 455, 464, 465,
    466, 467, 476, 477, 478, 479]

/-- Line 441, `expectedmapW`. -/
def expectedmapW : List Nat :=
   [104, 105, 106, 107, 116, 117, 118, 119, 128, 129, 130, 131, 140, 141, 142, 143, 152, 153, 154, 155, 164, 165, 166, 167, 176, 177, 178, 179, 188,
    189, 190, 191, 384, 385, 386, 387, 396, 397, 398, 399, 408, 409, 410, 411, 420, 421, 422, 423, 440, 441, 442, 443, 452, 453, 454, 455, 464, 465,
    466, 467, 476, 477, 478, 479]

/-- The numbers of the face nodes whose volume nodes are `expectedvmapP`, on the faces given by `expectedEToE` and `expectedEToF` (the unit test does not
check `mapP`). -/
def expectedmapP : List Nat :=
   [296, 297, 298, 299, 223, 222, 221, 220, 108, 109, 110, 111, 308, 309, 310, 311, 235, 234, 233, 232, 120, 121, 122, 123, 332, 333, 334, 335, 211,
    210, 209, 208, 96, 97, 98, 99, 320, 321, 322, 323, 247, 246, 245, 244, 132, 133, 134, 135, 187, 186, 185, 184, 283, 282, 281, 280, 372, 373, 374,
    375, 163, 162, 161, 160, 259, 258, 257, 256, 348, 349, 350, 351, 175, 174, 173, 172, 271, 270, 269, 268, 360, 361, 362, 363, 151, 150, 149, 148,
    199, 198, 197, 196, 336, 337, 338, 339, 32, 33, 34, 35, 147, 146, 145, 144, 104, 105, 106, 107, 8, 9, 10, 11, 159, 158, 157, 156, 116, 117, 118,
    119, 20, 21, 22, 23, 171, 170, 169, 168, 128, 129, 130, 131, 44, 45, 46, 47, 183, 182, 181, 180, 140, 141, 142, 143, 103, 102, 101, 100, 87, 86,
    85, 84, 152, 153, 154, 155, 115, 114, 113, 112, 63, 62, 61, 60, 164, 165, 166, 167, 127, 126, 125, 124, 75, 74, 73, 72, 176, 177, 178, 179, 139,
    138, 137, 136, 51, 50, 49, 48, 188, 189, 190, 191, 224, 225, 226, 227, 91, 90, 89, 88, 204, 205, 206, 207, 200, 201, 202, 203, 31, 30, 29, 28,
    276, 277, 278, 279, 260, 261, 262, 263, 7, 6, 5, 4, 192, 193, 194, 195, 272, 273, 274, 275, 19, 18, 17, 16, 252, 253, 254, 255, 284, 285, 286,
    287, 43, 42, 41, 40, 264, 265, 266, 267, 236, 237, 238, 239, 67, 66, 65, 64, 216, 217, 218, 219, 248, 249, 250, 251, 79, 78, 77, 76, 228, 229,
    230, 231, 212, 213, 214, 215, 55, 54, 53, 52, 240, 241, 242, 243, 463, 462, 461, 460, 343, 342, 341, 340, 0, 1, 2, 3, 451, 450, 449, 448, 355,
    354, 353, 352, 12, 13, 14, 15, 439, 438, 437, 436, 367, 366, 365, 364, 36, 37, 38, 39, 475, 474, 473, 472, 379, 378, 377, 376, 24, 25, 26, 27,
    92, 93, 94, 95, 295, 294, 293, 292, 412, 413, 414, 415, 68, 69, 70, 71, 307, 306, 305, 304, 400, 401, 402, 403, 80, 81, 82, 83, 319, 318, 317,
    316, 388, 389, 390, 391, 56, 57, 58, 59, 331, 330, 329, 328, 424, 425, 426, 427, 384, 385, 386, 387, 368, 369, 370, 371, 432, 433, 434, 435, 396,
    397, 398, 399, 356, 357, 358, 359, 444, 445, 446, 447, 408, 409, 410, 411, 344, 345, 346, 347, 456, 457, 458, 459, 420, 421, 422, 423, 380, 381,
    382, 383, 468, 469, 470, 471, 392, 393, 394, 395, 315, 314, 313, 312, 440, 441, 442, 443, 404, 405, 406, 407, 303, 302, 301, 300, 452, 453, 454,
    455, 416, 417, 418, 419, 291, 290, 289, 288, 464, 465, 466, 467, 428, 429, 430, 431, 327, 326, 325, 324, 476, 477, 478, 479]

/-- Certificate for `buildMaps`: one check per face node. -/
theorem maps_ok {np nfp nf k : Nat} {fmask : Nat → Nat → Nat} {E F : List Nat} {near : Nat → Nat → Nat → Bool} {ps : List (Nat × Nat)}
    (hl : ps.length = (faceNodes nfp nf k).length)
    (h : (((faceNodes nfp nf k).zip ps).all fun p => decide (pairNode np nfp nf k fmask E F near p.1 = .ok p.2)) = true) :
    buildMaps np nfp nf k fmask E F near = .ok
      { vmapM := (faceNodes nfp nf k).map fun x => vmapM3 np fmask x.1 x.2.1 x.2.2
        vmapP := ps.map Prod.fst, mapP := ps.map Prod.snd
        mapB := boundaryOf ((faceNodes nfp nf k).map fun x => vmapM3 np fmask x.1 x.2.1 x.2.2) (ps.map Prod.fst)
        vmapB := (boundaryOf ((faceNodes nfp nf k).map fun x => vmapM3 np fmask x.1 x.2.1 x.2.2) (ps.map Prod.fst)).map fun i =>
          ((faceNodes nfp nf k).map fun x => vmapM3 np fmask x.1 x.2.1 x.2.2).getD i 0 } := by
  have key : ∀ (l : List (Nat × Nat × Nat)) (ps acc : List (Nat × Nat)), ps.length = l.length →
      ((l.zip ps).all fun p => decide (pairNode np nfp nf k fmask E F near p.1 = .ok p.2)) = true →
      loopM (fun acc x => do let r ← pairNode np nfp nf k fmask E F near x; pure (acc ++ [r])) acc l = .ok (acc ++ ps) := by
    intro l
    induction l with
    | nil => intro ps acc hl _; obtain rfl := List.length_eq_zero_iff.1 hl; simp
    | cons x l ih =>
      intro ps acc hl h
      match ps, hl with
      | q :: ps, hl =>
        simp only [List.zip_cons_cons, List.all_cons, Bool.and_eq_true, decide_eq_true_eq] at h
        rw [loopM_cons, h.1]
        exact (ih ps (acc ++ [q]) (by simpa using hl) h.2).trans (by simp)
  rw [buildMaps, key _ ps [] hl h, Out.bind_ok]
  rfl

/-- Where the nodes of each face are matched: `vmapP` of the test and the numbers of those face nodes. -/
def expectedPairs : List (Nat × Nat) := expectedvmapP.zip expectedmapP

set_option maxRecDepth 4000 in
theorem coarse_vmapM : ((faceNodes 4 3 40).map fun x => vmapM3 10 mask3 x.1 x.2.1 x.2.2) = expectedvmapM := by decide +kernel

set_option maxRecDepth 4000 in
theorem coarse_pairs : (((faceNodes 4 3 40).zip expectedPairs).all fun p =>
    decide (pairNode 10 4 3 40 mask3 expectedEToE expectedEToF (fun _ => nearPts coarsePts) p.1 = .ok p.2)) = true := by decide +kernel

/-- Positions where two lists agree, counted from `c`, found in one pass. -/
def agree : Nat → List Nat → List Nat → List Nat
  | c, a :: l, b :: m => if b = a then c :: agree (c + 1) l m else agree (c + 1) l m
  | _, _, _ => []

theorem boundaryOf_agree (l m : List Nat) (h : l.length = m.length) : boundaryOf l m = agree 0 l m := by
  have key : ∀ (l m : List Nat) (c : Nat), l.length = m.length →
      ((List.range l.length).filter fun i => m.getD i 0 = l.getD i 0).map (· + c) = agree c l m := by
    intro l
    induction l with
    | nil => intro m c _; simp [agree]
    | cons a l ih =>
      intro m c h
      match m, h with
      | b :: m, h =>
        have h2 := ih m (c + 1) (by simpa using h)
        rw [agree, ← h2, List.length_cons, List.range_succ_eq_map, List.filter_cons, List.filter_map]
        have e : (fun i => decide ((b :: m).getD i 0 = (a :: l).getD i 0)) ∘ Nat.succ = fun i => decide (m.getD i 0 = l.getD i 0) := by
          funext i; simp
        have e2 : ((· + c) ∘ Nat.succ) = (· + (c + 1)) := by funext i; simp only [Function.comp_apply]; omega
        rw [e]
        by_cases hb : b = a
        · rw [if_pos (by simpa using hb), if_pos hb, List.map_cons, List.map_map, e2, Nat.zero_add]
        · rw [if_neg (by simpa using hb), if_neg hb, List.map_map, e2]
  have := key l m 0 h
  rw [← this, boundaryOf]
  simp

theorem coarse_mapB : boundaryOf expectedvmapM expectedvmapP = expectedmapB := by
  rw [boundaryOf_agree _ _ (by decide +kernel)]; decide +kernel

theorem coarse_vmapB : (expectedmapB.map fun i => expectedvmapM.getD i 0) = expectedvmapB := by decide +kernel

/-- Lines 403-455: the maps of the code, computed from the tables `readMesh` has left (`coarse_read`). -/
theorem coarse_maps : buildMaps 10 4 3 40 mask3 expectedEToE expectedEToF (fun _ => nearPts coarsePts) =
    .ok ⟨expectedvmapM, expectedvmapP, expectedmapP, expectedmapB, expectedvmapB⟩ := by
  rw [maps_ok (ps := expectedPairs) (by decide +kernel) coarse_pairs, coarse_vmapM]
  have e1 : expectedPairs.map Prod.fst = expectedvmapP := by decide +kernel
  have e2 : expectedPairs.map Prod.snd = expectedmapP := by decide +kernel
  rw [e1, e2, coarse_mapB, coarse_vmapB]

/-- Line 437, 452: the nodes under the wall tag; there is no other tag. -/
theorem coarse_hash : ∃ m, buildBCHash 4 120 (expectedBc.map fun n => (n : Int)) TagMap.empty = .ok m ∧ m 3 = some expectedmapW ∧ m 1 = none := by
  obtain ⟨m, h1, h2⟩ := buildBCHash_ok 4 120 (expectedBc.map fun n => (n : Int)) TagMap.empty (by decide +kernel)
  have e3 : placesFrom 3 0 (tagsOfNodes 4 120 (expectedBc.map fun n => (n : Int))) = expectedmapW := by decide +kernel
  have e1 : placesFrom 1 0 (tagsOfNodes 4 120 (expectedBc.map fun n => (n : Int))) = [] := by decide +kernel
  refine ⟨m, h1, ?_, ?_⟩
  · rw [h2, e3]; decide +kernel
  · rw [h2, e1, if_pos (Or.inr rfl)]; rfl

end Blitzdg.Conform
