import Verif.Model.Superimpose
import Verif.Model.Depthmap
import Mathlib.Analysis.SpecialFunctions.Pow.Real
import Mathlib.LinearAlgebra.Matrix.Notation

/-!
Model of the camera motions of a plane homography: `motion_from_plane_homography` (/repo/opensfm/multiview.py:365-446).

Simplifications: exact reals; `np.linalg.svd` is a parameter. A quotient by a zero singular value is infinite or NaN, and not
below the limit; everything computed from NaN afterwards is not modelled (see `near`: the theorems assume a nonzero second value).
-/
set_option linter.unusedSectionVars false
namespace Verif.PlaneMotion
open Verif.Depthmap Matrix
open Verif.Superimpose (Svd)

/-- One motion: rotation, translation, normal of the plane, distance of the plane. -/
@[ext] structure Motion where
  R : M3
  t : V3
  n : V3
  d : ℝ

/-- The test of two nearly equal singular values (multiview.py:389). -/
def near (a b : ℝ) : Prop := b ≠ 0 ∧ a / b < 1.0001

/-- The rotation of the case `d' > 0` (multiview.py:408-424). -/
noncomputable def rotP (d1 d2 d3 x1 x3 : ℝ) : M3 :=
  let sinTheta := (d1 - d3) * (x1 * x3 / d2)
  let cosTheta := (d3 * x1 ^ 2 + d1 * x3 ^ 2) / d2
  !![cosTheta, 0, -sinTheta; 0, 1, 0; sinTheta, 0, cosTheta]

/-- The rotation of the case `d' < 0` (multiview.py:408-427). -/
noncomputable def rotN (d1 d2 d3 x1 x3 : ℝ) : M3 :=
  let sinPhi := (d1 + d3) * (x1 * x3 / d2)
  let cosPhi := (d3 * x1 ^ 2 - d1 * x3 ^ 2) / d2
  !![cosPhi, 0, sinPhi; 0, -1, 0; sinPhi, 0, -cosPhi]

/-- The two motions of a choice of signs (multiview.py:406-445). -/
noncomputable def pairOf (D : Svd 3) (x1 x3 : ℝ) : List Motion :=
  let s := D.u.det * D.vh.det
  let d1 := D.s 0
  let d2 := D.s 1
  let d3 := D.s 2
  let np : V3 := ![x1, 0, x3]
  let tp : V3 := (d1 - d3) • ![x1, 0, -x3]
  let tn : V3 := (d1 + d3) • np
  let n : V3 := -(D.vhᵀ *ᵥ np)
  let d := s * d2
  [⟨s • (D.u * rotP d1 d2 d3 x1 x3 * D.vh), D.u *ᵥ tp, n, d⟩, ⟨s • (D.u * rotN d1 d2 d3 x1 x3 * D.vh), D.u *ᵥ tn, n, -d⟩]

/-- `abs_x1` (multiview.py:392). -/
noncomputable def absX1 (D : Svd 3) : ℝ := Real.sqrt ((D.s 0 ^ 2 - D.s 1 ^ 2) / (D.s 0 ^ 2 - D.s 2 ^ 2))
/-- `abs_x3` (multiview.py:393). -/
noncomputable def absX3 (D : Svd 3) : ℝ := Real.sqrt ((D.s 1 ^ 2 - D.s 2 ^ 2) / (D.s 0 ^ 2 - D.s 2 ^ 2))

/-- The choices of signs (multiview.py:394-399). -/
noncomputable def signs (D : Svd 3) : List (ℝ × ℝ) :=
  [(absX1 D, absX3 D), (absX1 D, -absX3 D), (-absX1 D, absX3 D), (-absX1 D, -absX3 D)]

open Classical in
/-- `motion_from_plane_homography` (multiview.py:365-446). -/
noncomputable def motions (svd : M3 → Svd 3) (H : M3) : Option (List Motion) :=
  if near ((svd H).s 0) ((svd H).s 1) ∨ near ((svd H).s 1) ((svd H).s 2) then none
  else some ((signs (svd H)).flatMap (fun x => pairOf (svd H) x.1 x.2))

end Verif.PlaneMotion
