import Verif.Model.RelativePose
import Verif.Model.Quartic
import Verif.Model.AlignPrior

/-!
Model of the pose of a camera from three points: `AbsolutePoseThreePoints` (/repo/opensfm/src/geometry/absolute_pose.h:14-122),
`RotationMatrixAroundAxis` (src/absolute_pose.cc:3-19) and `ClosestRotationMatrix` (/repo/opensfm/src/foundation/src/numeric.cc:11-19).

Simplifications: numbers are exact reals; `Eigen::JacobiSVD` is a parameter; a pose that is not made of numbers (the square root of a negative
number, a quotient by zero, a root that is not a number) is `none`.
-/
set_option linter.unusedSectionVars false
namespace Verif.ThreePoints
open Verif.Triangulation hiding cross
open Verif.Depthmap Matrix
open Verif.AlignPrior (cross)
open Verif.Superimpose (Svd)
open Verif.RelativePose (RT)

/-- Three bearings and the three points (absolute_pose.h:20-25). -/
structure Sample where
  b1 : V3
  b2 : V3
  b3 : V3
  p1 : V3
  p2 : V3
  p3 : V3

/-- `ClosestRotationMatrix` from the decomposition (numeric.cc:11-19). -/
noncomputable def closest (d : Svd 3) : M3 := if (d.u * d.vh).det < 0 then (-1 : ℝ) • (d.u * d.vh) else d.u * d.vh

/-- `RotationMatrixAroundAxis` (absolute_pose.cc:3-19). -/
def aroundAxis (c s : ℝ) (v : V3) : M3 :=
  !![c + v 0 * v 0 * (1 - c), v 2 * s + v 0 * v 1 * (1 - c), -v 1 * s + v 0 * v 2 * (1 - c);
     -v 2 * s + v 0 * v 1 * (1 - c), c + v 1 * v 1 * (1 - c), v 0 * s + v 1 * v 2 * (1 - c);
     v 1 * s + v 0 * v 2 * (1 - c), -v 0 * s + v 1 * v 2 * (1 - c), c + v 2 * v 2 * (1 - c)]

/-- `foundation::Sign` (numeric.h:11-18). -/
noncomputable def sign (a : ℝ) : ℝ := if a < 0 then -1 else 1

/-- `k1` (absolute_pose.h:28). -/
noncomputable def k1 (S : Sample) : V3 := normalized (S.p1 - S.p2)

/-- `k3` (absolute_pose.h:29). -/
noncomputable def k3 (S : Sample) : V3 := normalized (cross S.b1 S.b2)

/-- `u1` (absolute_pose.h:32). -/
def u1 (S : Sample) : V3 := S.p1 - S.p3

/-- `u2` (absolute_pose.h:33). -/
def u2 (S : Sample) : V3 := S.p2 - S.p3

/-- `v1` (absolute_pose.h:34). -/
def v1 (S : Sample) : V3 := cross S.b1 S.b3

/-- `v2` (absolute_pose.h:35). -/
def v2 (S : Sample) : V3 := cross S.b2 S.b3

/-- `sigma` (absolute_pose.h:38-39). -/
noncomputable def sigma (S : Sample) : ℝ := norm3 (cross (u1 S) (k1 S))

/-- `k3_second` (absolute_pose.h:43). -/
noncomputable def k3s (S : Sample) : V3 := (1 / sigma S) • cross (u1 S) (k1 S)

/-- `k3_b3` (absolute_pose.h:46). -/
noncomputable def kb (S : Sample) : ℝ := k3 S ⬝ᵥ S.b3

/-- `b1_b2` (absolute_pose.h:50). -/
noncomputable def b12 (S : Sample) : ℝ := norm3 (cross S.b1 S.b2)

/-- `f11` (absolute_pose.h:51). -/
noncomputable def f11 (S : Sample) : ℝ := sigma S * kb S
/-- `f21` (absolute_pose.h:52). -/
noncomputable def f21 (S : Sample) : ℝ := sigma S * (S.b1 ⬝ᵥ S.b2) * kb S
/-- `f22` (absolute_pose.h:53). -/
noncomputable def f22 (S : Sample) : ℝ := sigma S * kb S * b12 S
/-- `f13` (absolute_pose.h:54). -/
noncomputable def f13 (S : Sample) : ℝ := sigma S * (v1 S ⬝ᵥ k3 S)
/-- `f23` (absolute_pose.h:55). -/
noncomputable def f23 (S : Sample) : ℝ := sigma S * (v2 S ⬝ᵥ k3 S)
/-- `f24` (absolute_pose.h:56). -/
noncomputable def f24 (S : Sample) : ℝ := (u2 S ⬝ᵥ k1 S) * kb S * b12 S
/-- `f15` (absolute_pose.h:57). -/
noncomputable def f15 (S : Sample) : ℝ := -(u1 S ⬝ᵥ k1 S) * kb S
/-- `f25` (absolute_pose.h:58). -/
noncomputable def f25 (S : Sample) : ℝ := -(u2 S ⬝ᵥ k1 S) * (S.b1 ⬝ᵥ S.b2) * kb S

/-- `g1` (absolute_pose.h:61). -/
noncomputable def g1 (S : Sample) : ℝ := f13 S * f22 S
/-- `g2` (absolute_pose.h:62). -/
noncomputable def g2 (S : Sample) : ℝ := f13 S * f25 S - f15 S * f23 S
/-- `g3` (absolute_pose.h:63). -/
noncomputable def g3 (S : Sample) : ℝ := f11 S * f23 S - f13 S * f21 S
/-- `g4` (absolute_pose.h:64). -/
noncomputable def g4 (S : Sample) : ℝ := -f13 S * f24 S
/-- `g5` (absolute_pose.h:65). -/
noncomputable def g5 (S : Sample) : ℝ := f11 S * f22 S
/-- `g6` (absolute_pose.h:66). -/
noncomputable def g6 (S : Sample) : ℝ := f11 S * f25 S - f15 S * f21 S
/-- `g7` (absolute_pose.h:67). -/
noncomputable def g7 (S : Sample) : ℝ := -f15 S * f24 S

/-- The coefficients of the quartic, the constant one first (absolute_pose.h:70-78). -/
noncomputable def coefficients (S : Sample) : Fin 5 → ℝ :=
  ![g7 S * g7 S - g2 S * g2 S - g4 S * g4 S,
    2 * (g6 S * g7 S - g1 S * g2 S - g3 S * g4 S),
    g6 S * g6 S + 2 * g5 S * g7 S + g2 S * g2 S + g4 S * g4 S - g1 S * g1 S - g3 S * g3 S,
    2 * (g5 S * g6 S + g1 S * g2 S + g3 S * g4 S),
    g5 S * g5 S + g1 S * g1 S + g3 S * g3 S]

/-- `c_barre` (absolute_pose.h:86): the vectors are its columns. -/
noncomputable def cBar (S : Sample) : M3 := Matrix.of (fun i j => ![k1 S i, k3s S i, cross (k1 S) (k3s S) i] j)

/-- `c_barre_barre` after the transposition (absolute_pose.h:87-88): the vectors are its rows. -/
noncomputable def cBarBar (S : Sample) : M3 := Matrix.of ![S.b1, k3 S, cross S.b1 (k3 S)]

/-- `sin_theta_1` (absolute_pose.h:97-98), for a cosine of at most one in absolute value. -/
noncomputable def sinOne (S : Sample) (c : ℝ) : ℝ := sign (kb S) * Real.sqrt (1 - c * c)

/-- The denominator of `t` (absolute_pose.h:100). -/
noncomputable def denominator (S : Sample) (c : ℝ) : ℝ := g5 S * (c * c) + g6 S * c + g7 S

/-- `cos_theta_3` (absolute_pose.h:99-102). -/
noncomputable def cosThree (S : Sample) (c : ℝ) : ℝ := sinOne S c / denominator S c * (g1 S * c + g2 S)

/-- `sin_theta_3` (absolute_pose.h:99-103). -/
noncomputable def sinThree (S : Sample) (c : ℝ) : ℝ := sinOne S c / denominator S c * (g3 S * c + g4 S)

/-- The matrix whose closest rotation is taken (absolute_pose.h:105-111). -/
noncomputable def product (S : Sample) (c : ℝ) : M3 :=
  cBar S * aroundAxis c (sinOne S c) ![1, 0, 0] * aroundAxis (cosThree S c) (sinThree S c) ![0, 1, 0] * cBarBar S

/-- The pose from its rotation `rotation` (absolute_pose.h:112-118). -/
noncomputable def poseOf (S : Sample) (c : ℝ) (M : M3) : RT :=
  { R := Mᵀ, t := -(Mᵀ *ᵥ (S.p3 - (sigma S * sinOne S c / kb S) • (M *ᵥ S.b3))) }

/-- The pose for a root (absolute_pose.h:94-120). -/
noncomputable def pose (svd : M3 → Svd 3) (S : Sample) (c : ℝ) : Option RT :=
  if 1 - c * c < 0 ∨ denominator S c = 0 then none else some (poseOf S c (closest (svd (product S c))))

/-- `AbsolutePoseThreePoints` (absolute_pose.h:14-122). -/
noncomputable def threePoints (w : Quartic.Pow) (svd : M3 → Svd 3) (S : Sample) : List (Option RT) :=
  if sigma S = 0 then []
  else if kb S = 0 then []
  else match Quartic.solve w (coefficients S) with
    | none => []
    | some rs => (Quartic.refine (coefficients S) rs).map (fun r => r.bind (pose svd S))

end Verif.ThreePoints
