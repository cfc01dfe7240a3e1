import Verif.Model.Camera
import Verif.Model.GpsBias

/-!
Model of the priors of camera parameters and of rig cameras in the bundle adjustment: `GetDefaultCameraSigma`, `GetDefaultRigPoseSigma`,
`AddCameraPriorError`, the blocks of the rig cameras (/repo/opensfm/src/bundle/src/bundle_adjuster.cc:46-74, 378-402, 568-594, 780-802),
`DataPriorError` (/repo/opensfm/src/bundle/error/prior_error.h:19-90), `Pose::ValueToData` (/repo/opensfm/src/bundle/data/pose.h:36-46)
and the parameters of each camera model (/repo/opensfm/src/geometry/src/camera.cc:9-168).

Simplifications: exact reals; the residuals of a block are listed in the order of the parameters (the code goes through an unordered set
of indexes, which only permutes them); the conversion of a matrix to a rotation vector is a parameter.
-/
namespace Verif.BundleSigma
open Matrix Verif.Superimpose Verif.GpsBias
open Verif.Camera (ProjType)

/-- `Camera::Parameters` (camera.h:7-28). -/
inductive Param where
  | transition | k1 | k2 | k3 | k4 | k5 | k6 | p1 | p2 | s0 | s1 | s2 | s3 | focal | aspectRatio | cx | cy | none
  deriving DecidableEq

open Param in
/-- `types_` of each camera model (camera.cc:9-168). -/
def types : ProjType → List Param
  | .perspective => [k1, k2, focal]
  | .brown => [k1, k2, k3, p1, p2, focal, aspectRatio, cx, cy]
  | .fisheye => [k1, k2, focal]
  | .fisheyeOpencv => [k1, k2, k3, k4, focal, aspectRatio, cx, cy]
  | .fisheye62 => [k1, k2, k3, k4, k5, k6, p1, p2, focal, aspectRatio, cx, cy]
  | .fisheye624 => [k1, k2, k3, k4, k5, k6, p1, p2, s0, s1, s2, s3, focal, aspectRatio, cx, cy]
  | .spherical => [.none]
  | .dual => [transition, k1, k2, focal]
  | .radial => [k1, k2, focal, aspectRatio, cx, cy]
  | .simpleRadial => [k1, focal, aspectRatio, cx, cy]

/-- The configured standard deviations (config.py:247-273). -/
structure Sds where
  focal : ℝ
  aspectRatio : ℝ
  principalPoint : ℝ
  k1 : ℝ
  k2 : ℝ
  k3 : ℝ
  k4 : ℝ
  p1 : ℝ
  p2 : ℝ
  rigTranslation : ℝ
  rigRotation : ℝ

/-- `std_dev_map` (bundle_adjuster.cc:48-64); `operator[]` makes a zero for a parameter without an entry. -/
def stdDev (c : Sds) : Param → ℝ
  | .focal => c.focal
  | .aspectRatio => c.aspectRatio
  | .cx => c.principalPoint
  | .cy => c.principalPoint
  | .k1 => c.k1
  | .k2 => c.k2
  | .k3 => c.k3
  | .p1 => c.p1
  | .p2 => c.p2
  | .transition => 1
  | _ => 0

/-- The scale made of a standard deviation (prior_error.h:33-36). -/
noncomputable def scale (sd : ℝ) : ℝ := 1 / max sd (1 / 2 ^ 52)

/-- `AddCameraPriorError` (bundle_adjuster.cc:575-584): which parameters are compared by their ratio. -/
def isLog (p : Param) : Bool := p = .focal || p = .aspectRatio

/-- One residual (prior_error.h:65-86). -/
noncomputable def term (c : Sds) (p : Param) (x prior : ℝ) : ℝ :=
  scale (stdDev c p) * (if isLog p then Real.log (x / prior) else x - prior)

/-- The residuals of the prior of a camera, from its parameters and those of the prior. -/
noncomputable def cameraPrior (c : Sds) (t : ProjType) (values prior : List ℝ) : List ℝ :=
  List.zipWith (fun p x => term c p x.1 x.2) (types t) (values.zip prior)

/-- The cost of a residual block without a loss function, as ceres counts it. -/
noncomputable def cost (r : List ℝ) : ℝ := 1 / 2 * (r.map (fun x => x ^ 2)).sum

/-- `GetDefaultRigPoseSigma` (bundle_adjuster.cc:69-74) as read by `GetSigmaData` (pose.h:36-46): the standard deviations go through a
pose. -/
noncomputable def rigSigma (toVec : Mat 3 → Vec 3) (c : Sds) : Vec 3 × Vec 3 :=
  (toVec (vecToMat fun _ => c.rigRotation), fun _ => c.rigTranslation)

/-- The residuals of the prior of a rig camera (bundle_adjuster.cc:780-792): rotation and translation; `w`, `t` are the parameters, `R0`,
`t0` the rotation and translation of the prior (camera to world). -/
noncomputable def rigPrior (toVec : Mat 3 → Vec 3) (c : Sds) (w t : Vec 3) (R0 : Mat 3) (t0 : Vec 3) : Vec 3 × Vec 3 :=
  (fun k => scale ((rigSigma toVec c).1 k) * (w k - toVec R0 k), fun k => scale ((rigSigma toVec c).2 k) * (t k - t0 k))

end Verif.BundleSigma
