import Verif.Model.RotationPair
import Verif.Model.RelativePose

/-!
Model of the pose of a camera from many points: `TranslationBetweenPoints`, `AbsolutePoseNPoints` and
`AbsolutePoseNPointsKnownRotation` (/repo/opensfm/src/geometry/absolute_pose.h:124-192), the robust models `AbsolutePose` and
`AbsolutePoseKnownRotation` (/repo/opensfm/src/robust/absolute_pose_model.h, absolute_pose_known_rotation_model.h), the pose conventions of
`absolute_pose_ransac` and `absolute_pose_known_rotation_ransac` (/repo/opensfm/multiview.py:444-493) and the resection of an image
(`resect`, /repo/opensfm/reconstruction.py:695-762).

A pair is a bearing in the camera and a point in the world.

Simplifications: exact reals; `Eigen::JacobiSVD` and the robust estimation are parameters. The inverse of a singular matrix, which is made of
NaN or infinities in the program, is the value Mathlib gives to it; the theorems assume what excludes it.
-/
set_option linter.unusedSectionVars false
namespace Verif.AbsolutePose
open Verif.Depthmap Matrix
open Verif.Superimpose (Svd mean centred)
open Verif.RotationPair (rotationBetween)
open Verif.RelativePose (RT)
open Verif.Triangulation (norm3 normalized)

/-- The matrix `F` of a bearing (absolute_pose.h:132, 170). -/
noncomputable def line (v : V3) : M3 := (1 / (v ⬝ᵥ v)) • vecMulVec v v

/-- `TranslationBetweenPoints` (absolute_pose.h:124-141). -/
noncomputable def translationBetween (pairs : List (V3 × V3)) (R : M3) : V3 :=
  let F1 : M3 := (1 / (pairs.length : ℝ)) • (pairs.map (fun p => line p.1)).sum
  let F2 : V3 := (1 / (pairs.length : ℝ)) • (pairs.map (fun p => ((line p.1 - 1) * R) *ᵥ p.2)).sum
  (1 - F1)⁻¹ *ᵥ F2

/-- The scale of the first pose (absolute_pose.h:150-158). -/
noncomputable def scale (pairs : List (V3 × V3)) : ℝ :=
  Real.sqrt (((centred pairs).map (fun p => norm3 p.2 ^ 2)).sum / ((centred pairs).map (fun p => norm3 p.1 ^ 2)).sum)

/-- The first pose (absolute_pose.h:148-161). -/
noncomputable def first (svd : M3 → Svd 3) (pairs : List (V3 × V3)) : RT :=
  { R := rotationBetween svd pairs
    t := scale pairs • mean (pairs.map (·.1)) - rotationBetween svd pairs *ᵥ mean (pairs.map (·.2)) }

/-- `current_points` (absolute_pose.h:168-176): the points of the pose, put on the bearings. -/
noncomputable def current (pairs : List (V3 × V3)) (x : RT) : List (V3 × V3) :=
  pairs.map (fun p => (line p.1 *ᵥ (x.R *ᵥ p.2 + x.t), p.2))

/-- The pose computed by an iteration (absolute_pose.h:167-179). -/
noncomputable def step (svd : M3 → Svd 3) (pairs : List (V3 × V3)) (x : RT) : RT :=
  { R := rotationBetween svd (current pairs x)
    t := translationBetween pairs (rotationBetween svd (current pairs x)) }

/-- The test that ends the iterations (absolute_pose.h:180-184); a quotient by zero is infinite or NaN and does not end them. -/
def close (t t' : V3) : Prop := norm3 t ≠ 0 ∧ norm3 (t' - t) / norm3 t < 1 / 10000000

open Classical in
/-- The iterations (absolute_pose.h:167-186): at the end the new rotation is kept, and the translation before it. -/
noncomputable def loop (svd : M3 → Svd 3) (pairs : List (V3 × V3)) : ℕ → RT → RT
  | 0, x => x
  | n + 1, x =>
    if close x.t (step svd pairs x).t then { R := (step svd pairs x).R, t := x.t } else loop svd pairs n (step svd pairs x)

/-- `AbsolutePoseNPoints` (absolute_pose.h:145-192). -/
noncomputable def nPoints (svd : M3 → Svd 3) (pairs : List (V3 × V3)) : RT := loop svd pairs 100 (first svd pairs)

/-- `AbsolutePoseNPointsKnownRotation` (absolute_pose.h:194-197). -/
noncomputable def knownRotation (pairs : List (V3 × V3)) : V3 := translationBetween pairs 1

/-- `AbsolutePose::Evaluate` (absolute_pose_model.h:36-47). -/
noncomputable def evaluate (x : RT) (d : V3 × V3) : ℝ := 1 - normalized d.1 ⬝ᵥ normalized (x.R *ᵥ d.2 + x.t)

/-- `AbsolutePoseKnownRotation::Evaluate` (absolute_pose_known_rotation_model.h:33-42). -/
noncomputable def evaluateKnown (t : V3) (d : V3 × V3) : ℝ := 1 - normalized d.1 ⬝ᵥ normalized (d.2 + t)

/-- `ThresholdAdapter` of both models (absolute_pose_model.h:15-17, absolute_pose_known_rotation_model.h:16-18). -/
noncomputable def thresholdAdapter (angle : ℝ) : ℝ := 1 - Real.cos angle

/-- What `absolute_pose_ransac` makes of the model of the robust estimation (multiview.py:489-493). -/
def cameraToWorld (x : RT) : RT := { R := x.Rᵀ, t := -(x.Rᵀ *ᵥ x.t) }

/-- What `absolute_pose_known_rotation_ransac` makes of the model (multiview.py:463-465). -/
def cameraToWorldKnown (t : V3) : RT := { R := 1, t := -t }

open Classical in
/-- One entry of `inliers` (reconstruction.py:725-728); a point at the centre of the camera has a bearing made of NaN and is not one. -/
noncomputable def isInlier (T : RT) (threshold : ℝ) (d : V3 × V3) : Bool :=
  decide (norm3 (T.Rᵀ *ᵥ (d.2 - T.t)) ≠ 0 ∧ norm3 (normalized (T.Rᵀ *ᵥ (d.2 - T.t)) - d.1) < threshold)

/-- The answer of `resect`. -/
inductive Resection (Id : Type) where
  /-- fewer than five points (reconstruction.py:717-718): `num_common_points` -/
  | few (common : ℕ)
  /-- too few inliers (reconstruction.py:760-761): `num_common_points` and `num_inliers` -/
  | refused (common inliers : ℕ)
  /-- the shot was added with this pose from world to camera and observations of these tracks -/
  | added (pose : RT) (observations : List Id) (common inliers : ℕ)

/-- `resect` (reconstruction.py:703-762): `seen` are the tracks of the image with the bearing of its observation, `points` the points of the
reconstruction, `ransac` the robust estimation. -/
noncomputable def resect {Id : Type} (ransac : ℝ → List (V3 × V3) → RT) (seen : List (Id × V3)) (points : Id → Option V3) (threshold : ℝ)
    (minInliers : ℕ) : Resection Id :=
  let data : List (Id × (V3 × V3)) := seen.filterMap (fun s => (points s.1).map (fun X => (s.1, s.2, X)))
  if data.length < 5 then .few data.length
  else
    let T := cameraToWorld (ransac threshold (data.map (·.2)))
    let inliers := data.filter (fun d => isInlier T threshold d.2)
    if inliers.length ≥ minInliers then
      .added { R := T.Rᵀ, t := -(T.Rᵀ *ᵥ T.t) } (inliers.map (·.1)) data.length inliers.length
    else .refused data.length inliers.length

end Verif.AbsolutePose
