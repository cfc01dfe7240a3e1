import Verif.Model.RelativePose
import Verif.Model.PlaneMotion

/-!
Model of the reconstruction of two views: `two_view_reconstruction_plane_based`, `two_view_reconstruction_and_refinement`,
`two_view_reconstruction_5pt`, `two_view_reconstruction_general` (/repo/opensfm/reconstruction.py:286-556) and the pose
conventions of `relative_pose_ransac` and `relative_pose_optimize_nonlinear` (/repo/opensfm/multiview.py:495-556).

Simplifications: exact reals; the robust estimation, `cv2.findHomography`, `np.linalg.svd`, the solver, the random draws and
the conversion of a rotation matrix to a vector (`cv2.Rodrigues`, `ceres::RotationMatrixToAngleAxis`) are parameters; the images
are given by their bearings; log messages are not modelled. A bearing with third coordinate zero has the quotient zero.
-/
set_option linter.unusedSectionVars false
namespace Verif.TwoView
open Verif.Depthmap Verif.Triangulation Verif.RelativePose Verif.PlaneMotion Matrix
open Verif.Superimpose (Svd)

/-- What is outside of the model: `ransac` is `pyrobust.ransac_relative_pose(...).lo_model`, `homography` is
`cv2.findHomography` (`none`: no homography was found), `draw` are the pairs drawn by the refinement. -/
structure Env where
  ransac : ℝ → List (V3 × V3) → RT
  homography : ℝ → List ((ℝ × ℝ) × (ℝ × ℝ)) → Option M3
  svd : M3 → Svd 3
  solve : (Params → List ℝ) → Params → Params
  draw : List (V3 × V3) → List (V3 × V3)
  toVec : M3 → V3
  rodrigues : M3 → V3

/-- Rotation vector, translation and indices of the inliers. -/
structure Result where
  r : V3
  t : V3
  inliers : List ℕ

/-- The other direction of a pose (multiview.py:515-519, 546-547, 551-555; reconstruction.py:358-360). -/
def inverse (p : RT) : RT := ⟨p.Rᵀ, -(p.Rᵀ *ᵥ p.t)⟩

/-- `_two_view_reconstruction_inliers` (reconstruction.py:286-295); the pose is that from the second camera to the first. -/
noncomputable def inliersOf (pairs : List (V3 × V3)) (p : RT) (threshold : ℝ) : List ℕ :=
  (pairs.zipIdx.filter (fun q => inlierBearings q.1.1 q.1.2 p.R p.t threshold)).map (·.2)

/-- `b[inliers]` (reconstruction.py:370). -/
def selected (pairs : List (V3 × V3)) (inliers : List ℕ) : List (V3 × V3) := inliers.filterMap (fun i => pairs[i]?)

/-- `relative_pose_ransac` (multiview.py:495-519). -/
noncomputable def relativePoseRansac (env : Env) (threshold : ℝ) (pairs : List (V3 × V3)) : RT :=
  inverse (env.ransac threshold pairs)

/-- `relative_pose_optimize_nonlinear` (multiview.py:541-556). -/
noncomputable def optimize (env : Env) (pairs : List (V3 × V3)) (p : RT) : RT :=
  inverse (refinement env.toVec env.solve (inverse p) (env.draw pairs))

/-- What is returned for a pose (reconstruction.py:377). -/
noncomputable def answer (env : Env) (p : RT) (inliers : List ℕ) : Result :=
  ⟨env.rodrigues p.Rᵀ, -(p.Rᵀ *ᵥ p.t), inliers⟩

/-- `two_view_reconstruction_and_refinement` (reconstruction.py:336-377). -/
noncomputable def refined (env : Env) (pairs : List (V3 × V3)) (p : RT) (threshold : ℝ) (transposed : Bool) : Result :=
  let cur := if transposed then inverse p else p
  let inliers := inliersOf pairs cur threshold
  if inliers.length > 5 then
    let cur' := optimize env (selected pairs inliers) cur
    answer env cur' (inliersOf pairs cur' threshold)
  else answer env cur inliers

/-- The choice between the two configurations (reconstruction.py:461-484). -/
noncomputable def choose (reversalRatio : ℝ) : List Result → Option Result
  | [a] => some a
  | [a, b] =>
    if (min a.inliers.length b.inliers.length : ℝ) / (max a.inliers.length b.inliers.length : ℝ) > reversalRatio then none
    else if a.inliers.length > b.inliers.length then some a else some b
  | _ => none

/-- `two_view_reconstruction_5pt` (reconstruction.py:413-486); `none`: `None, None, []`. -/
noncomputable def fivePoint (env : Env) (pairs : List (V3 × V3)) (p : RT) (threshold : ℝ) (checkReversal : Bool)
    (reversalRatio : ℝ) : Option Result :=
  let configurations := if checkReversal then [false, true] else [false]
  choose reversalRatio ((configurations.map (refined env pairs p threshold)).filter (fun x => !(x.inliers.length ≤ 5)))

/-- `multiview.euclidean` (multiview.py:32-34). -/
noncomputable def euclidean (b : V3) : ℝ × ℝ := (b 0 / b 2, b 1 / b 2)

/-- What a motion of the plane gives (reconstruction.py:322-333). -/
noncomputable def ofMotion (env : Env) (pairs : List (V3 × V3)) (threshold : ℝ) (m : Motion) : Result :=
  ⟨env.rodrigues m.R, m.t, inliersOf pairs (inverse ⟨m.R, m.t⟩) threshold⟩

/-- `two_view_reconstruction_plane_based` (reconstruction.py:298-333). The outer `none` is the exception of `np.linalg.svd(None)`
when there is no homography. `np.argmax(map(...))` is taken over one object, the `map` itself: it is always 0. -/
noncomputable def planeBased (env : Env) (pairs : List (V3 × V3)) (threshold : ℝ) : Option (Option Result) :=
  match env.homography threshold (pairs.map (fun q => (euclidean q.1, euclidean q.2))) with
  | none => none
  | some H =>
    match motions env.svd H with
    | none => some none
    | some l => some ((l.map (ofMotion env pairs threshold))[0]?)

/-- Number of inliers in the report (reconstruction.py:535-538). -/
def count (r : Option Result) : ℕ := match r with | none => 0 | some a => a.inliers.length

/-- The method written in the report. -/
inductive Method where
  | fivePoint | plane | failed
deriving DecidableEq

/-- The decision of `two_view_reconstruction_general` (reconstruction.py:540-551). -/
def decideMethod (five plane : Option Result) : Option Result × Method :=
  if five.isSome ∧ count five > count plane then (five, .fivePoint)
  else if plane.isSome then (plane, .plane)
  else (none, .failed)

/-- `two_view_reconstruction_general` (reconstruction.py:488-552): result, method and the two counts of the report; `none`: an
exception. -/
noncomputable def general (env : Env) (pairs : List (V3 × V3)) (threshold : ℝ) (checkReversal : Bool) (reversalRatio : ℝ) :
    Option (Option Result × Method × ℕ × ℕ) :=
  let five := fivePoint env pairs (relativePoseRansac env threshold pairs) threshold checkReversal reversalRatio
  match planeBased env pairs threshold with
  | none => none
  | some plane => some ((decideMethod five plane).1, (decideMethod five plane).2, count five, count plane)

end Verif.TwoView
