import Verif.Model.Camera
import Verif.Model.Pose

/-!
Model of the six perspective views of a panorama (/repo/opensfm/undistort.py).

Simplifications: exact real numbers; `rotation_matrix` is called with unit axes only, so `unit_vector`
does nothing.
-/
namespace Verif.Undistort
open Verif.Camera Verif.Pose Matrix

/-- `transformations.rotation_matrix(angle, direction)[:3, :3]` (transformations.py:329-341), for a unit
`direction`. -/
noncomputable def rotationMatrix (angle : ℝ) (d : Fin 3 → ℝ) : Matrix (Fin 3) (Fin 3) ℝ :=
  let s := Real.sin angle
  let c := Real.cos angle
  Matrix.diagonal (fun _ => c) + (1 - c) • Matrix.vecMulVec d d +
    !![0, -(s * d 2), s * d 1; s * d 2, 0, -(s * d 0); -(s * d 1), s * d 0, 0]

/-- The views of a panorama, by name (undistort.py:326). -/
inductive Face where
  | front | left | back | right | top | bottom
  deriving DecidableEq, Repr

/-- `names` (undistort.py:326). -/
def Face.name : Face → String
  | .front => "front" | .left => "left" | .back => "back" | .right => "right" | .top => "top"
  | .bottom => "bottom"

/-- `rotations` (undistort.py:327-334). -/
noncomputable def Face.rotation : Face → Matrix (Fin 3) (Fin 3) ℝ
  | .front => rotationMatrix (-0 * Real.pi / 2) ![0, 1, 0]
  | .left => rotationMatrix (-1 * Real.pi / 2) ![0, 1, 0]
  | .back => rotationMatrix (-2 * Real.pi / 2) ![0, 1, 0]
  | .right => rotationMatrix (-3 * Real.pi / 2) ![0, 1, 0]
  | .top => rotationMatrix (-Real.pi / 2) ![1, 0, 0]
  | .bottom => rotationMatrix (Real.pi / 2) ![1, 0, 0]

/-- Pose of the view of a panorama: the rig camera has the pose `Pose()` with the rotation of the face, the
rig instance has the pose of the panorama (undistort.py:336-363, shot.cc:146-151). -/
noncomputable def viewPose (pano : Pose ℝ) (f : Face) : Pose ℝ :=
  (Pose.identity.setRotationMatrix f.rotation).compose pano

/-- Parameters of the camera of the views: `create_perspective(0.5, 0.0, 0.0)` (undistort.py:320), in the
order k1, k2, focal. -/
noncomputable def viewCamera : Ptr := row [0, 0, 1 / 2]

/-- The loop body of `add_pano_subshot_tracks` (undistort.py:439-459): the observation added to the view,
if any. -/
noncomputable def subTrack (pano view : Pose ℝ) (obs : Fin 2 → ℝ) : Option (Fin 2 → ℝ) :=
  let b := bearing .spherical (fun _ => 0) obs
  let rotation := view.wcR * pano.wcRᵀ
  let rb := b ᵥ* rotationᵀ
  if rb 2 ≤ 0 then none
  else
    let f := project .perspective viewCamera rb
    if f 0 < -(1 / 2) ∨ f 0 > 1 / 2 ∨ f 1 < -(1 / 2) ∨ f 1 > 1 / 2 then none else some f

/-- `render_perspective_view_of_a_panorama` (undistort.py:376-409), in normalized coordinates: the point of
the panorama shown at a point of the view. -/
noncomputable def renderAt (pano view : Pose ℝ) (p : Fin 2 → ℝ) : Fin 2 → ℝ :=
  let b := bearing .perspective viewCamera p
  let rotation := pano.wcR * view.wcRᵀ
  project .spherical (fun _ => 0) (b ᵥ* rotationᵀ)

/-- `features.normalized_image_coordinates` (features.py:324-331) over the reals. -/
noncomputable def normalized (w h : ℕ) (p : Fin 2 → ℝ) : Fin 2 → ℝ :=
  ![(p 0 + 1 / 2 - w / 2) / max w h, (p 1 + 1 / 2 - h / 2) / max w h]

/-- `features.denormalized_image_coordinates` (features.py:334-341) over the reals. -/
noncomputable def denormalized (w h : ℕ) (p : Fin 2 → ℝ) : Fin 2 → ℝ :=
  ![p 0 * max w h - 1 / 2 + w / 2, p 1 * max w h - 1 / 2 + h / 2]

/-- The pixel position of the resized panorama (`4 * width` by `2 * width`, undistort.py:201-203) sampled for
the pixel `(u, v)` of a view of `width` by `width` pixels (undistort.py:384-409). -/
noncomputable def samplePixel (pano view : Pose ℝ) (width : ℕ) (u v : ℕ) : Fin 2 → ℝ :=
  denormalized (4 * width) (4 * width / 2) (renderAt pano view (normalized width width ![u, v]))

end Verif.Undistort
