import Verif.Model.Camera
import Verif.Model.Calibration

/-!
Model of the image of a non-panorama undistorted shot: the pixel mapping (/repo/opensfm/src/geometry/src/camera.cc,
`compute_camera_mapping`) and the final resize (/repo/opensfm/undistort.py).

Simplifications: exact arithmetic; the interpolation of OpenCV is not modelled, only the position it is asked to
sample.
-/
namespace Verif.UndistortMap
open Verif.Camera Verif.Calibration

/-- The undistorted camera: perspective with focal length `f` and no distortion (undistort.py:254-309), in the order
k1, k2, focal. -/
noncomputable def plain (f : ℝ) : Ptr := Camera.row [0, 0, f]

/-- `ComputeCameraMapping(from, to, width, height)` (camera.cc:319-343): the position in the original image that is
sampled for the pixel in column `u` and row `v` of the undistorted image. -/
noncomputable def mapping (tf : ProjType) (vf : Ptr) (tt : ProjType) (vt : Ptr) (width height : ℕ) (u v : ℕ) :
    Fin 2 → ℝ :=
  let n : ℝ := max width height
  let hw : ℝ := width * (1 / 2)
  let hh : ℝ := height * (1 / 2)
  let p := project tf vf (bearing tt vt ![1 / n * (u - hw), 1 / n * (v - hh)])
  ![n * p 0 + hw, n * p 1 + hh]

/-- `scale_image(image, max_size)` (undistort.py:223-233): the size (width, height) of the result; `none`:
`cv2.resize` refuses an empty size. -/
def scaleImage (width height maxSize : ℕ) : Option (ℕ × ℕ) :=
  let factor : ℚ := maxSize / max height width
  if factor ≥ 1 then some (width, height)
  else
    let w := (pyRound (width * factor)).toNat
    let h := (pyRound (height * factor)).toNat
    if w = 0 ∨ h = 0 then none else some (w, h)

end Verif.UndistortMap
