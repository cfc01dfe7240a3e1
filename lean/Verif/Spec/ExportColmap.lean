import Mathlib.Analysis.SpecialFunctions.Trigonometric.Arctan
import Mathlib.Data.Real.Sqrt
import Mathlib.Data.Fin.VecNotation

/-!
# What COLMAP says

The camera models 3 (`RADIAL`), 9 (`RADIAL_FISHEYE`), 6 (`FULL_OPENCV`) and 5 (`OPENCV_FISHEYE`), written from the documentation of COLMAP, for a point in front of
the camera, and the rotation of a quaternion `w, x, y, z`.
-/
namespace Verif.ExportColmap.Spec

/-- `RADIAL`: `f, cx, cy, k1, k2`. -/
noncomputable def radial (f cx cy k1 k2 : ℝ) (u v : ℝ) : ℝ × ℝ :=
  let r2 := u ^ 2 + v ^ 2
  let d := k1 * r2 + k2 * r2 ^ 2
  (f * (u + u * d) + cx, f * (v + v * d) + cy)

/-- The direction of the point for a fisheye: the distance from the centre is the angle. -/
noncomputable def fisheye (u v : ℝ) : ℝ × ℝ :=
  let r := Real.sqrt (u ^ 2 + v ^ 2)
  if r = 0 then (u, v) else (Real.arctan r / r * u, Real.arctan r / r * v)

/-- `OPENCV_FISHEYE`: `fx, fy, cx, cy, k1, k2, k3, k4`. -/
noncomputable def opencvFisheye (fx fy cx cy k1 k2 k3 k4 : ℝ) (u v : ℝ) : ℝ × ℝ :=
  let p := fisheye u v
  let t2 := p.1 ^ 2 + p.2 ^ 2
  let d := k1 * t2 + k2 * t2 ^ 2 + k3 * t2 ^ 3 + k4 * t2 ^ 4
  (fx * (p.1 + p.1 * d) + cx, fy * (p.2 + p.2 * d) + cy)

/-- `FULL_OPENCV`: `fx, fy, cx, cy, k1, k2, p1, p2, k3, k4, k5, k6`. -/
noncomputable def fullOpencv (fx fy cx cy k1 k2 p1 p2 k3 k4 k5 k6 : ℝ) (u v : ℝ) : ℝ × ℝ :=
  let r2 := u ^ 2 + v ^ 2
  let d := (1 + k1 * r2 + k2 * r2 ^ 2 + k3 * r2 ^ 3) / (1 + k4 * r2 + k5 * r2 ^ 2 + k6 * r2 ^ 3)
  (fx * (u * d + 2 * p1 * (u * v) + p2 * (r2 + 2 * u ^ 2)) + cx, fy * (v * d + 2 * p2 * (u * v) + p1 * (r2 + 2 * v ^ 2)) + cy)

/-- The position in pixels of a point in the coordinates of a camera; the first pixel has its centre at one half. -/
noncomputable def project (model : ℕ) (params : List ℝ) (x : Fin 3 → ℝ) : Option (ℝ × ℝ) :=
  let u := x 0 / x 2
  let v := x 1 / x 2
  match model, params with
  | 3, [f, cx, cy, k1, k2] => some (radial f cx cy k1 k2 u v)
  | 9, [f, cx, cy, k1, k2] => some (radial f cx cy k1 k2 (fisheye u v).1 (fisheye u v).2)
  | 6, [fx, fy, cx, cy, k1, k2, p1, p2, k3, k4, k5, k6] => some (fullOpencv fx fy cx cy k1 k2 p1 p2 k3 k4 k5 k6 u v)
  | 5, [fx, fy, cx, cy, k1, k2, k3, k4] => some (opencvFisheye fx fy cx cy k1 k2 k3 k4 u v)
  | _, _ => none

/-- The rotation of a quaternion, applied to a vector. -/
def rotate (w x y z : ℝ) (v : Fin 3 → ℝ) : Fin 3 → ℝ :=
  ![(1 - 2 * (y ^ 2 + z ^ 2)) * v 0 + 2 * (x * y - w * z) * v 1 + 2 * (x * z + w * y) * v 2,
    2 * (x * y + w * z) * v 0 + (1 - 2 * (x ^ 2 + z ^ 2)) * v 1 + 2 * (y * z - w * x) * v 2,
    2 * (x * z - w * y) * v 0 + 2 * (y * z + w * x) * v 1 + (1 - 2 * (x ^ 2 + y ^ 2)) * v 2]

end Verif.ExportColmap.Spec
