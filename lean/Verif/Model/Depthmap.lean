import Mathlib.LinearAlgebra.Matrix.NonsingularInverse
import Mathlib.Data.Matrix.Mul
import Mathlib.Data.Real.Sqrt
import Mathlib.Analysis.SpecialFunctions.Exp
import Mathlib.Algebra.Order.Floor.Ring
import Mathlib.Data.Real.Archimedean

/-!
Model of the geometry and of the scores of dense matching (/repo/opensfm/src/dense/src/depthmap.cc).

Simplifications: `float` and `double` are exact reals, so no NaN; a matrix of OpenCV is a function from row and
column to values together with its size.
-/
namespace Verif.Depthmap
open Matrix

abbrev M3 := Matrix (Fin 3) (Fin 3) ℝ
abbrev V3 := Fin 3 → ℝ

/-- `1e-6f`, the least denominator (depthmap.cc:117, 124). -/
noncomputable def minDenom : ℝ := 1 / 1000000

/-- A view: camera matrix, rotation and translation. -/
structure View where
  K : M3
  R : M3
  t : V3

/-- `Camera::GetProjectionMatrixScaled` (src/geometry/src/camera.cc:277-287) of a perspective camera with focal `f`
(aspect ratio 1 and no principal point), the matrix passed to `add_view` (dense.py:309-313). -/
noncomputable def scaledK (f : ℝ) (w h : ℕ) : M3 :=
  !![f * (max w h : ℕ), 0, w / 2; 0, f * (max w h : ℕ), h / 2; 0, 0, 1]

/-- `Project` (depthmap.cc:104-107). -/
def project (v : View) (x : V3) : V3 := v.K *ᵥ (v.R *ᵥ x + v.t)

/-- `K.inv() * cv::Vec3d(x, y, 1)`. -/
noncomputable def ray (K : M3) (x y : ℝ) : V3 := K⁻¹ *ᵥ ![x, y, 1]

/-- `Backproject` (depthmap.cc:109-112). -/
noncomputable def backproject (x y depth : ℝ) (v : View) : V3 := v.Rᵀ *ᵥ (depth • ray v.K x y - v.t)

/-- `PlaneInducedHomography` (depthmap.cc:88-94). -/
noncomputable def homography (a b : View) (v : V3) : M3 :=
  let R2R1 := b.R * a.Rᵀ
  b.K * (R2R1 + vecMulVec (R2R1 *ᵥ a.t - b.t) v) * a.K⁻¹

/-- `Qs_` of a view (depthmap.cc:154): `a` is the first view. -/
def bakedQ (a b : View) : M3 := b.R * a.Rᵀ

/-- `as_` of a view (depthmap.cc:155). -/
def bakedA (a b : View) : V3 := bakedQ a b *ᵥ a.t - b.t

/-- `PlaneInducedHomographyBaked` (depthmap.cc:96-102). -/
def homographyBaked (K1inv Q2 : M3) (a2 : V3) (K2 : M3) (v : V3) : M3 := K2 * (Q2 + vecMulVec a2 v) * K1inv

/-- `ApplyHomography` (depthmap.cc:76-86). -/
noncomputable def applyHomography (H : M3) (x y : ℝ) : ℝ × ℝ :=
  let w := H 2 0 * x + H 2 1 * y + H 2 2
  if w = 0 then (0, 0)
  else ((H 0 0 * x + H 0 1 * y + H 0 2) / w, (H 1 0 * x + H 1 1 * y + H 1 2) / w)

/-- `DepthOfPlaneBackprojection` (depthmap.cc:114-118). -/
noncomputable def depthOfPlane (x y : ℝ) (K : M3) (plane : V3) : ℝ :=
  1 / max minDenom (-(plane ⬝ᵥ ray K x y))

/-- `PlaneFromDepthAndNormal` (depthmap.cc:120-125). -/
noncomputable def planeFrom (x y : ℝ) (K : M3) (depth : ℝ) (normal : V3) : V3 :=
  let point := depth • ray K x y
  (1 / max minDenom (-(normal ⬝ᵥ point))) • normal

/-! ### Correlation -/

/-- The members of `NCCEstimator` (depthmap.h:9-20, depthmap.cc:46-47). -/
structure Ncc where
  sx : ℝ := 0
  sy : ℝ := 0
  sxx : ℝ := 0
  syy : ℝ := 0
  sxy : ℝ := 0
  sw : ℝ := 0

/-- `NCCEstimator::Push` (depthmap.cc:49-56) of the sample `(x, y, w)`. -/
def Ncc.push (s : Ncc) (p : ℝ × ℝ × ℝ) : Ncc :=
  ⟨s.sx + p.2.2 * p.1, s.sy + p.2.2 * p.2.1, s.sxx + p.2.2 * p.1 * p.1, s.syy + p.2.2 * p.2.1 * p.2.1,
    s.sxy + p.2.2 * p.1 * p.2.1, s.sw + p.2.2⟩

/-- `NCCEstimator::Get` (depthmap.cc:58-74). -/
noncomputable def Ncc.get (s : Ncc) : ℝ :=
  if s.sw = 0 then -1
  else
    let mx := s.sx / s.sw
    let my := s.sy / s.sw
    let varx := s.sxx / s.sw - mx * mx
    let vary := s.syy / s.sw - my * my
    if varx < 1 / 10 ∨ vary < 1 / 10 then -1
    else (s.sxy / s.sw - mx * my) / Real.sqrt (varx * vary)

/-- The correlation of samples: `Push` for each of them, then `Get`. -/
noncomputable def ncc (l : List (ℝ × ℝ × ℝ)) : ℝ := (l.foldl Ncc.push {}).get

/-! ### Images -/

/-- A `cv::Mat` with one channel. -/
structure Img where
  rows : ℤ
  cols : ℤ
  at' : ℤ → ℤ → ℝ

/-- `IsInsideImage` (depthmap.cc:10-12). -/
def Img.inside (im : Img) (i j : ℤ) : Prop := 0 ≤ i ∧ i < im.rows ∧ 0 ≤ j ∧ j < im.cols

/-- `LinearInterpolation` (depthmap.cc:14-30). The conversion to `int` is that of a number that is not negative. -/
noncomputable def interpolate (im : Img) (y x : ℝ) : ℝ :=
  if x < 0 ∨ x ≥ im.cols - 1 ∨ y < 0 ∨ y ≥ im.rows - 1 then 0
  else
    let ix := ⌊x⌋
    let iy := ⌊y⌋
    let dx := x - ix
    let dy := y - iy
    let im0 := (1 - dx) * im.at' iy ix + dx * im.at' iy (ix + 1)
    let im1 := (1 - dx) * im.at' (iy + 1) ix + dx * im.at' (iy + 1) (ix + 1)
    (1 - dy) * im0 + dy * im1

/-- `BilateralWeight` (depthmap.cc:467-475). -/
noncomputable def bilateral (dcolor dx dy : ℝ) : ℝ :=
  Real.exp (-dcolor * dcolor * (1 / (2 * 50 * 50)) - (dx * dx + dy * dy) * (1 / (2 * 5 * 5)))

/-- The offsets `-hpz .. hpz`. -/
def offsets (hpz : ℕ) : List ℤ := (List.range (2 * hpz + 1)).map (fun k : ℕ => (k : ℤ) - hpz)

/-- The first-order expansion of the homography `H` around the pixel in row `i` and column `j`
(depthmap.cc:433-459): the position in the other image for the offset `(dx, dy)`. -/
noncomputable def patchPoint (H : M3) (i j : ℝ) (dx dy : ℝ) : ℝ × ℝ :=
  let u := H 0 0 * j + H 0 1 * i + H 0 2
  let v := H 1 0 * j + H 1 1 * i + H 1 2
  let w := H 2 0 * j + H 2 1 * i + H 2 2
  let dfdx_x := (H 0 0 * w - H 2 0 * u) / (w * w)
  let dfdx_y := (H 1 0 * w - H 2 0 * v) / (w * w)
  let dfdy_x := (H 0 1 * w - H 2 1 * u) / (w * w)
  let dfdy_y := (H 1 1 * w - H 2 1 * v) / (w * w)
  (u / w + dfdx_x * dx + dfdy_x * dy, v / w + dfdx_y * dx + dfdy_y * dy)

/-- The samples pushed for a patch (depthmap.cc:451-463). -/
noncomputable def patchSamples (im0 im1 : Img) (H : M3) (hpz : ℕ) (i j : ℤ) : List (ℝ × ℝ × ℝ) :=
  (offsets hpz).flatMap (fun dy : ℤ => (offsets hpz).map (fun dx : ℤ =>
    let p := patchPoint H i j dx dy
    (im0.at' (i + dy) (j + dx), interpolate im1 p.2 p.1,
      bilateral (im0.at' (i + dy) (j + dx) - im0.at' i j) dx dy)))

/-- `ComputePlaneImageScore` (depthmap.cc:426-465) with the homography `H` of the plane and the other image. -/
noncomputable def patchScore (im0 im1 : Img) (H : M3) (hpz : ℕ) (i j : ℤ) : ℝ :=
  if H 2 0 * j + H 2 1 * i + H 2 2 = 0 then -1 else ncc (patchSamples im0 im1 H hpz i j)

end Verif.Depthmap
