import Verif.Model.AlignPrior
import Verif.Model.Geo

/-!
Model of the angles of a camera: `rotation_from_ptr`, `ptr_from_rotation`, their second versions, `rotation_from_opk` and
`opk_from_rotation` (/repo/opensfm/geometry.py:10-113), `euler_matrix` and `euler_from_matrix`
(/repo/opensfm/transformations.py:1113-1237), `camera_up_vector`, `camera_compass_angle` and
`rotation_matrix_from_up_vector_and_compass` (/repo/opensfm/multiview.py:305-362) and the rotation of a shot from its metadata
(/repo/opensfm/reconstruction_helpers.py:15-81).

Simplifications: numbers are exact reals; `nan` is `none`; `cv2.Rodrigues` is Rodrigues' formula, with the identity only for
the zero vector; a shot is what these functions read of it.
-/
set_option linter.unusedSectionVars false
namespace Verif.Angles
open Matrix Verif.Superimpose Verif.AlignPrior
open Verif.Geo (arctan2 degrees radians)

open Classical in
/-- `rotation_from_angle_axis`, that is `cv2.Rodrigues` (geometry.py:10-11). -/
noncomputable def rodrigues (v : Vec 3) : Mat 3 :=
  let θ := AlignPrior.norm v
  if θ = 0 then 1
  else
    let k : Vec 3 := (1 / θ) • v
    diagonal (fun _ => Real.cos θ) + (1 - Real.cos θ) • vecMulVec k k +
      Real.sin θ • !![0, -k 2, k 1; k 2, 0, -k 0; -k 1, k 0, 0]

/-- `rotation_from_ptr` (geometry.py:14-19). -/
noncomputable def rotationFromPtr (pan tilt roll : ℝ) : Mat 3 :=
  rodrigues ![0, 0, roll] * rodrigues ![tilt + Real.pi / 2, 0, 0] * rodrigues ![0, 0, pan]

/-- `pan_from_rotation` (geometry.py:32-34). -/
noncomputable def panFromRotation (R : Mat 3) : ℝ :=
  let z : Vec 3 := Rᵀ *ᵥ ![0, 0, 1]
  arctan2 (z 0) (z 1)

/-- `tilt_from_rotation` (geometry.py:37-40). -/
noncomputable def tiltFromRotation (R : Mat 3) : ℝ :=
  let z : Vec 3 := Rᵀ *ᵥ ![0, 0, 1]
  arctan2 (-z 2) (Real.sqrt (z 0 ^ 2 + z 1 ^ 2))

open Classical in
/-- `roll_from_rotation` (geometry.py:43-49); `none` is the `nan` of a quotient of zeros. -/
noncomputable def rollFromRotation (R : Mat 3) : Option ℝ :=
  let x : Vec 3 := Rᵀ *ᵥ ![1, 0, 0]
  let z : Vec 3 := Rᵀ *ᵥ ![0, 0, 1]
  let a := cross z ![0, 0, 1]
  if AlignPrior.norm a = 0 then none
  else some (Real.arcsin (z ⬝ᵥ cross x ((1 / AlignPrior.norm a) • a)))

/-- `ptr_from_rotation` (geometry.py:22-29). -/
noncomputable def ptrFromRotation (R : Mat 3) : ℝ × ℝ × Option ℝ :=
  (panFromRotation R, tiltFromRotation R, rollFromRotation R)

/-- An entry of `_AXES2TUPLE` (transformations.py:1609-1634): the first axis, parity, repetition and frame. -/
structure Axes where
  first : Fin 3
  parity : Bool
  repetition : Bool
  frame : Bool
deriving DecidableEq

/-- `_NEXT_AXIS` (transformations.py:1606). -/
def nextAxis (n : ℕ) : Fin 3 := if n = 0 then 1 else if n = 1 then 2 else if n = 2 then 0 else 1

/-- The second index `j` (transformations.py:1141 and 1208). -/
def Axes.second (a : Axes) : Fin 3 := nextAxis (a.first.val + (if a.parity then 1 else 0))

/-- The third index `k` (transformations.py:1142 and 1209). -/
def Axes.third (a : Axes) : Fin 3 := nextAxis (a.first.val + 1 - (if a.parity then 1 else 0))

/-- The assignments `M[i, i] = ...` (transformations.py:1155-1174), for a matrix given by its entries in the order of the
axes. -/
def place (i j : Fin 3) (m : Mat 3) : Mat 3 :=
  let at' : Fin 3 → Fin 3 := fun x => if x = i then 0 else if x = j then 1 else 2
  fun x y => m (at' x) (at' y)

/-- The entries of `euler_matrix` in the order of the axes (transformations.py:1149-1174). -/
noncomputable def eulerEntries (repetition : Bool) (ai aj ak : ℝ) : Mat 3 :=
  let si := Real.sin ai
  let sj := Real.sin aj
  let sk := Real.sin ak
  let ci := Real.cos ai
  let cj := Real.cos aj
  let ck := Real.cos ak
  let cc := ci * ck
  let cs := ci * sk
  let sc := si * ck
  let ss := si * sk
  if repetition then
    !![cj, sj * si, sj * ci; sj * sk, -cj * ss + cc, -cj * cs - sc; -sj * ck, cj * sc + cs, cj * cc - ss]
  else
    !![cj * ck, sj * sc - cs, sj * cc + ss; cj * sk, sj * ss + cc, sj * cs - sc; -sj, cj * si, cj * ci]

/-- The 3x3 block of `euler_matrix` (transformations.py:1139-1175). -/
noncomputable def eulerMatrix (ai aj ak : ℝ) (a : Axes) : Mat 3 :=
  let (ai, ak) := if a.frame then (ak, ai) else (ai, ak)
  let (ai, aj, ak) := if a.parity then (-ai, -aj, -ak) else (ai, aj, ak)
  place a.first a.second (eulerEntries a.repetition ai aj ak)

/-- `_EPS` (transformations.py:1603). -/
noncomputable def eps : ℝ := (2 : ℝ) ^ (-52 : ℤ) * 4

open Classical in
/-- The three angles before the signs and the order are restored (transformations.py:1211-1231). -/
noncomputable def eulerAngles (repetition : Bool) (M : Mat 3) (i j k : Fin 3) : ℝ × ℝ × ℝ :=
  if repetition then
    let sy := Real.sqrt (M i j * M i j + M i k * M i k)
    if sy > eps then (arctan2 (M i j) (M i k), arctan2 sy (M i i), arctan2 (M j i) (-M k i))
    else (arctan2 (-M j k) (M j j), arctan2 sy (M i i), 0)
  else
    let cy := Real.sqrt (M i i * M i i + M j i * M j i)
    if cy > eps then (arctan2 (M k j) (M k k), arctan2 (-M k i) cy, arctan2 (M j i) (M i i))
    else (arctan2 (-M j k) (M j j), arctan2 (-M k i) cy, 0)

/-- `euler_from_matrix` (transformations.py:1206-1237). -/
noncomputable def eulerFromMatrix (M : Mat 3) (a : Axes) : ℝ × ℝ × ℝ :=
  let (ax, ay, az) := eulerAngles a.repetition M a.first a.second a.third
  let (ax, ay, az) := if a.parity then (-ax, -ay, -az) else (ax, ay, az)
  if a.frame then (az, ay, ax) else (ax, ay, az)

/-- `_AXES2TUPLE` (transformations.py:1609-1634). -/
def axesTable : List (String × Axes) :=
  [("sxyz", ⟨0, false, false, false⟩), ("sxyx", ⟨0, false, true, false⟩), ("sxzy", ⟨0, true, false, false⟩),
    ("sxzx", ⟨0, true, true, false⟩), ("syzx", ⟨1, false, false, false⟩), ("syzy", ⟨1, false, true, false⟩),
    ("syxz", ⟨1, true, false, false⟩), ("syxy", ⟨1, true, true, false⟩), ("szxy", ⟨2, false, false, false⟩),
    ("szxz", ⟨2, false, true, false⟩), ("szyx", ⟨2, true, false, false⟩), ("szyz", ⟨2, true, true, false⟩),
    ("rzyx", ⟨0, false, false, true⟩), ("rxyx", ⟨0, false, true, true⟩), ("ryzx", ⟨0, true, false, true⟩),
    ("rxzx", ⟨0, true, true, true⟩), ("rxzy", ⟨1, false, false, true⟩), ("ryzy", ⟨1, false, true, true⟩),
    ("rzxy", ⟨1, true, false, true⟩), ("ryxy", ⟨1, true, true, true⟩), ("ryxz", ⟨2, false, false, true⟩),
    ("rzxz", ⟨2, false, true, true⟩), ("rxyz", ⟨2, true, false, true⟩), ("rzyz", ⟨2, true, true, true⟩)]

/-- `_AXES2TUPLE[axes]` (transformations.py:1133 and 1200); `none` is the `KeyError` for an unknown name. -/
def axesOf (name : String) : Option Axes := axesTable.lookup name

/-- The entry of `"szxz"`, used by the second version of pan, tilt and roll (geometry.py:58 and 68). -/
def szxz : Axes := (axesOf "szxz").getD ⟨0, false, false, false⟩

/-- `rotation_from_ptr_v2` (geometry.py:52-58). -/
noncomputable def rotationFromPtr2 (pan tilt roll : ℝ) : Mat 3 := eulerMatrix pan (tilt + Real.pi / 2) roll szxz

/-- `ptr_from_rotation_v2` (geometry.py:61-69). -/
noncomputable def ptrFromRotation2 (R : Mat 3) : ℝ × ℝ × ℝ :=
  let (pan, tilt, roll) := eulerFromMatrix R szxz
  (pan, tilt - Real.pi / 2, roll)

/-- The axes of the camera of aerial surveying in those of OpenSfM (geometry.py:86 and 94). -/
def opkAxes : Mat 3 := !![1, 0, 0; 0, -1, 0; 0, 0, -1]

/-- `rotation_from_opk` (geometry.py:72-87). -/
noncomputable def rotationFromOpk (omega phi kappa : ℝ) : Mat 3 :=
  opkAxes * rodrigues ![0, 0, -kappa] * rodrigues ![0, -phi, 0] * rodrigues ![-omega, 0, 0]

/-- `opk_from_rotation` (geometry.py:90-111). -/
noncomputable def opkFromRotation (M : Mat 3) : ℝ × ℝ × ℝ :=
  let R := Mᵀ * opkAxes
  (arctan2 (-R 1 2) (R 2 2), Real.arcsin (R 0 2), arctan2 (-R 0 1) (R 0 0))

/-- `camera_up_vector` (multiview.py:305-310). -/
def cameraUpVector (R : Mat 3) : Vec 3 := fun i => R i 2

/-- `camera_compass_angle` (multiview.py:313-323). -/
noncomputable def cameraCompassAngle (R : Mat 3) : ℝ := degrees (arctan2 (R 2 0) (R 2 1))

/-- `np.column_stack` (multiview.py:362). -/
def columns (a b c : Vec 3) : Mat 3 := fun i j => if j = 0 then a i else if j = 1 then b i else c i

open Classical in
/-- `rotation_matrix_from_up_vector_and_compass` (multiview.py:326-362). -/
noncomputable def rotationFromUp (up : Vec 3) (compass : ℝ) : Mat 3 :=
  let r3 : Vec 3 := (1 / AlignPrior.norm up) • up
  let ez : Vec 3 := ![0, 0, 1]
  let r2 : Vec 3 := ez - (ez ⬝ᵥ r3) • r3
  let r2n := AlignPrior.norm r2
  let (r1, r2) :=
    if r2n > 1e-8 then
      let r2 : Vec 3 := (1 / r2n) • r2
      (cross r2 r3, r2)
    else
      let r1 : Vec 3 := ![1, 0, 0]
      (r1, cross r3 r1)
  columns r1 r2 r3 * rodrigues ![0, 0, radians compass]

/-- `guess_gravity_up_from_orientation_tag` (reconstruction_helpers.py:15-39); `none` is the exception. -/
def guessGravityUp (orientation : ℤ) : Option (Vec 3) :=
  if orientation = 1 then some ![0, -1, 0]
  else if orientation = 2 then some ![0, -1, 0]
  else if orientation = 3 then some ![0, 1, 0]
  else if orientation = 4 then some ![0, 1, 0]
  else if orientation = 5 then some ![-1, 0, 0]
  else if orientation = 6 then some ![-1, 0, 0]
  else if orientation = 7 then some ![1, 0, 0]
  else if orientation = 8 then some ![1, 0, 0]
  else none

/-- What the rotation of a shot is made of (`shot.metadata`). -/
structure Measurements where
  gravityDown : Option (Vec 3)
  orientation : Option ℤ
  compass : Option ℝ
  opk : Option (ℝ × ℝ × ℝ)

/-- `shot_gravity_up_in_image_axis` (reconstruction_helpers.py:42-57). -/
def gravityUp (m : Measurements) : Option (Vec 3) :=
  match m.gravityDown with
  | some g => some (-g)
  | none =>
    match m.orientation with
    | none => none
    | some o => guessGravityUp (if 1 ≤ o ∧ o ≤ 8 then o else 1)

/-- `rotation_from_orientation_compass` (reconstruction_helpers.py:65-73). -/
noncomputable def rotationFromOrientation (m : Measurements) : Option (Mat 3) :=
  match gravityUp m with
  | none => none
  | some up => some (rotationFromUp up (m.compass.getD 0))

/-- `rotation_from_angles` (reconstruction_helpers.py:76-81). -/
noncomputable def rotationFromAngles (m : Measurements) : Option (Mat 3) :=
  match m.opk with
  | none => none
  | some (o, p, k) => some (rotationFromOpk (radians o) (radians p) (radians k))

/-- `rotation_from_shot_metadata` (reconstruction_helpers.py:60-64). -/
noncomputable def rotationFromMetadata (m : Measurements) : Option (Mat 3) :=
  match rotationFromAngles m with
  | some R => some R
  | none => rotationFromOrientation m

end Verif.Angles
