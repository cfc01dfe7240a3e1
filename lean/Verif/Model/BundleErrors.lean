import Verif.Model.Superimpose
import Verif.Model.Camera

/-!
Model of the residuals of the bundle adjuster: /repo/opensfm/src/bundle/error/error_utils.h, position_functors.h,
projection_errors.h, relative_depth_error.h, relative_motion_errors.h, absolute_motion_errors.h, motion_prior_errors.h,
parameters_errors.h, and of the choice of the parameter blocks in `BundleAdjuster::Run`
(/repo/opensfm/src/bundle/src/bundle_adjuster.cc:585-1100).

Simplifications: exact reals. The functions of ceres (`AngleAxisRotatePoint`, `AngleAxisToQuaternion`, `QuaternionProduct`,
`QuaternionToAngleAxis`, the loss functions) are not in /repo; they are modelled after their documentation. `ε` is the bound on
the squared angle below which ceres uses the first order formula; it differs between versions of ceres. A quotient by a zero
standard deviation is 0 here and infinite in the code; theorems assume it is not zero. The heatmap residual is not modelled.
-/
set_option linter.unusedSectionVars false
namespace Verif.BundleErrors
open Matrix Verif.Superimpose

/-- A block of six parameters (data/pose.h:17): rotation vector (camera to world) and position. -/
@[ext] structure Block where
  r : Vec 3
  t : Vec 3

/-- Cross product. -/
def cross (v w : Vec 3) : Vec 3 := ![v 1 * w 2 - v 2 * w 1, v 2 * w 0 - v 0 * w 2, v 0 * w 1 - v 1 * w 0]

/-- `norm()`. -/
noncomputable def norm (v : Vec 3) : ℝ := Real.sqrt (v ⬝ᵥ v)

open Classical in
/-- `RotatePoint` (error_utils.h:41-46), that is `ceres::AngleAxisRotatePoint`. -/
noncomputable def rotatePoint (ε : ℝ) (w x : Vec 3) : Vec 3 :=
  if w ⬝ᵥ w > ε then
    let θ := Real.sqrt (w ⬝ᵥ w)
    let k : Vec 3 := (1 / θ) • w
    Real.cos θ • x + Real.sin θ • cross k x + ((k ⬝ᵥ x) * (1 - Real.cos θ)) • k
  else x + cross w x

open Classical in
/-- `ceres::AngleAxisToQuaternion`. -/
noncomputable def toQuat (w : Vec 3) : Fin 4 → ℝ :=
  let θ2 := w ⬝ᵥ w
  if θ2 > 0 then
    let θ := Real.sqrt θ2
    let k := Real.sin (θ / 2) / θ
    ![Real.cos (θ / 2), w 0 * k, w 1 * k, w 2 * k]
  else ![1, w 0 * (1 / 2), w 1 * (1 / 2), w 2 * (1 / 2)]

/-- `ceres::QuaternionProduct`. -/
def quatMul (z w : Fin 4 → ℝ) : Fin 4 → ℝ :=
  ![z 0 * w 0 - z 1 * w 1 - z 2 * w 2 - z 3 * w 3,
    z 0 * w 1 + z 1 * w 0 + z 2 * w 3 - z 3 * w 2,
    z 0 * w 2 - z 1 * w 3 + z 2 * w 0 + z 3 * w 1,
    z 0 * w 3 + z 1 * w 2 - z 2 * w 1 + z 3 * w 0]

open Classical in
/-- `ceres::QuaternionToAngleAxis`. -/
noncomputable def ofQuat (q : Fin 4 → ℝ) : Vec 3 :=
  let s2 := q 1 * q 1 + q 2 * q 2 + q 3 * q 3
  if s2 > 0 then
    let s := Real.sqrt s2
    let two := 2 * (if q 0 < 0 then Camera.atan2 (-s) (-q 0) else Camera.atan2 s (q 0))
    let k := two / s
    ![q 1 * k, q 2 * k, q 3 * k]
  else ![q 1 * 2, q 2 * 2, q 3 * 2]

/-- `MultRotations(R1, R2)` (error_utils.h:14-25). -/
noncomputable def mult (a b : Vec 3) : Vec 3 := ofQuat (quatMul (toQuat a) (toQuat b))

/-- `MultRotations(R1, R2, R3)` (error_utils.h:27-39). -/
noncomputable def mult3 (a b c : Vec 3) : Vec 3 := ofQuat (quatMul (quatMul (toQuat a) (toQuat b)) (toQuat c))

/-- `WorldToLocal` (error_utils.h:51-67). -/
noncomputable def worldToLocal (ε scale : ℝ) (shot : Block) (x : Vec 3) : Vec 3 := rotatePoint ε (-shot.r) (scale • x - shot.t)

/-- `WorldToCameraCoordinatesRig` (error_utils.h:73-87); `none` is the null pointer. -/
noncomputable def worldToCamera (ε scale : ℝ) (inst : Block) (cam : Option Block) (x : Vec 3) : Vec 3 :=
  match cam with
  | some c => worldToLocal ε 1 c (worldToLocal ε scale inst x)
  | none => worldToLocal ε scale inst x

open Classical in
/-- `DiffBetweenAngles` (error_utils.h:89-99). -/
noncomputable def angleDiff (a b : ℝ) : ℝ :=
  let d := a - b
  if d > Real.pi then d - 2 * Real.pi
  else if d < -Real.pi then d + 2 * Real.pi
  else d

/-- `ShotPositionFunctor` (position_functors.h:12-39). -/
noncomputable def shotPosition (ε : ℝ) (inst : Block) (cam : Option Block) : Vec 3 :=
  match cam with
  | some c => inst.t + rotatePoint ε inst.r c.t
  | none => inst.t

/-- `ShotRotationFunctor` (position_functors.h:41-68). -/
noncomputable def shotRotation (inst : Block) (cam : Option Block) : Vec 3 :=
  match cam with
  | some c => mult inst.r c.r
  | none => inst.r

open Classical in
/-- `IsRigCameraUseful` (bundle_adjuster.cc:17-20) and the pointer that is then used (projection_errors.h:40). -/
noncomputable def usedCamera (fixed : Bool) (cam : Block) : Option Block :=
  if fixed = true ∧ cam = ⟨0, 0⟩ then none else some cam

/-! ### Observations -/

/-- `ReprojectionError2D` (projection_errors.h:30-55); `project` is the projection of the camera. -/
noncomputable def reprojection2D (ε : ℝ) (project : Vec 3 → Vec 2) (observed : Vec 2) (std : ℝ) (inst : Block) (cam : Option Block)
    (x : Vec 3) : Vec 2 :=
  (1 / std) • (project (worldToCamera ε 1 inst cam x) - observed)

/-- `bearing_vector_` (projection_errors.h:210-217). -/
noncomputable def bearing (observed : Vec 2) : Vec 3 :=
  let lon := observed 0 * 2 * Real.pi
  let lat := -observed 1 * 2 * Real.pi
  ![Real.cos lat * Real.sin lon, -Real.sin lat, Real.cos lat * Real.cos lon]

/-- `ReprojectionError3D` (projection_errors.h:202-241). Eigen's `normalize` leaves the zero vector alone. -/
noncomputable def reprojection3D (ε : ℝ) (observed : Vec 2) (std : ℝ) (inst : Block) (cam : Option Block) (x : Vec 3) : Vec 3 :=
  let p := worldToCamera ε 1 inst cam x
  (1 / std) • ((1 / norm p) • p - bearing observed)

/-- `RelativeDepthError` (relative_depth_error.h:11-46). -/
noncomputable def relativeDepth (ε depth std : ℝ) (radial : Bool) (inst : Block) (cam : Option Block) (x : Vec 3) : ℝ :=
  let p := worldToCamera ε 1 inst cam x
  (1 / std) * ((if radial then norm p else p 2) - depth)

/-! ### Relative motions -/

/-- `RelativeMotionError` (relative_motion_errors.h:13-67); `none`: the evaluation fails. -/
noncomputable def relativeMotion (ε : ℝ) (Rij tij : Vec 3) (sij : ℝ) (W : Matrix (Fin 7) (Fin 7) ℝ) (observedScale : Bool)
    (bi bj : Block) (si sj : ℝ) : Option (Fin 7 → ℝ) :=
  let r := mult3 Rij (-bi.r) bj.r
  let t := tij - sj • rotatePoint ε (-bj.r) (bi.t - bj.t)
  if si = 0 ∨ sj = 0 then none
  else
    let s := if observedScale then sij - sj / si else 0
    some (W *ᵥ ![r 0, r 1, r 2, t 0, t 1, t 2, s])

/-- `RelativeRotationError` (relative_motion_errors.h:69-95). -/
noncomputable def relativeRotation (Rij : Vec 3) (W : Mat 3) (bi : Block) (ci : Option Block) (bj : Block) (cj : Option Block) :
    Vec 3 := W *ᵥ mult3 Rij (-shotRotation bi ci) (shotRotation bj cj)

/-- `CommonPositionError` (relative_motion_errors.h:97-129). -/
noncomputable def commonPosition (ε margin std : ℝ) (bi : Block) (ci : Option Block) (bj : Block) (cj : Option Block) : Vec 3 :=
  let e := shotPosition ε bi ci - shotPosition ε bj cj
  (1 / std) • ![max 0 (|e 0| - margin), max 0 (|e 1| - margin), e 2]

/-! ### Absolute orientation -/

/-- `UpVectorError` (absolute_motion_errors.h:13-41); `none`: the constructor raises. -/
noncomputable def upVector (ε : ℝ) (acceleration : Vec 3) (std : ℝ) (inst : Block) (cam : Option Block) : Option (Vec 3) :=
  if norm acceleration < 1 / 10000000000 then none
  else some ((1 / std) • (rotatePoint ε (shotRotation inst cam) ((1 / norm acceleration) • acceleration) - ![0, 0, 1]))

open Classical in
/-- `PanAngleError` (absolute_motion_errors.h:43-70). -/
noncomputable def pan (ε angle std : ℝ) (inst : Block) (cam : Option Block) : ℝ :=
  let z := rotatePoint ε (shotRotation inst cam) ![0, 0, 1]
  if |z 0| < 1 / 100000000 ∧ |z 1| < 1 / 100000000 then 0
  else (1 / std) * angleDiff (Camera.atan2 (z 0) (z 1)) angle

/-- `TiltAngleError` (absolute_motion_errors.h:72-97). -/
noncomputable def tilt (ε angle std : ℝ) (inst : Block) (cam : Option Block) : ℝ :=
  let z := rotatePoint ε (shotRotation inst cam) ![0, 0, 1]
  let l := Real.sqrt (z 0 * z 0 + z 1 * z 1)
  (1 / std) * angleDiff (-Camera.atan2 (z 2) l) angle

open Classical in
/-- `RollAngleError` (absolute_motion_errors.h:99-145). -/
noncomputable def roll (ε angle std : ℝ) (inst : Block) (cam : Option Block) : ℝ :=
  let R := shotRotation inst cam
  let x := rotatePoint ε R ![1, 0, 0]
  let z := rotatePoint ε R ![0, 0, 1]
  let la := Real.sqrt (z 1 * z 1 + z 0 * z 0)
  if la < 1 / 100000 then 0
  else
    let a : Vec 3 := ![z 1 / la, -z 0 / la, 0]
    let s := z ⬝ᵥ cross x a
    if s ≤ -(1 - 1 / 100000) then 0
    else (1 / std) * angleDiff (Real.arcsin s) angle

/-! ### Motion prior, gauge, regularisers -/

open Classical in
/-- `LinearMotionError` (motion_prior_errors.h:12-77). -/
noncomputable def linearMotion (ε α stdP stdR : ℝ) (b0 : Block) (c0 : Option Block) (b1 : Block) (c1 : Option Block) (b2 : Block)
    (c2 : Option Block) : Vec 3 × Vec 3 :=
  let t20 := shotPosition ε b2 c2 - shotPosition ε b0 c0
  let t10 := shotPosition ε b1 c1 - shotPosition ε b0 c0
  let R0 := shotRotation b0 c0
  let R1 := shotRotation b1 c1
  let R2 := shotRotation b2 c2
  (if norm t20 > 1 / 1000000000000000 then fun _ => (1 / stdP) * (α - norm t10 / norm t20)
    else (1 / stdP) • (α • t20 - t10),
   (1 / stdR) • mult (α • mult R2 (-R0)) (mult R0 (-R1)))

/-- `TranslationPriorError` (absolute_motion_errors.h:190-215). -/
noncomputable def gauge (prior : ℝ) (b1 b2 : Block) : ℝ :=
  Real.log (Real.sqrt ((b1.t - b2.t) ⬝ᵥ (b1.t - b2.t) + 1 / 10 ^ 20) / max prior (1 / 10 ^ 20))

/-- `StdDeviationConstraint` (parameters_errors.h:7-17). -/
noncomputable def stdConstraint (std : ℝ) : ℝ := Real.log (1 / Real.sqrt (2 * Real.pi * (std * std + 1 / 10 ^ 20)))

/-- `ParameterBarrier` (parameters_errors.h:19-38); outside of the domain of the logarithm the code gets `nan`. -/
noncomputable def barrier (lower upper value : ℝ) : ℝ :=
  Real.log (value - lower + 1 / 10 ^ 10) + Real.log (upper - value + 1 / 10 ^ 10) + 2 * Real.log ((upper - lower) * (1 / 2))

/-! ### Parameter blocks of a residual -/

variable {C : Type} [DecidableEq C]

/-- The rig cameras among the parameter blocks of a residual with two shots, and the index of the rig camera of either shot
(bundle_adjuster.cc:872-900, 915-940); indexes count from the first block after the rig instances. -/
def blocks2 (useful : C → Bool) (ci cj : C) : List C × Option ℕ × Option ℕ :=
  let bi : List C := if useful ci then [ci] else []
  let ii : Option ℕ := if useful ci then some 0 else none
  if useful cj then
    if cj ≠ ci then (bi ++ [cj], ii, some bi.length) else (bi, ii, ii)
  else (bi, ii, none)

/-- The same with three shots (bundle_adjuster.cc:1050-1088). -/
def blocks3 (useful : C → Bool) (c0 c1 c2 : C) : List C × Option ℕ × Option ℕ × Option ℕ :=
  let (b, i0, i1) := blocks2 useful c0 c1
  if useful c2 then
    if c2 ≠ c0 ∧ c2 ≠ c1 then (b ++ [c2], i0, i1, some b.length) else (b, i0, i1, i0)
  else (b, i0, i1, none)

/-- The rig camera a residual reads through an index. -/
def readCamera (b : List C) (i : Option ℕ) : Option C := i.bind (fun k => b[k]?)

/-! ### Cost -/

open Classical in
/-- `CreateLossFunction` (bundle_adjuster.cc:412-428): the loss of a squared norm; `none`: unknown name. -/
noncomputable def loss (name : String) (a s : ℝ) : Option ℝ :=
  if name = "TrivialLoss" then some s
  else if name = "HuberLoss" then some (if s > a * a then 2 * a * Real.sqrt s - a * a else s)
  else if name = "SoftLOneLoss" then some (2 * (a * a) * (Real.sqrt (1 + s / (a * a)) - 1))
  else if name = "CauchyLoss" then some (a * a * Real.log (1 + s / (a * a)))
  else if name = "ArctanLoss" then some (a * Camera.atan2 s a)
  else none

/-- What ceres minimises: half the sum of the losses of the squared norms. -/
noncomputable def cost (terms : List ((ℝ → ℝ) × List ℝ)) : ℝ :=
  (terms.map (fun e => (1 / 2) * e.1 ((e.2.map (fun r => r * r)).sum))).sum

end Verif.BundleErrors
