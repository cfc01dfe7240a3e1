import Verif.Model.GpsBias
import Verif.Model.Pose
import Verif.Base.Dict

/-!
Model of the calibration of a rig from reconstructed shots: `compute_relative_pose`
(/repo/opensfm/rig.py:211-266).

Simplifications: exact reals; a shot is its pose; the camera ids, which are collected but not used, are left out;
`toVec` is the rotation vector that Eigen gives of a rotation matrix (pose.h:41), a parameter; instances are not
empty (an empty one would divide by zero, without effect).
-/
namespace Verif.RigCalib
open Matrix Verif.Superimpose Verif.Pose Verif.GpsBias

variable {Id : Type} [DecidableEq Id]

/-- The mean of rotation vectors and of origins (rig.py:219-226): a sum from zero, divided by the count. -/
noncomputable def average (l : List (Vec 3)) : Vec 3 := (1 / (l.length : ℝ)) • l.foldl (· + ·) 0

/-- `Pose(rotation_center)` with `set_origin(origin_center)` (rig.py:230-231). -/
noncomputable def poseAt (r o : Vec 3) : Pose ℝ := (Pose.ofWorldToCamera (vecToMat r) 0).setOrigin o

/-- The canonical frame of an instance (rig.py:219-231). -/
noncomputable def frame (toVec : Mat 3 → Vec 3) (inst : List (Pose ℝ × Id)) : Pose ℝ :=
  poseAt (average (inst.map (fun s => toVec s.1.wcR))) (average (inst.map (fun s => s.1.getOrigin)))

/-- The poses of an instance in its canonical frame (rig.py:228-240). -/
noncomputable def centred (toVec : Mat 3 → Vec 3) (inst : List (Pose ℝ × Id)) : List (Pose ℝ × Id) :=
  inst.map (fun s => (s.1.relativeTo (frame toVec inst), s.2))

/-- Sum of origins, sum of rotation vectors, and count of a rig camera (rig.py:244-254). -/
structure Acc where
  origin : Vec 3
  rotation : Vec 3
  count : ℕ

/-- One pose (rig.py:246-254). -/
noncomputable def accumulate (toVec : Mat 3 → Vec 3) (d : Dict Id Acc) (s : Pose ℝ × Id) : Dict Id Acc :=
  let a := (d.get? s.2).getD ⟨0, 0, 0⟩
  d.set s.2 ⟨a.origin + s.1.getOrigin, a.rotation + toVec s.1.wcR, a.count + 1⟩

/-- The pose of a rig camera (rig.py:259-264). -/
noncomputable def final (a : Acc) : Pose ℝ :=
  poseAt ((1 / (a.count : ℝ)) • a.rotation) ((1 / (a.count : ℝ)) • a.origin)

/-- `compute_relative_pose` (rig.py:211-266). -/
noncomputable def computeRelativePose (toVec : Mat 3 → Vec 3) (instances : List (List (Pose ℝ × Id))) :
    Dict Id (Pose ℝ) :=
  Dict.mapVals (fun _ a => final a)
    (((instances.map (centred toVec)).flatten).foldl (accumulate toVec) [])

end Verif.RigCalib
