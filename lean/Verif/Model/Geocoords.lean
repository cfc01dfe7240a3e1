import Verif.Model.Pose
import Verif.Base.Dict

/-!
Model of `export_geocoords` (/repo/opensfm/actions/export_geocoords.py) and of what it uses of shots and rigs
(/repo/opensfm/src/map/src/shot.cc:8-14, 56-60, 161-167, rig.cc:16-35, /repo/opensfm/src/geometry/pose.h:194-211).

Simplifications: exact numbers of a field; the map from reconstruction coordinates to projected coordinates (`reference.to_lla` and
`pyproj`) is a parameter `q`; how a number is written is left out; a rig camera is compared exactly with the identity, where the code allows
1e-15; an exception is `none`; file names are relative to the dataset and compared as strings.
-/
set_option linter.unusedSectionVars false
namespace Verif.Geocoords
open Matrix
open Verif.Pose (Pose M3 V3 Recon)

/-! ### Which file gets what -/

/-- The four things the command can write. -/
inductive Product where
  | transformation
  | positions
  | reconstruction
  | dense
deriving DecidableEq

/-- The name used when none was given (export_geocoords.py:46, 52, 60, 64). -/
def defaultName : Product → String
  | .transformation => "geocoords_transformation.txt"
  | .positions => "image_geocoords.tsv"
  | .reconstruction => "reconstruction.geocoords.json"
  | .dense => "undistorted/depthmaps/merged.geocoords.ply"

/-- `output = output or default` (export_geocoords.py:46, 52, 60, 64). -/
def orDefault (output : String) (p : Product) : String := if output = "" then defaultName p else output

/-- One `if option:` block: the variable `output` is overwritten (export_geocoords.py:45-68). -/
def block (on : Bool) (p : Product) (acc : String × List (Product × String)) : String × List (Product × String) :=
  if on then (orDefault acc.1 p, acc.2 ++ [(p, orDefault acc.1 p)]) else acc

/-- The writes of `run_dataset`, in order (export_geocoords.py:45-68). -/
def planned (t p r d : Bool) (output : String) : List (Product × String) :=
  (block d .dense (block r .reconstruction (block p .positions (block t .transformation (output, []))))).2

/-- What an attempt does: what it leaves in its file (nothing when it fails before opening it) and whether it went through. -/
structure Attempt (C : Type) where
  left : Option C
  ok : Bool

/-- The file after an attempt. -/
def written {C : Type} (fs : Dict String C) (name : String) : Option C → Dict String C
  | none => fs
  | some c => fs.set name c

/-- The blocks are run until one raises (export_geocoords.py:45-68). -/
def runAll {C : Type} (attempt : Product → Attempt C) : List (Product × String) → Dict String C → Dict String C × Bool
  | [], fs => (fs, true)
  | (p, n) :: rest, fs =>
    if (attempt p).ok then runAll attempt rest (written fs n (attempt p).left)
    else (written fs n (attempt p).left, false)

/-! ### The transformation -/

variable {K : Type} [Field K]

/-- `_get_transformation` (export_geocoords.py:71-87): the upper left block. -/
def linearPart (q : V3 K → V3 K) : M3 K := fun i j => q (Pi.single j 1) i - q 0 i

/-- `_get_transformation` (export_geocoords.py:71-87): the last column. -/
def offset (q : V3 K → V3 K) : V3 K := fun i => q 0 i

/-- `np.dot(A, x) + b` (export_geocoords.py:120, 142, 145). -/
def apply (A : M3 K) (b x : V3 K) : V3 K := A *ᵥ x + b

/-- `_transform_image_positions` (export_geocoords.py:110-129): the rows after the header line, from the shots of all the reconstructions. -/
def positionRows {Id : Type} (A : M3 K) (b : V3 K) (recs : List (List (Id × Pose K))) : List (Id × V3 K) :=
  recs.flatMap (fun r => r.map (fun e => (e.1, apply A b e.2.getOrigin)))

/-! ### The reconstruction -/

variable {Id : Type} [DecidableEq Id]

/-- `RigInstance::NumberOfShots` (rig.cc:14). -/
def numberOfShots (r : Recon Id K) (i : Id) : ℕ := (r.shots.vals.filter (fun e => e.1 = i)).length

/-- `IsSingleShotRig` (shot.cc:8-14). -/
def SingleShot (r : Recon Id K) (i : Id) (camera : Pose K) : Prop :=
  (camera.getOrigin = 0 ∧ camera.wcR = 1) ∧ numberOfShots r i = 1

/-- What `shot.pose` gives (shot.cc:161-167): the pose of the instance, or a copy that cannot be changed. -/
noncomputable def shotPose (r : Recon Id K) (s : Id) : Option (Pose K) :=
  open Classical in
  match r.shots.get? s with
  | none => none
  | some (i, c) =>
    match r.rigInstances.get? i, r.rigCameras.get? c with
    | some pi, some pc => some (if SingleShot r i pc then pi else pc.compose pi)
    | _, _ => none

/-- The two assignments (export_geocoords.py:140-142): the origin is read after the rotation has changed. -/
noncomputable def movedPose (A : M3 K) (b : V3 K) (p : Pose K) : Pose K :=
  (p.setRotationMatrix (p.wcR * A⁻¹)).setOrigin (apply A b (p.setRotationMatrix (p.wcR * A⁻¹)).getOrigin)

/-- One turn of the loop over the shots (export_geocoords.py:139-142): the pose of a shot that shares its rig cannot be set (pose.h:194-211). -/
noncomputable def moveShot (A : M3 K) (b : V3 K) (r : Recon Id K) (s : Id) : Option (Recon Id K) :=
  open Classical in
  match r.shots.get? s with
  | none => none
  | some (i, c) =>
    match r.rigInstances.get? i, r.rigCameras.get? c with
    | some pi, some pc => if SingleShot r i pc then some { r with rigInstances := r.rigInstances.set i (movedPose A b pi) } else none
    | _, _ => none

/-- The points (export_geocoords.py:144-145). -/
def movePoints (A : M3 K) (b : V3 K) (r : Recon Id K) : Recon Id K :=
  { r with points := r.points.mapVals (fun _ x => apply A b x) }

/-- `_transform_reconstruction` (export_geocoords.py:132-145): a matrix without inverse raises. -/
noncomputable def transformReconstruction (A : M3 K) (b : V3 K) (r : Recon Id K) : Option (Recon Id K) :=
  open Classical in
  if A.det = 0 then none
  else (r.shots.keys.foldlM (moveShot A b) r).map (movePoints A b)

/-! ### The dense point cloud -/

/-- One line (export_geocoords.py:156-173): the first thirteen lines are copied; for the others `np.dot(A, map(...))` multiplies numbers by a
`map` object, which raises. -/
def denseLine (i : ℕ) (line : String) : Option String := if i < 13 then some line else none

/-- `_transform_dense_point_cloud` (export_geocoords.py:148-173): what was written, and whether the end was reached. -/
def transformDense : ℕ → List String → List String × Bool
  | _, [] => ([], true)
  | i, l :: ls =>
    match denseLine i l with
    | none => ([], false)
    | some o => (o :: (transformDense (i + 1) ls).1, (transformDense (i + 1) ls).2)

end Verif.Geocoords
