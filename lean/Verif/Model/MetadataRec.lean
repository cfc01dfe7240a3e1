import Verif.Model.Angles
import Verif.Model.Pose
import Verif.Base.Dict

/-!
Model of the reconstruction made of metadata, the start of triangulation reconstructions: `exif_to_metadata`, `get_image_metadata`,
`reconstruction_from_metadata` (/repo/opensfm/reconstruction_helpers.py:84-185), `rig_assignments_per_image` (/repo/opensfm/rig.py:39-52) and
what they use of `Reconstruction` (/repo/opensfm/types.py:151-214, 244) and of the C++ map (/repo/opensfm/src/map/src/map.cc:191-225, 407-448,
rig.cc:17-36, 65-72, shot.cc:8-15, 30-41, 146-167).

Simplifications: exact reals; `reference.to_topocentric` is a parameter; names are not empty; an exception is `none`; a pose is compared
exactly with the identity, where the code allows 1e-15; `shot.scale` and the deprecated accelerometer warning are left out.
-/
namespace Verif.MetadataRec
open Verif.Superimpose
open Verif.Pose (Pose)

/-- The `gps` entry of the metadata of an image (reconstruction_helpers.py:133-146). -/
structure GpsTag where
  latitude : Option ℝ
  longitude : Option ℝ
  altitude : Option ℝ
  dop : Option ℝ

/-- The `opk` entry (reconstruction_helpers.py:148-153). -/
structure OpkTag where
  omega : Option ℝ
  phi : Option ℝ
  kappa : Option ℝ
  accuracy : Option ℝ

/-- What is read of the metadata of an image (reconstruction_helpers.py:95, 133-177). -/
structure Exif where
  camera : String
  gps : Option GpsTag
  opk : Option OpkTag
  orientation : Option ℤ
  gravityDown : Option (Vec 3)
  compass : Option (ℝ × Option ℝ)
  captureTime : Option ℝ
  skey : Option String

/-- `ShotMeasurements` (shot.h:26-46). -/
structure Meta where
  gpsPosition : Option (Vec 3) := none
  gpsAccuracy : Option ℝ := none
  opkAngles : Option (ℝ × ℝ × ℝ) := none
  opkAccuracy : Option ℝ := none
  orientation : Option ℤ := none
  gravityDown : Option (Vec 3) := none
  compassAngle : Option ℝ := none
  compassAccuracy : Option ℝ := none
  captureTime : Option ℝ := none
  sequenceKey : Option String := none

/-- `maximum_altitude` (exif.py:21). -/
noncomputable def maximumAltitude : ℝ := 10000

/-- The altitude used (reconstruction_helpers.py:138-141). -/
noncomputable def altitudeOf (useAltitude : Bool) (g : GpsTag) : ℝ :=
  if useAltitude then min maximumAltitude (g.altitude.getD 2) else 2

open Classical in
/-- The accuracy used (reconstruction_helpers.py:145-147). -/
noncomputable def accuracyOf (g : GpsTag) : ℝ := if g.dop.getD 15 = 0 then 15 else g.dop.getD 15

/-- Position and accuracy (reconstruction_helpers.py:133-147). -/
noncomputable def gpsMeta (topo : ℝ → ℝ → ℝ → Vec 3) (useAltitude : Bool) (e : Exif) (m : Meta) : Meta :=
  match e.gps with
  | none => m
  | some g =>
    match g.latitude, g.longitude with
    | some lat, some lon => { m with gpsPosition := some (topo lat lon (altitudeOf useAltitude g)), gpsAccuracy := some (accuracyOf g) }
    | _, _ => m

/-- Omega, phi and kappa (reconstruction_helpers.py:149-154). -/
noncomputable def opkMeta (e : Exif) (m : Meta) : Meta :=
  match e.opk with
  | none => m
  | some o =>
    match o.omega, o.phi, o.kappa with
    | some w, some p, some k => { m with opkAngles := some (w, p, k), opkAccuracy := some (o.accuracy.getD 1) }
    | _, _, _ => m

/-- `exif_to_metadata` (reconstruction_helpers.py:127-178). -/
noncomputable def exifToMetadata (topo : ℝ → ℝ → ℝ → Vec 3) (useAltitude : Bool) (e : Exif) : Meta :=
  let m := opkMeta e (gpsMeta topo useAltitude e {})
  let m := { m with orientation := some (e.orientation.getD 1) }
  let m := { m with gravityDown := e.gravityDown }
  let m := match e.compass with
    | none => m
    | some (a, acc) => { m with compassAngle := some a, compassAccuracy := acc }
  { m with captureTime := e.captureTime, sequenceKey := e.skey }

/-- What the rotation is made of (reconstruction_helpers.py:42-81). -/
def Meta.measurements (m : Meta) : Angles.Measurements := ⟨m.gravityDown, m.orientation, m.compassAngle, m.opkAngles⟩

/-- `rig_assignments_per_image` (rig.py:39-52): instance and rig camera of each image, the last assignment of an image wins. -/
def assignmentsPerImage (assignments : Dict String (List (String × String))) : Dict String (String × String) :=
  assignments.foldl (fun d inst => inst.2.foldl (fun d s => d.set s.1 (inst.1, s.2)) d) []

/-- `RigInstance` (rig.h:43-98): pose and the rig camera of each of its shots. -/
structure Inst where
  pose : Pose ℝ
  members : Dict String String

/-- A shot of the map (shot.h): camera, rig instance, rig camera and metadata. -/
structure Shot where
  camera : String
  inst : String
  rigCamera : String
  metadata : Meta

/-- The reconstruction (map.h:190-211). -/
structure Rec where
  cameras : List String
  rigCameras : Dict String (Pose ℝ) := []
  rigInstances : Dict String Inst := []
  shots : Dict String Shot := []

/-- `add_rig_camera` (types.py:151-159) of a rig camera with the identity for a pose. -/
noncomputable def addRigCamera (r : Rec) (k : String) : Rec :=
  if r.rigCameras.has k then r else { r with rigCameras := r.rigCameras.set k Pose.identity }

/-- `add_rig_instance` (types.py:161-179) of an instance without shots, `Map::UpdateRigInstance` (map.cc:439-448): an instance of that name
is overwritten. -/
noncomputable def addRigInstance (r : Rec) (k : String) : Rec :=
  { r with rigInstances := r.rigInstances.set k ⟨Pose.identity, []⟩ }

/-- `create_shot` without a pose (types.py:182-214), `Map::CreateShot` (map.cc:191-207), `RigInstance::AddShot` (rig.cc:17-36). -/
def createShot (r : Rec) (image camera rigCamera inst : String) : Option Rec :=
  if r.shots.has image then none
  else if camera ∉ r.cameras then none
  else
    match r.rigInstances.get? inst, r.rigCameras.get? rigCamera with
    | some i, some _ =>
      if i.members.any (fun m => m.2 == rigCamera) then none
      else some { r with
        rigInstances := r.rigInstances.set inst { i with members := i.members.set image rigCamera }
        shots := r.shots.set image ⟨camera, inst, rigCamera, {}⟩ }
    | _, _ => none

/-- `shot.metadata = …` (reconstruction_helpers.py:112). -/
def setMetadata (r : Rec) (image : String) (m : Meta) : Rec :=
  match r.shots.get? image with
  | none => r
  | some s => { r with shots := r.shots.set image { s with metadata := m } }

/-- `remove_shot` (types.py:244, map.cc:209-225, rig.cc:65-72). -/
def removeShot (r : Rec) (image : String) : Option Rec :=
  match r.shots.get? image with
  | none => none
  | some s =>
    match r.rigInstances.get? s.inst with
    | none => none
    | some i =>
      if !i.members.has image then none
      else some { r with
        shots := r.shots.erase image
        rigInstances := r.rigInstances.set s.inst { i with members := i.members.erase image } }

/-- `Shot::GetPose` (shot.cc:139-144): composition of the rig camera and the instance. -/
noncomputable def shotPose (r : Rec) (image : String) : Option (Pose ℝ) :=
  match r.shots.get? image with
  | none => none
  | some s =>
    match r.rigInstances.get? s.inst, r.rigCameras.get? s.rigCamera with
    | some i, some c => some (c.compose i.pose)
    | _, _ => none

open Classical in
/-- A change of `shot.pose` (shot.cc:8-15, 146-167): of the pose of the instance for a single shot whose rig camera is the identity, of a copy
otherwise. -/
noncomputable def editPose (r : Rec) (image : String) (f : Pose ℝ → Pose ℝ) : Rec :=
  match r.shots.get? image with
  | none => r
  | some s =>
    match r.rigInstances.get? s.inst, r.rigCameras.get? s.rigCamera with
    | some i, some c =>
      if c = Pose.identity ∧ i.members.length = 1 then
        { r with rigInstances := r.rigInstances.set s.inst { i with pose := f i.pose } }
      else r
    | _, _ => r

/-- Rotation and origin (reconstruction_helpers.py:119-124). -/
noncomputable def posed (rotation : Option (Mat 3)) (origin : Vec 3) (p : Pose ℝ) : Pose ℝ :=
  match rotation with
  | none => p.setOrigin origin
  | some R => (p.setRotationMatrix R).setOrigin origin

/-- Instance and rig camera of an image (reconstruction_helpers.py:97-101). -/
def rigOf (rigs : Dict String (String × String)) (exif : String → Exif) (image : String) : String × String :=
  match rigs.get? image with
  | some p => p
  | none => (image, (exif image).camera)

/-- The body of the loop (reconstruction_helpers.py:94-125). -/
noncomputable def addImage (topo : ℝ → ℝ → ℝ → Vec 3) (useAltitude : Bool) (rigs : Dict String (String × String)) (exif : String → Exif)
    (r : Rec) (image : String) : Option Rec :=
  let rig := rigOf rigs exif image
  let m := exifToMetadata topo useAltitude (exif image)
  match createShot (addRigInstance (addRigCamera r rig.2) rig.1) image (exif image).camera rig.2 rig.1 with
  | none => none
  | some r =>
    let r := setMetadata r image m
    match m.gpsPosition with
    | none => removeShot r image
    | some g => some (editPose r image (posed (Angles.rotationFromMetadata m.measurements) g))

/-- `reconstruction_from_metadata` (reconstruction_helpers.py:84-125). -/
noncomputable def fromMetadata (topo : ℝ → ℝ → ℝ → Vec 3) (useAltitude : Bool) (assignments : Dict String (List (String × String)))
    (cameras : List String) (exif : String → Exif) (images : List String) : Option Rec :=
  images.foldlM (addImage topo useAltitude (assignmentsPerImage assignments) exif) ⟨cameras, [], [], []⟩

end Verif.MetadataRec
