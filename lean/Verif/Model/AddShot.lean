import Verif.Model.MapCopy

/-!
Model of how an image enters a reconstruction: `add_shot` and the start of
`reconstruction_from_relative_pose` (/repo/opensfm/reconstruction.py:247-285, 563-597),
`rig_assignments_per_image` with its third entry (/repo/opensfm/rig.py:39-52) and `create_shot`,
`add_rig_camera`, `add_rig_instance` of `Reconstruction` (/repo/opensfm/types.py:151-214), on top of the C++
map of `Verif.MapCopy`.

Simplifications: poses are a group; an exception is `none`; names are not empty (an empty name would count as
no name in types.py:190-191); the metadata of an image (`helpers.get_image_metadata`) and the camera named by
its EXIF are parameters, the latter may be missing. The rig cameras are of type FIXED.
-/
namespace Verif.AddShot
open Verif.MapCopy

variable {Id A X C K B P D M R : Type} [DecidableEq Id]

/-- `rig_assignments_per_image` (rig.py:39-52): for each image its instance, its rig camera and all the images
of the instance. -/
def assignmentsPerImage (assignments : Dict Id (List (Id × Id))) : Dict Id (Id × Id × List Id) :=
  assignments.foldl
    (fun d inst => inst.2.foldl (fun d s => Dict.set d s.1 (inst.1, s.2, inst.2.map (·.1))) d) []

/-- `add_rig_camera` (types.py:151-159) of a rig camera at the identity. -/
def addRigCamera [One P] (m : FMap Id A X C K B P D M R) (rc : Id) : FMap Id A X C K B P D M R :=
  if m.rigCameras.has rc then m else { m with rigCameras := m.rigCameras.set rc 1 }

/-- `add_rig_instance` (types.py:161-179) of an instance without shots and `UpdateRigInstance`
(map.cc:439-448): one of that name is overwritten. -/
def addRigInstance [One P] (m : FMap Id A X C K B P D M R) (i : Id) : FMap Id A X C K B P D M R :=
  { m with rigInstances := m.rigInstances.set i ⟨1, []⟩ }

/-- The rig camera made when none is named (types.py:193-194). -/
def defaultRigCamera [One P] (m : FMap Id A X C K B P D M R) (cam : Id) (rc : Option Id) :
    FMap Id A X C K B P D M R :=
  match rc with
  | none => if m.rigCameras.has cam then m else addRigCamera m cam
  | some _ => m

/-- The instance made when none is named (types.py:200-201). -/
def defaultInstance [One P] (m : FMap Id A X C K B P D M R) (s : Id) (inst : Option Id) :
    FMap Id A X C K B P D M R :=
  match inst with
  | none => if m.rigInstances.has s then m else addRigInstance m s
  | some _ => m

/-- `Reconstruction.create_shot` with a pose (types.py:182-214). -/
def createShot [Group P] (df : Defaults B C D M R) (m : FMap Id A X C K B P D M R) (s cam : Id) (pose : P)
    (rc inst : Option Id) : Option (FMap Id A X C K B P D M R) :=
  let m1 := defaultRigCamera m cam rc
  if m1.rigCameras.has (rc.getD cam) then
    let m2 := defaultInstance m1 s inst
    if m2.rigInstances.has (inst.getD s) then
      MapCopy.createShot df m2 false s cam (rc.getD cam) (inst.getD s) pose
    else none
  else none

/-- One image of the rig instance (reconstruction.py:270-280): created at the identity, then given its
metadata. -/
def addMember [Group P] (df : Defaults B C D M R) (exifCamera : Id → Option Id) (metaOf : Id → D)
    (asg : Dict Id (Id × Id × List Id)) (i : Id) (m : FMap Id A X C K B P D M R) (t : Id) :
    Option (FMap Id A X C K B P D M R) :=
  match asg.get? t, exifCamera t with
  | some a, some cam =>
    match createShot df m t cam 1 (some a.2.1) (some i) with
    | some m' => assignShot m' false t (metaOf t)
    | none => none
  | _, _ => none

/-- An image without rig (reconstruction.py:262-266). -/
def addSingle [Group P] (df : Defaults B C D M R) (exifCamera : Id → Option Id) (metaOf : Id → D)
    (m : FMap Id A X C K B P D M R) (s : Id) (pose : P) :
    Option (FMap Id A X C K B P D M R × List Id) :=
  match exifCamera s with
  | none => none
  | some cam =>
    match createShot df m s cam pose none none with
    | none => none
    | some m' => (assignShot m' false s (metaOf s)).map (fun m'' => (m'', [s]))

/-- An image of a rig instance (reconstruction.py:268-283). -/
def addRig [Group P] (df : Defaults B C D M R) (exifCamera : Id → Option Id) (metaOf : Id → D)
    (asg : Dict Id (Id × Id × List Id)) (m : FMap Id A X C K B P D M R) (s : Id) (pose : P) (i : Id)
    (members : List Id) : Option (FMap Id A X C K B P D M R × List Id) :=
  match members.foldlM (addMember df exifCamera metaOf asg i) (addRigInstance m i) with
  | none => none
  | some m' => (updateInstancePose m' i s pose).map (fun m'' => (m'', members))

/-- `add_shot` (reconstruction.py:247-285): the reconstruction afterwards and the images added. -/
def addShot [Group P] (df : Defaults B C D M R) (exifCamera : Id → Option Id) (metaOf : Id → D)
    (asg : Dict Id (Id × Id × List Id)) (m : FMap Id A X C K B P D M R) (s : Id) (pose : P) :
    Option (FMap Id A X C K B P D M R × List Id) :=
  match asg.get? s with
  | none => addSingle df exifCamera metaOf m s pose
  | some a => addRig df exifCamera metaOf asg m s pose a.1 a.2.2

/-- The two first images (reconstruction.py:583-595). -/
def addPair [Group P] (df : Defaults B C D M R) (exifCamera : Id → Option Id) (metaOf : Id → D)
    (asg : Dict Id (Id × Id × List Id)) (m : FMap Id A X C K B P D M R) (im1 im2 : Id) (pose : P) :
    Option (FMap Id A X C K B P D M R × List Id) :=
  match addShot df exifCamera metaOf asg m im1 1 with
  | none => none
  | some r =>
    if im2 ∈ r.2 then some r
    else (addShot df exifCamera metaOf asg r.1 im2 pose).map (fun q => (q.1, r.2 ++ q.2))

end Verif.AddShot
