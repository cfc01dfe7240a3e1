import Verif.Base.Dict
import Verif.Model.SfmMap
import Verif.Model.TracksManager
import Mathlib.Algebra.Group.Basic
import Mathlib.Geometry.Euclidean.Angle.Unoriented.Basic

/-!
# Copies of a map, shots of another map, observations of a map

`/repo/opensfm/src/map/src/map.cc` (`DeepCopy`, `UpdateShotWithRig`, `UpdateShot`,
`GetValidObservations`, `ComputeReprojectionErrors`, `ToTracksManager`), `opensfm/types.py`
(`add_shot`, `__deepcopy__`, `add_correspondences_from_tracks_manager`).

Here the map has pano shots, colours, meshes and the attributes of a shot, which `SfmMap` leaves
out. All ids are one type `Id`. `A` is the payload of an observation, `X` a position, `C` a colour,
`K` a camera, `B` a bias, `P` a pose (`Compose` is the product of a group: C39), `D` the attributes
`merge_cc`, `scale`, measurements and covariance of a shot, `M` its mesh, `R` the reference.

Simplifications: pointers are ids (a member of a rig instance is a pointer to a shot or to a pano
shot: the flag `pano` says which); following a pointer to nothing and an exception are `none`;
`std::unordered_map` is a dictionary with an arbitrary order. Rig cameras of type VARIABLE are left
out.
-/
namespace Verif.MapCopy

/-- `map::Shot` (shot.h:155-193): camera, rig, `merge_cc`, `scale`, measurements, covariance in
`attrs`, the mesh, and the two tables of observations. -/
structure FShot (Id A D M : Type) where
  camera : Id
  inst : Id
  rigCamera : Id
  attrs : D
  mesh : M
  lmObs : Dict Id (Ob A)
  lmId : Dict Int Id
  deriving DecidableEq, Repr

/-- A member of a rig instance: which table its pointer goes to and its rig camera
(rig.h:84-97). -/
structure Member (Id : Type) where
  pano : Bool
  rigCamera : Id
  deriving DecidableEq, Repr

/-- `map::RigInstance` (rig.h:84-97). -/
structure FInst (Id P : Type) where
  pose : P
  members : Dict Id (Member Id)
  deriving DecidableEq, Repr

/-- `map::Landmark` (landmark.h:40-56): position, colour, observing shots. -/
structure FLm (Id X C : Type) where
  pos : X
  color : C
  obs : Dict Id Int
  deriving DecidableEq, Repr

/-- `map::Map` (map.h:190-211). -/
structure FMap (Id A X C K B P D M R : Type) where
  cameras : Dict Id K
  bias : Dict Id B
  rigCameras : Dict Id P
  rigInstances : Dict Id (FInst Id P)
  shots : Dict Id (FShot Id A D M)
  pano : Dict Id (FShot Id A D M)
  landmarks : Dict Id (FLm Id X C)
  reference : R
  deriving DecidableEq, Repr

/-- What a constructor gives when nothing is said: the bias, colour, attributes, mesh and reference
of a new object (map.h:208, landmark.h:48, shot.h:151-153). -/
structure Defaults (B C D M R : Type) where
  bias : B
  color : C
  attrs : D
  mesh : M
  reference : R

variable {Id A X C K B P D M R : Type} [DecidableEq Id]

/-- A new map (map.h:23-24). -/
def empty (df : Defaults B C D M R) : FMap Id A X C K B P D M R :=
  ⟨[], [], [], [], [], [], [], df.reference⟩

/-- `CreateCamera` (map.cc:322-326). -/
def createCamera (df : Defaults B C D M R) (m : FMap Id A X C K B P D M R) (c : Id) (k : K) :
    FMap Id A X C K B P D M R :=
  { m with cameras := m.cameras.insertNew c k, bias := m.bias.insertNew c df.bias }

/-- `CreateRigCamera` (map.cc:407-415). -/
def createRigCamera (m : FMap Id A X C K B P D M R) (rc : Id) (p : P) :
    Option (FMap Id A X C K B P D M R) :=
  if m.rigCameras.has rc then none else some { m with rigCameras := m.rigCameras.set rc p }

/-- `CreateRigInstance` (map.cc:417-428). -/
def createInstance [One P] (m : FMap Id A X C K B P D M R) (i : Id) :
    Option (FMap Id A X C K B P D M R) :=
  if m.rigInstances.has i then none
  else some { m with rigInstances := m.rigInstances.set i ⟨1, []⟩ }

/-- The table of shots or of pano shots (map.h:203-204). -/
def table (m : FMap Id A X C K B P D M R) (pano : Bool) : Dict Id (FShot Id A D M) :=
  if pano then m.pano else m.shots

/-- Replacing one of the two tables. -/
def setTable (m : FMap Id A X C K B P D M R) (pano : Bool) (t : Dict Id (FShot Id A D M)) :
    FMap Id A X C K B P D M R :=
  if pano then { m with pano := t } else { m with shots := t }

/-- `CreateShot` and `CreatePanoShot` with a pose (map.cc:172-189, 237-254), the constructor of
`Shot` (shot.cc:18-28), `RigInstance::AddShot` (rig.cc:16-35) and
`UpdateInstancePoseWithShot` (rig.cc:37-50). -/
def createShot [Mul P] [Inv P] (df : Defaults B C D M R) (m : FMap Id A X C K B P D M R)
    (pano : Bool) (s cam rc i : Id) (pose : P) : Option (FMap Id A X C K B P D M R) :=
  if (table m pano).has s then none
  else
    match m.cameras.get? cam, m.rigInstances.get? i, m.rigCameras.get? rc with
    | some _, some inst, some rp =>
      if inst.members.any (fun e => decide (e.2.rigCamera = rc)) then none
      else
        let insts := m.rigInstances.set i ⟨rp⁻¹ * pose, inst.members.set s ⟨pano, rc⟩⟩
        some (setTable { m with rigInstances := insts } pano
          ((table m pano).set s ⟨cam, i, rc, df.attrs, df.mesh, [], []⟩))
    | _, _, _ => none

/-- `AssignShot` (map.cc:12-18): `merge_cc`, `scale`, measurements and covariance; not the mesh. -/
def assignShot (m : FMap Id A X C K B P D M R) (pano : Bool) (s : Id) (attrs : D) :
    Option (FMap Id A X C K B P D M R) :=
  match (table m pano).get? s with
  | none => none
  | some sh => some (setTable m pano ((table m pano).set s { sh with attrs := attrs }))

/-- `RigInstance::UpdateInstancePoseWithShot` (rig.cc:37-50) of instance `i`. -/
def updateInstancePose [Mul P] [Inv P] (m : FMap Id A X C K B P D M R) (i s : Id) (pose : P) :
    Option (FMap Id A X C K B P D M R) :=
  match m.rigInstances.get? i with
  | none => none
  | some inst =>
    match inst.members.get? s with
    | none => none
    | some e =>
      match m.rigCameras.get? e.rigCamera with
      | none => none
      | some rp =>
        some { m with rigInstances := m.rigInstances.set i { inst with pose := rp⁻¹ * pose } }

/-- `Shot::GetPose` of a shot (shot.cc:146-159). -/
def poseOf [Mul P] (m : FMap Id A X C K B P D M R) (sh : FShot Id A D M) : Option P :=
  match m.rigInstances.get? sh.inst, m.rigCameras.get? sh.rigCamera with
  | some inst, some rp => some (rp * inst.pose)
  | _, _ => none

/-- `if (!HasCamera(camera_id)) CreateCamera(*camera)` (map.cc:352-356). -/
def needCamera (df : Defaults B C D M R) (m : FMap Id A X C K B P D M R) (c : Id) (k : K) :
    FMap Id A X C K B P D M R :=
  if m.cameras.has c then m else createCamera df m c k

/-- `if (!HasRigCamera(rig_camera_id)) CreateRigCamera(*rig_camera)` (map.cc:358-362). -/
def needRigCamera (m : FMap Id A X C K B P D M R) (rc : Id) (p : P) :
    Option (FMap Id A X C K B P D M R) :=
  if m.rigCameras.has rc then some m else createRigCamera m rc p

/-- `if (!has_instance) CreateRigInstance(instance_id)` (map.cc:347-350). -/
def needInstance [One P] (m : FMap Id A X C K B P D M R) (i : Id) :
    Option (FMap Id A X C K B P D M R) :=
  if m.rigInstances.has i then some m else createInstance m i

/-- `if (!has_shot) { ... }` (map.cc:364-375). -/
def needShot [Mul P] [Inv P] (df : Defaults B C D M R) (m : FMap Id A X C K B P D M R)
    (pano : Bool) (s i : Id) (sh : FShot Id A D M) (pose : P) :
    Option (FMap Id A X C K B P D M R) :=
  if (table m pano).has s then some m
  else (createShot df m pano s sh.camera sh.rigCamera i pose).bind fun m' =>
    assignShot m' pano s sh.attrs

/-- One turn of the loop over the shots of the rig instance (map.cc:351-376): `src` is the map of
the other shot. -/
def copyMember [Mul P] [Inv P] (df : Defaults B C D M R) (src : FMap Id A X C K B P D M R)
    (pano : Bool) (i : Id) (m : FMap Id A X C K B P D M R) (e : Id × Member Id) :
    Option (FMap Id A X C K B P D M R) :=
  match (table src e.2.pano).get? e.1 with
  | none => none
  | some sh =>
    match src.cameras.get? sh.camera, src.rigCameras.get? sh.rigCamera, poseOf src sh with
    | some k, some rp, some pose =>
      (needRigCamera (needCamera df m sh.camera k) sh.rigCamera rp).bind fun m' =>
        needShot df m' pano e.1 i sh pose
    | _, _, _ => none

/-- `UpdateShotWithRig` (map.cc:344-379). -/
def updateShotWithRig [Group P] (df : Defaults B C D M R) (src m : FMap Id A X C K B P D M R)
    (pano : Bool) (s : Id) (sh : FShot Id A D M) : Option (FMap Id A X C K B P D M R) :=
  match src.rigInstances.get? sh.inst, poseOf src sh with
  | some inst, some pose =>
    (needInstance m sh.inst).bind fun m1 =>
      (inst.members.foldlM (copyMember df src pano sh.inst) m1).bind fun m2 =>
        updateInstancePose m2 sh.inst s pose
  | _, _ => none

/-- One turn of the loops over shots and pano shots of `DeepCopy` (map.cc:31-45). -/
def copyShot [Group P] (df : Defaults B C D M R) (src : FMap Id A X C K B P D M R) (pano : Bool)
    (m : FMap Id A X C K B P D M R) (e : Id × FShot Id A D M) :
    Option (FMap Id A X C K B P D M R) :=
  if (table m pano).has e.1 then some m else updateShotWithRig df src m pano e.1 e.2

/-- `CreateLandmark` with the position of another landmark (map.cc:47-49, 282-294). -/
def copyLandmark (df : Defaults B C D M R) (m : FMap Id A X C K B P D M R)
    (e : Id × FLm Id X C) : Option (FMap Id A X C K B P D M R) :=
  if m.landmarks.has e.1 then none
  else some { m with landmarks := m.landmarks.set e.1 ⟨e.2.pos, df.color, []⟩ }

/-- `AddObservation` (map.cc:65-76): existing entries stay. -/
def addObservation (m : FMap Id A X C K B P D M R) (s l : Id) (o : Ob A) :
    Option (FMap Id A X C K B P D M R) :=
  match m.shots.get? s, m.landmarks.get? l with
  | some sh, some lm =>
    some { m with
      shots := m.shots.set s
        { sh with lmObs := sh.lmObs.insertNew l o, lmId := sh.lmId.insertNew o.feat l }
      landmarks := m.landmarks.set l { lm with obs := lm.obs.insertNew s o.feat } }
  | _, _ => none

/-- The observations of one shot of the loop of `DeepCopy` (map.cc:52-56). -/
def copyObs (s : Id) (m : FMap Id A X C K B P D M R) (e : Id × Ob A) :
    Option (FMap Id A X C K B P D M R) :=
  addObservation m s e.1 e.2

/-- One shot of that loop. -/
def copyShotObs (m : FMap Id A X C K B P D M R) (e : Id × FShot Id A D M) :
    Option (FMap Id A X C K B P D M R) :=
  e.2.lmObs.foldlM (copyObs e.1) m

/-- `SetBias` (map.cc:494-501) of the last loop of `DeepCopy` (map.cc:59-61). -/
def copyBias (m : FMap Id A X C K B P D M R) (e : Id × B) : Option (FMap Id A X C K B P D M R) :=
  if m.bias.has e.1 then some { m with bias := m.bias.set e.1 e.2 } else none

/-- `DeepCopy` (map.cc:22-63). -/
def deepCopy [Group P] (df : Defaults B C D M R) (src : FMap Id A X C K B P D M R)
    (copyObservations : Bool) : Option (FMap Id A X C K B P D M R) :=
  let m0 : FMap Id A X C K B P D M R := { empty df with reference := src.reference }
  let m1 := src.cameras.foldl (fun m e => createCamera df m e.1 e.2) m0
  (src.shots.foldlM (copyShot df src false) m1).bind fun m2 =>
  (src.pano.foldlM (copyShot df src true) m2).bind fun m3 =>
  (src.landmarks.foldlM (copyLandmark df) m3).bind fun m4 =>
  (if copyObservations then src.shots.foldlM copyShotObs m4 else some m4).bind fun m5 =>
  src.bias.foldlM copyBias m5

/-- `Reconstruction.__deepcopy__` (types.py:331-342): the observations are copied only when the memo
dictionary has the key `"copy_observations"`; `copy.deepcopy(r)` passes an empty one. -/
def pyDeepCopy [Group P] (df : Defaults B C D M R) (memo : Dict String Bool)
    (src : FMap Id A X C K B P D M R) : Option (FMap Id A X C K B P D M R) :=
  deepCopy df src ((memo.get? "copy_observations").getD false)

/-- `Reconstruction.add_shot` (types.py:217-240) and `UpdateShot` (map.cc:381-391): `sh` is the shot
`s` of `src`. -/
def addShot [Group P] (df : Defaults B C D M R) (src m : FMap Id A X C K B P D M R) (s : Id)
    (sh : FShot Id A D M) : Option (FMap Id A X C K B P D M R) :=
  match src.cameras.get? sh.camera, src.rigCameras.get? sh.rigCamera, poseOf src sh with
  | some k, some rp, some pose =>
    (needInstance (needCamera df m sh.camera k) sh.inst).bind fun m1 =>
    (needRigCamera m1 sh.rigCamera rp).bind fun m2 =>
    (if m2.shots.has s then some m2
      else createShot df m2 false s sh.camera sh.rigCamera sh.inst pose).bind fun m3 =>
    (updateShotWithRig df src m3 false s sh).bind fun m4 =>
    assignShot m4 false s sh.attrs
  | _, _, _ => none

/-! ### Observations -/

/-- Inner loop of `ToTracksManager` (map.cc:569-571, 574-576). -/
def trackShot (tm : TM Id Id (Ob A)) (e : Id × FShot Id A D M) : TM Id Id (Ob A) :=
  e.2.lmObs.foldl (fun acc q => acc.addObservation e.1 q.1 q.2) tm

/-- `ToTracksManager` (map.cc:566-579). -/
def toTracksManager (m : FMap Id A X C K B P D M R) : TM Id Id (Ob A) :=
  m.pano.foldl trackShot (m.shots.foldl trackShot TM.empty)

/-- The entries of one shot whose track is a landmark (map.cc:554-561, 515-519). -/
def validOf (m : FMap Id A X C K B P D M R) (obs : Dict Id (Ob A)) : Dict Id (Ob A) :=
  obs.foldl (fun acc q => if m.landmarks.has q.1 then acc.set q.1 q.2 else acc) []

/-- `GetValidObservations` (map.cc:545-564). -/
def validObservations (m : FMap Id A X C K B P D M R) (tm : TM Id Id (Ob A)) :
    Dict Id (Dict Id (Ob A)) :=
  tm.perShot.foldl (fun acc e => if m.shots.has e.1 then acc.set e.1 (validOf m e.2) else acc) []

/-- The errors of one shot (map.cc:513-541): `err` is the error of an observation of a landmark by a
shot, of the kind asked for. -/
def errorsOf {E : Type} (err : FShot Id A D M → FLm Id X C → Ob A → E)
    (m : FMap Id A X C K B P D M R) (sh : FShot Id A D M) (obs : Dict Id (Ob A)) : Dict Id E :=
  obs.foldl (fun acc q =>
    match m.landmarks.get? q.1 with
    | none => acc
    | some lm => acc.set q.1 (err sh lm q.2)) []

/-- `ComputeReprojectionErrors` (map.cc:503-543). -/
def reprojectionErrors {E : Type} (err : FShot Id A D M → FLm Id X C → Ob A → E)
    (m : FMap Id A X C K B P D M R) (tm : TM Id Id (Ob A)) : Dict Id (Dict Id E) :=
  tm.perShot.foldl (fun acc e =>
    match m.shots.get? e.1 with
    | none => acc
    | some sh => acc.set e.1 (errorsOf err m sh e.2)) []

/-- `Map::ErrorType` (map.h:145). -/
inductive ErrorType where
  | pixel
  | normalized
  | angular
  deriving DecidableEq, Repr

/-- `v.normalized()` of Eigen. -/
noncomputable def normalized {V : Type} [NormedAddCommGroup V] [InnerProductSpace ℝ V] (v : V) : V :=
  (‖v‖)⁻¹ • v

/-- The error of one observation (map.cc:521-539): `point` and `scale` are of the observation,
`projection` is where the shot sees the landmark, `position` the landmark, `origin` of the shot,
`bearing` the direction the shot gives to `point`. `V` is the space of three dimensions. -/
noncomputable def errorOf {V : Type} [NormedAddCommGroup V] [InnerProductSpace ℝ V]
    (kind : ErrorType) (point projection : ℝ × ℝ) (scale : ℝ) (position origin bearing : V) : ℝ × ℝ :=
  match kind with
  | .pixel => point - projection
  | .normalized => scale⁻¹ • (point - projection)
  | .angular =>
    let angle := Real.arccos (inner ℝ (normalized (position - origin)) (normalized bearing))
    (angle, angle)

/-- One shot of a track (types.py:352-355). -/
def addCorrespondence (tm : TM Id Id (Ob A)) (t : Id) (m : FMap Id A X C K B P D M R) (s : Id) :
    Option (FMap Id A X C K B P D M R) :=
  if m.shots.has s then
    match tm.getObservation s t with
    | .error _ => none
    | .ok o => addObservation m s t o
  else some m

/-- One track (types.py:347-355). -/
def addTrack (tm : TM Id Id (Ob A)) (m : FMap Id A X C K B P D M R) (e : Id × Dict Id (Ob A)) :
    Option (FMap Id A X C K B P D M R) :=
  if m.landmarks.has e.1 then e.2.keys.foldlM (addCorrespondence tm e.1) m else some m

/-- `add_correspondences_from_tracks_manager` (types.py:344-355). -/
def addCorrespondences (tm : TM Id Id (Ob A)) (m : FMap Id A X C K B P D M R) :
    Option (FMap Id A X C K B P D M R) :=
  tm.perTrack.foldlM (addTrack tm) m

end Verif.MapCopy
