import Verif.Base.Dict
import Mathlib.Algebra.Group.Defs

/-!
# The reconstruction map

`/repo/opensfm/src/map/src/map.cc`, `shot.cc`, `landmark.cc`, `rig.cc` and `shot.h`.

All ids (`ShotId`, `LandmarkId`, `CameraId`, `RigCameraId`, `RigInstanceId`) are `std::string` in
the code (defines.h) and one type `Id` here; feature ids are integers. `A` is the payload of an
observation, `X` of a landmark (its position), `K` of a camera, `B` of a bias. `P` is the type of
poses; `Compose` is the group product and `Inverse` the group inverse (that rigid poses form a
group is proved in `Props/Pose`).

Simplifications: pointers are replaced by the id of the object they point to (`Shot*` and
`Landmark*` keys are compared by id in the code, `KeyCompare`, defines.h); following a pointer to
an object that no longer exists is the error `undefined`. The two maps of a rig instance with the
same keys (`shots_`, `shots_rig_cameras_`) are one dictionary shot -> rig camera. Pano shots, rig
cameras of type VARIABLE ("never used/tested", rig.cc:26) and copying a whole rig instance from
another map (`UpdateRigInstance`) are not modelled.
-/
namespace Verif

/-- An observation: feature id and payload (observation.h:20-56). -/
structure Ob (A : Type) where
  feat : Int
  data : A
  deriving DecidableEq, Repr

/-- The exceptions of the map; `undefined` stands for following a dangling pointer. -/
inductive MErr where
  | exists_
  | unknownShot
  | unknownLandmark
  | unknownCamera
  | unknownRigCamera
  | unknownRigInstance
  | rigCameraTaken
  | notObserved
  | unknownFeature
  | poseOfRig
  | undefined
  deriving DecidableEq, Repr

/-- The parts of `map::Shot` used by the map (shot.h:155-193). -/
structure ShotSt (Id A : Type) where
  camera : Id
  rigInstance : Id
  rigCamera : Id
  /-- `landmark_observations_` -/
  lmObs : Dict Id (Ob A)
  /-- `landmark_id_`: feature id to landmark -/
  lmId : Dict Int Id
  deriving DecidableEq, Repr

/-- `map::Landmark` (landmark.h:49-56); reprojection errors are not modelled. -/
structure LmSt (Id X : Type) where
  pos : X
  obs : Dict Id Int
  deriving DecidableEq, Repr

/-- `map::RigInstance` (rig.h:84-97). -/
structure InstSt (Id P : Type) where
  pose : P
  shots : Dict Id Id
  deriving DecidableEq, Repr

/-- `map::Map`. -/
structure SMap (Id A X K B P : Type) where
  cameras : Dict Id K
  bias : Dict Id B
  shots : Dict Id (ShotSt Id A)
  landmarks : Dict Id (LmSt Id X)
  rigCameras : Dict Id P
  rigInstances : Dict Id (InstSt Id P)
  deriving DecidableEq, Repr

variable {Id A X K B P : Type} [DecidableEq Id]

/-- `Shot::RemoveLandmarkObservation` (shot.cc:125-134); `none` is the exception. -/
def ShotSt.removeFeature (st : ShotSt Id A) (f : Int) : Option (ShotSt Id A) :=
  match st.lmId.get? f with
  | none => none
  | some l => some { st with lmId := st.lmId.erase f, lmObs := st.lmObs.erase l }

/-- `Shot::CreateObservation` (shot.h:122-125): `insert` keeps existing entries. -/
def ShotSt.createObservation (st : ShotSt Id A) (l : Id) (o : Ob A) : ShotSt Id A :=
  { st with lmObs := st.lmObs.insertNew l o, lmId := st.lmId.insertNew o.feat l }

namespace SMap

/-- A new map. -/
def empty : SMap Id A X K B P := ⟨[], [], [], [], [], []⟩

/-- `CreateCamera` (map.cc:322-326): keeps an existing camera; `b0` is the identity similarity. -/
def createCamera (b0 : B) (m : SMap Id A X K B P) (c : Id) (k : K) : SMap Id A X K B P :=
  { m with cameras := m.cameras.insertNew c k, bias := m.bias.insertNew c b0 }

/-- `SetBias` (map.cc:494-501). -/
def setBias (m : SMap Id A X K B P) (c : Id) (b : B) : SMap Id A X K B P × Option MErr :=
  match m.bias.get? c with
  | none => (m, some .unknownCamera)
  | some _ => ({ m with bias := m.bias.set c b }, none)

/-- `CreateRigCamera` (map.cc:407-415). -/
def createRigCamera (m : SMap Id A X K B P) (rc : Id) (p : P) : SMap Id A X K B P × Option MErr :=
  match m.rigCameras.get? rc with
  | some _ => (m, some .exists_)
  | none => ({ m with rigCameras := m.rigCameras.set rc p }, none)

/-- `CreateRigInstance` (map.cc:417-428); the default pose is the identity. -/
def createRigInstance [One P] (m : SMap Id A X K B P) (i : Id) : SMap Id A X K B P × Option MErr :=
  match m.rigInstances.get? i with
  | some _ => (m, some .exists_)
  | none => ({ m with rigInstances := m.rigInstances.set i ⟨1, []⟩ }, none)

/-- `RemoveRigInstance` (map.cc:430-437): does not look at the shots of the instance. -/
def removeRigInstance (m : SMap Id A X K B P) (i : Id) : SMap Id A X K B P × Option MErr :=
  match m.rigInstances.get? i with
  | none => (m, some .unknownRigInstance)
  | some _ => ({ m with rigInstances := m.rigInstances.erase i }, none)

/-- Pose of an instance after a shot joined it: recomputed from the shot's pose
(rig.cc:44-49), or untouched by the constructor without pose (shot.cc:30-38). -/
def joinPose [Mul P] [Inv P] (rp old : P) : Option P → P
  | some p => rp⁻¹ * p
  | none => old

/-- `CreateShot` (map.cc:172-207) with the constructors of `Shot` (shot.cc:18-38) and
`RigInstance::AddShot` / `UpdateInstancePoseWithShot` (rig.cc:16-50). `pose = none` is the overload
without pose, which leaves the instance pose alone. -/
def createShot [Mul P] [Inv P] (m : SMap Id A X K B P) (s c rc i : Id) (pose : Option P) :
    SMap Id A X K B P × Option MErr :=
  match m.shots.get? s with
  | some _ => (m, some .exists_)
  | none =>
    match m.cameras.get? c with
    | none => (m, some .unknownCamera)
    | some _ =>
      match m.rigInstances.get? i with
      | none => (m, some .unknownRigInstance)
      | some inst =>
        match m.rigCameras.get? rc with
        | none => (m, some .unknownRigCamera)
        | some rp =>
          if rc ∈ inst.shots.vals then (m, some .rigCameraTaken)
          else
            ({ m with
                shots := m.shots.set s ⟨c, i, rc, [], []⟩
                rigInstances := m.rigInstances.set i ⟨joinPose rp inst.pose pose, inst.shots.set s rc⟩ }, none)

/-- The loop of `RemoveShot` over the landmarks of the shot (map.cc:216-219),
`Landmark::RemoveObservation` (landmark.cc:14-18). -/
def detachShot (s : Id) : Dict Id (LmSt Id X) → List Id → Dict Id (LmSt Id X) × Option MErr
  | lms, [] => (lms, none)
  | lms, l :: ls =>
    match lms.get? l with
    | none => (lms, some .undefined)
    | some lm => detachShot s (lms.set l { lm with obs := lm.obs.erase s }) ls

/-- `RemoveShot` (map.cc:209-225), `RigInstance::RemoveShot` (rig.cc:65-72). -/
def removeShot (m : SMap Id A X K B P) (s : Id) : SMap Id A X K B P × Option MErr :=
  match m.shots.get? s with
  | none => (m, some .unknownShot)
  | some st =>
    match m.rigInstances.get? st.rigInstance with
    | none => (m, some .undefined)
    | some inst =>
      match inst.shots.get? s with
      | none => (m, some .unknownShot)
      | some _ =>
        let insts := m.rigInstances.set st.rigInstance { inst with shots := inst.shots.erase s }
        match detachShot s m.landmarks st.lmObs.keys with
        | (lms, some e) => ({ m with rigInstances := insts, landmarks := lms }, some e)
        | (lms, none) =>
          ({ m with rigInstances := insts, landmarks := lms, shots := m.shots.erase s }, none)

/-- `CreateLandmark` (map.cc:282-293). -/
def createLandmark (m : SMap Id A X K B P) (l : Id) (x : X) : SMap Id A X K B P × Option MErr :=
  match m.landmarks.get? l with
  | some _ => (m, some .exists_)
  | none => ({ m with landmarks := m.landmarks.set l ⟨x, []⟩ }, none)

/-- The loop over the observations of a landmark that removes them from the shots
(map.cc:310-313, 135-137, 150-152). An exception leaves the earlier removals done. -/
def detachLandmark : Dict Id (ShotSt Id A) → List (Id × Int) →
    Dict Id (ShotSt Id A) × Option MErr
  | shots, [] => (shots, none)
  | shots, (s, f) :: r =>
    match shots.get? s with
    | none => (shots, some .undefined)
    | some st =>
      match st.removeFeature f with
      | none => (shots, some .unknownFeature)
      | some st' => detachLandmark (shots.set s st') r

/-- `RemoveLandmark` (map.cc:303-320). -/
def removeLandmark (m : SMap Id A X K B P) (l : Id) : SMap Id A X K B P × Option MErr :=
  match m.landmarks.get? l with
  | none => (m, some .unknownLandmark)
  | some lm =>
    match detachLandmark m.shots lm.obs with
    | (sh, some e) => ({ m with shots := sh }, some e)
    | (sh, none) => ({ m with shots := sh, landmarks := m.landmarks.erase l }, none)

/-- `AddObservation` (map.cc:65-76): `emplace` keeps an existing entry. -/
def addObservation (m : SMap Id A X K B P) (s l : Id) (o : Ob A) :
    SMap Id A X K B P × Option MErr :=
  match m.shots.get? s with
  | none => (m, some .unknownShot)
  | some st =>
    match m.landmarks.get? l with
    | none => (m, some .unknownLandmark)
    | some lm =>
      ({ m with
          landmarks := m.landmarks.set l { lm with obs := lm.obs.insertNew s o.feat }
          shots := m.shots.set s (st.createObservation l o) }, none)

/-- `RemoveObservation` (map.cc:78-83), `GetObservationIdInShot` (landmark.cc:20-26). -/
def removeObservation (m : SMap Id A X K B P) (s l : Id) : SMap Id A X K B P × Option MErr :=
  match m.shots.get? s with
  | none => (m, some .unknownShot)
  | some st =>
    match m.landmarks.get? l with
    | none => (m, some .unknownLandmark)
    | some lm =>
      match lm.obs.get? s with
      | none => (m, some .notObserved)
      | some f =>
        match st.removeFeature f with
        | none => (m, some .unknownFeature)
        | some st' =>
          ({ m with
              shots := m.shots.set s st'
              landmarks := m.landmarks.set l { lm with obs := lm.obs.erase s } }, none)

/-- The loop of `CleanLandmarksBelowMinObservations` (map.cc:144-159). -/
def cleanLoop (n : Nat) : SMap Id A X K B P → List (Id × LmSt Id X) →
    SMap Id A X K B P × Option MErr
  | m, [] => (m, none)
  | m, (l, lm) :: r =>
    if lm.obs.length < n then
      match detachLandmark m.shots lm.obs with
      | (sh, some e) => ({ m with shots := sh }, some e)
      | (sh, none) => cleanLoop n { m with shots := sh, landmarks := m.landmarks.erase l } r
    else cleanLoop n m r

/-- `CleanLandmarksBelowMinObservations` (map.cc:144-159). -/
def cleanBelow (m : SMap Id A X K B P) (n : Nat) : SMap Id A X K B P × Option MErr :=
  cleanLoop n m m.landmarks

/-- First loop of `ClearObservationsAndLandmarks` (map.cc:133-139). -/
def clearLoop : SMap Id A X K B P → List (Id × LmSt Id X) → SMap Id A X K B P × Option MErr
  | m, [] => (m, none)
  | m, (l, lm) :: r =>
    match detachLandmark m.shots lm.obs with
    | (sh, some e) => ({ m with shots := sh }, some e)
    | (sh, none) =>
      clearLoop { m with shots := sh, landmarks := m.landmarks.set l { lm with obs := [] } } r

/-- `ClearObservationsAndLandmarks` (map.cc:131-142). -/
def clear (m : SMap Id A X K B P) : SMap Id A X K B P × Option MErr :=
  match clearLoop m m.landmarks with
  | (m', some e) => (m', some e)
  | (m', none) => ({ m' with landmarks := [] }, none)

/-- `Shot::GetPose` (shot.cc:146-159): rig camera pose composed with the instance pose. -/
def shotPose [Mul P] (m : SMap Id A X K B P) (s : Id) : Except MErr P :=
  match m.shots.get? s with
  | none => .error .unknownShot
  | some st =>
    match m.rigInstances.get? st.rigInstance, m.rigCameras.get? st.rigCamera with
    | some inst, some rp => .ok (rp * inst.pose)
    | _, _ => .error .undefined

/-- `RigInstance::UpdateInstancePoseWithShot` on instance `i` (rig.cc:37-50). -/
def updateInstancePoseWithShot [Mul P] [Inv P] (m : SMap Id A X K B P) (i s : Id) (p : P) :
    SMap Id A X K B P × Option MErr :=
  match m.rigInstances.get? i with
  | none => (m, some .unknownRigInstance)
  | some inst =>
    match inst.shots.get? s with
    | none => (m, some .unknownShot)
    | some rc =>
      match m.rigCameras.get? rc with
      | none => (m, some .undefined)
      | some rp => ({ m with rigInstances := m.rigInstances.set i { inst with pose := rp⁻¹ * p } },
          none)

/-- `Shot::SetPose` (shot.cc:136-144): only for a shot alone in its instance with an identity rig
camera. Simplification: `IsIdentity` (pose.h:169-172) has a tolerance of 1e-15. -/
def setShotPose [One P] [DecidableEq P] (m : SMap Id A X K B P) (s : Id) (p : P) :
    SMap Id A X K B P × Option MErr :=
  match m.shots.get? s with
  | none => (m, some .unknownShot)
  | some st =>
    match m.rigInstances.get? st.rigInstance, m.rigCameras.get? st.rigCamera with
    | some inst, some rp =>
      if rp = 1 ∧ inst.shots.length = 1 then
        ({ m with rigInstances := m.rigInstances.set st.rigInstance { inst with pose := p } }, none)
      else (m, some .poseOfRig)
    | _, _ => (m, some .undefined)

/-- A call on the map. -/
inductive Op (Id A X K B P : Type) where
  | createCamera (c : Id) (k : K)
  | setBias (c : Id) (b : B)
  | createRigCamera (rc : Id) (p : P)
  | createRigInstance (i : Id)
  | removeRigInstance (i : Id)
  | createShot (s c rc i : Id) (p : Option P)
  | removeShot (s : Id)
  | createLandmark (l : Id) (x : X)
  | removeLandmark (l : Id)
  | addObservation (s l : Id) (o : Ob A)
  | removeObservation (s l : Id)
  | cleanBelow (n : Nat)
  | clear
  | updateInstancePose (i s : Id) (p : P)
  | setShotPose (s : Id) (p : P)

/-- One call: the new state and the exception, if any. -/
def step [Group P] [DecidableEq P] (b0 : B) (m : SMap Id A X K B P) :
    Op Id A X K B P → SMap Id A X K B P × Option MErr
  | .createCamera c k => (m.createCamera b0 c k, none)
  | .setBias c b => m.setBias c b
  | .createRigCamera rc p => m.createRigCamera rc p
  | .createRigInstance i => m.createRigInstance i
  | .removeRigInstance i => m.removeRigInstance i
  | .createShot s c rc i p => m.createShot s c rc i p
  | .removeShot s => m.removeShot s
  | .createLandmark l x => m.createLandmark l x
  | .removeLandmark l => m.removeLandmark l
  | .addObservation s l o => m.addObservation s l o
  | .removeObservation s l => m.removeObservation s l
  | .cleanBelow n => m.cleanBelow n
  | .clear => m.clear
  | .updateInstancePose i s p => m.updateInstancePoseWithShot i s p
  | .setShotPose s p => m.setShotPose s p

/-- The state after a history of calls (a raised exception does not end the history). -/
def run [Group P] [DecidableEq P] (b0 : B) (ops : List (Op Id A X K B P)) : SMap Id A X K B P :=
  ops.foldl (fun m op => (m.step b0 op).1) empty

/-! Queries of the map, as seen by a user. -/

/-- `shot.get_landmark_observation(landmark)` (shot.h:126-128). -/
def shotObservation (m : SMap Id A X K B P) (s l : Id) : Option (Ob A) :=
  (m.shots.get? s).bind (·.lmObs.get? l)

/-- `landmark.get_observations()[shot]` (landmark.cc:31-34). -/
def landmarkObservation (m : SMap Id A X K B P) (l s : Id) : Option Int :=
  (m.landmarks.get? l).bind (·.obs.get? s)

/-- `shot.get_observation_landmark(feature)` (shot.h:129-136). -/
def featureLandmark (m : SMap Id A X K B P) (s : Id) (f : Int) : Option Id :=
  (m.shots.get? s).bind (·.lmId.get? f)

/-- `instance.rig_camera_ids[shot]` (rig.h:56-60). -/
def instanceShot (m : SMap Id A X K B P) (i s : Id) : Option Id :=
  (m.rigInstances.get? i).bind (·.shots.get? s)

end SMap
end Verif
