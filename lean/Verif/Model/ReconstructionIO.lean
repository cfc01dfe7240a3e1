import Verif.Model.CameraIO

/-!
# Model of the JSON form of shots, points, rigs and reconstructions

`opensfm/io.py` (the `*_to_json` and `*_from_json` functions), the parts of `opensfm/types.py` and
of `opensfm/src/map/src/map.cc`, `rig.cc`, `shot.cc` that reading a reconstruction uses.

Simplifications: numbers are exact rationals; a pose is an element of an arbitrary group `P`
(`Compose` is the product, `Inverse` the inverse: proved for the matrices of `Pose` by `C39_group`)
together with its rotation vector and translation, given by a `Codec`; observations and
reprojection errors (never written) are left out; `std::unordered_map` is an insertion-ordered
dictionary. An exception is `none`.
-/
namespace Verif.RecIO
open Verif.CameraIO

/-! ### Metadata -/

/-- `ShotMeasurements` (shot.h:26-46). -/
structure Meta where
  gpsAccuracy : Option ℚ := none
  gpsPosition : Option (ℚ × ℚ × ℚ) := none
  orientation : Option ℤ := none
  captureTime : Option ℚ := none
  gravityDown : Option (ℚ × ℚ × ℚ) := none
  compassAngle : Option ℚ := none
  compassAccuracy : Option ℚ := none
  opkAngles : Option (ℚ × ℚ × ℚ) := none
  opkAccuracy : Option ℚ := none
  sequenceKey : Option String := none
  attributes : Dict String String := []
  deriving DecidableEq, Repr

/-- `list(v)` of a vector of three numbers. -/
def vec3J (v : ℚ × ℚ × ℚ) : J := .ofNums [v.1, v.2.1, v.2.2]

/-- A value used as a vector of three numbers (`none`: pybind's `TypeError`). -/
def vec3? (j : J) : Option (ℚ × ℚ × ℚ) :=
  match j.nums? with
  | some [a, b, c] => some (a, b, c)
  | _ => none

/-- A value used as a C++ integer. -/
def int? (j : J) : Option ℤ :=
  match j with
  | .num q => if q.den = 1 then some q.num else none
  | _ => none

/-- One optional entry of the dictionary. -/
def entry {α : Type} (k : String) (f : α → J) : Option α → List (String × J)
  | some a => [(k, f a)]
  | none => []

/-- The `compass` entry (io.py:561-572). -/
def compassEntry (angle accuracy : Option ℚ) : List (String × J) :=
  match angle, accuracy with
  | some a, some b => [("compass", .obj [("angle", .num a), ("accuracy", .num b)])]
  | some a, none => [("compass", .obj [("angle", .num a)])]
  | none, some b => [("compass", .obj [("accuracy", .num b)])]
  | none, none => []

/-- `pymap_metadata_to_json` (io.py:544-576). -/
def metaToJson (m : Meta) : List (String × J) :=
  entry "orientation" (fun z : ℤ => .num z) m.orientation
    ++ entry "capture_time" .num m.captureTime
    ++ entry "gps_dop" .num m.gpsAccuracy
    ++ entry "gps_position" vec3J m.gpsPosition
    ++ entry "gravity_down" vec3J m.gravityDown
    ++ compassEntry m.compassAngle m.compassAccuracy
    ++ entry "skey" .str m.sequenceKey

/-- `if obj.get(key) is not None: field.value = obj.get(key)` (io.py:581-592); the outer `none` is an
exception of the setter. -/
def readField {α : Type} (o : J) (k : String) (f : J → Option α) : Option (Option α) :=
  match o.get? k with
  | none => some none
  | some .null => some none
  | some v => (f v).map some

/-- `if "angle" in compass: ... = compass["angle"]` (io.py:595-598). -/
def readCompassField (c : J) (k : String) : Option (Option ℚ) :=
  match c with
  | .obj _ =>
    match c.get? k with
    | none => some none
    | some v => (v.num?).map some
  | _ => none

/-- The `compass` part of `json_to_pymap_metadata` (io.py:593-598). -/
def readCompass (o : J) : Option (Option ℚ × Option ℚ) :=
  match o.get? "compass" with
  | none => some (none, none)
  | some .null => some (none, none)
  | some c =>
    match readCompassField c "angle", readCompassField c "accuracy" with
    | some a, some b => some (a, b)
    | _, _ => none

/-- `json_to_pymap_metadata` (io.py:579-599). -/
def metaFromJson (o : J) : Option Meta :=
  match readField o "orientation" int?, readField o "capture_time" J.num?,
    readField o "gps_dop" J.num?, readField o "gps_position" vec3?,
    readField o "skey" J.str?, readField o "gravity_down" vec3?, readCompass o with
  | some ori, some ct, some dop, some pos, some sk, some g, some (ca, cc) =>
    some { orientation := ori, captureTime := ct, gpsAccuracy := dop, gpsPosition := pos,
           sequenceKey := sk, gravityDown := g, compassAngle := ca, compassAccuracy := cc }
  | _, _, _, _, _, _, _ => none

/-- `ShotMeasurements::Set` (shot.cc:68-124), the copy made by `__copy__` and the `metadata`
setter. -/
def Meta.setFrom (_old other : Meta) : Meta :=
  { captureTime := other.captureTime, gpsPosition := other.gpsPosition
    gpsAccuracy := other.gpsAccuracy, opkAngles := other.opkAngles
    opkAccuracy := other.opkAccuracy, compassAccuracy := other.compassAccuracy
    compassAngle := other.compassAngle, gravityDown := other.gravityDown
    orientation := other.orientation, sequenceKey := other.sequenceKey
    attributes := other.attributes }

/-! ### Shots -/

/-- What a shot carries besides its pose and rig: measurements, mesh, `scale`, `covariance`,
`merge_cc` (shot.h:128-155). -/
structure Attrs where
  metadata : Meta := {}
  vertices : List (List ℚ) := []
  faces : List (List ℚ) := []
  scale : ℚ := 1
  covariance : List (List ℚ) := []
  mergeCc : ℤ := 0
  deriving DecidableEq, Repr

/-- A matrix as nested lists. -/
def matJ (m : List (List ℚ)) : J := .arr (m.map .ofNums)

/-- Nested lists as a matrix. -/
def mat? : J → Option (List (List ℚ))
  | .arr l => l.mapM J.nums?
  | _ => none

/-- The rotation vector and translation of a pose, and the pose made from them
(`pose.rotation = ...; pose.translation = ...`). -/
structure Codec (P : Type) where
  rot : P → ℚ × ℚ × ℚ
  trans : P → ℚ × ℚ × ℚ
  make : ℚ × ℚ × ℚ → ℚ × ℚ × ℚ → P

/-- The pose of a rotation vector and a translation is the one they were taken from. -/
def Codec.Lawful {P : Type} (c : Codec P) : Prop := ∀ p, c.make (c.rot p) (c.trans p) = p

variable {P : Type}

/-- `shot_to_json` (io.py:498-519); `hasattr` is always true for the bound attributes. -/
def shotToJson (cd : Codec P) (pose : P) (camera : String) (a : Attrs) : J :=
  .obj ([("rotation", vec3J (cd.rot pose)), ("translation", vec3J (cd.trans pose)),
      ("camera", .str camera)]
    ++ metaToJson a.metadata
    ++ [("vertices", matJ a.vertices), ("faces", matJ a.faces), ("scale", .num a.scale),
      ("covariance", matJ a.covariance), ("merge_cc", .num a.mergeCc)])

/-- `obj[key]` used as a vector. -/
def reqVec (o : J) (k : String) : Option (ℚ × ℚ × ℚ) :=
  match o.get? k with
  | some v => vec3? v
  | none => none

/-- `pose_from_json` (io.py:163-168): the translation is optional. -/
def poseFromJson (cd : Codec P) (o : J) : Option P :=
  match reqVec o "rotation" with
  | none => none
  | some r =>
    match o.get? "translation" with
    | none => some (cd.make r (0, 0, 0))
    | some v => (vec3? v).map (cd.make r)

/-- `if key in obj: attribute = obj[key]` with the default of the attribute (io.py:177-183). -/
def attrOr {α : Type} (o : J) (k : String) (d : α) (f : J → Option α) : Option α :=
  match o.get? k with
  | some v => f v
  | none => some d

/-- `assign_shot_attributes` on a new shot (io.py:175-186); the mesh is read only when both
`vertices` and `faces` are present. -/
def attrsFromJson (o : J) : Option Attrs :=
  match metaFromJson o, attrOr o "scale" 1 J.num?, attrOr o "covariance" [] mat?,
    attrOr o "merge_cc" 0 int? with
  | some m, some s, some c, some cc =>
    match o.get? "vertices", o.get? "faces" with
    | some v, some f =>
      match mat? v, mat? f with
      | some v, some f => some ⟨Meta.setFrom {} m, v, f, s, c, cc⟩
      | _, _ => none
    | _, _ => some ⟨Meta.setFrom {} m, [], [], s, c, cc⟩
  | _, _, _, _ => none

/-! ### The reconstruction -/

/-- A shot of the map: camera id, rig ids and attributes (shot.h). Its pose is that of the rig. -/
structure Shot where
  camera : String
  inst : String
  rigCamera : String
  attrs : Attrs
  deriving DecidableEq, Repr

/-- `RigInstance` (rig.h:43-98): pose and the rig camera of each of its shots. -/
structure Inst (P : Type) where
  pose : P
  members : Dict String String

/-- `Landmark` without observations (landmark.h:40-48). -/
structure Pt where
  coordinates : ℚ × ℚ × ℚ
  color : ℤ × ℤ × ℤ
  deriving DecidableEq, Repr

/-- `types.Reconstruction` over `pymap.Map` (map.h:190-211). A bias is a `Similarity`: pose and
scale. -/
structure Rec (P : Type) where
  cameras : Dict String Cam := []
  biases : Dict String (P × ℚ) := []
  rigCameras : Dict String P := []
  rigInstances : Dict String (Inst P) := []
  shots : Dict String Shot := []
  pano : Dict String Shot := []
  points : Dict String Pt := []
  reference : ℚ × ℚ × ℚ := (0, 0, 0)

/-- `add_camera` (types.py:132-140) and `Map::CreateCamera` (map.cc:322-326): a new camera has the
identity bias; an existing id is left alone. -/
def addCamera [One P] (r : Rec P) (c : Cam) : Rec P :=
  if r.cameras.has c.id then r
  else { r with cameras := r.cameras.insertNew c.id c, biases := r.biases.insertNew c.id (1, 1) }

/-- `set_bias` (types.py:63-64), `Map::SetBias` (map.cc:494-501). -/
def setBias (r : Rec P) (k : String) (b : P × ℚ) : Option (Rec P) :=
  if r.biases.has k then some { r with biases := r.biases.set k b } else none

/-- `add_rig_camera` (types.py:150-158), `Map::CreateRigCamera` (map.cc:407-415). -/
def addRigCamera (r : Rec P) (k : String) (p : P) : Rec P :=
  if r.rigCameras.has k then r else { r with rigCameras := r.rigCameras.set k p }

/-- `add_rig_instance(pymap.RigInstance(id))` (types.py:160-177), `Map::CreateRigInstance`,
`Map::UpdateRigInstance` (map.cc:417-448): the argument has no shots; an instance of that id is
overwritten by the empty one. -/
def addRigInstance [One P] (r : Rec P) (k : String) : Rec P :=
  { r with rigInstances := r.rigInstances.set k ⟨1, []⟩ }

/-- `rig_instances[id].pose = pose` (io.py:267). -/
def setInstancePose (r : Rec P) (k : String) (p : P) : Option (Rec P) :=
  match r.rigInstances.get? k with
  | none => none
  | some i => some { r with rigInstances := r.rigInstances.set k { i with pose := p } }

/-- The common part of `Map::CreateShot` and `Map::CreatePanoShot` (map.cc:172-188, 237-254) and the
constructor of `Shot` (shot.cc:18-28): the camera, instance and rig camera must exist; `AddShot`
(rig.cc:17-35) refuses a rig camera already used in the instance;
`UpdateInstancePoseWithShot` (rig.cc:37-50) sets the pose of the instance. -/
def attach [Mul P] [Inv P] (r : Rec P) (s cam rc i : String) (pose : P) : Option (Rec P) :=
  match r.cameras.get? cam, r.rigInstances.get? i, r.rigCameras.get? rc with
  | some _, some inst, some rp =>
    if inst.members.any (fun m => m.2 == rc) then none
    else some { r with
      rigInstances := r.rigInstances.set i ⟨rp⁻¹ * pose, inst.members.set s rc⟩ }
  | _, _, _ => none

/-- `Map::CreateShot` with a pose (map.cc:172-188). -/
def mapCreateShot [Mul P] [Inv P] (r : Rec P) (s cam rc i : String) (pose : P) (a : Attrs) :
    Option (Rec P) :=
  if r.shots.has s then none
  else (attach r s cam rc i pose).map fun r' =>
    { r' with shots := r'.shots.set s ⟨cam, i, rc, a⟩ }

/-- `Map::CreatePanoShot` (map.cc:237-254). -/
def mapCreatePano [Mul P] [Inv P] (r : Rec P) (s cam rc i : String) (pose : P) (a : Attrs) :
    Option (Rec P) :=
  if r.pano.has s then none
  else (attach r s cam rc i pose).map fun r' =>
    { r' with pano := r'.pano.set s ⟨cam, i, rc, a⟩ }

/-- Python truth of an optional string. -/
def given : Option String → Option String
  | some "" => none
  | x => x

/-- `Reconstruction.create_shot` with a pose (types.py:180-214), followed by the attributes. -/
def createShot [Group P] (r : Rec P) (s cam : String) (pose : P) (rcId instId : Option String)
    (a : Attrs) : Option (Rec P) :=
  let rc := (given rcId).getD cam
  let i := (given instId).getD s
  let r := if (given rcId).isNone && !r.rigCameras.has cam then addRigCamera r cam 1 else r
  if !r.rigCameras.has rc then none
  else
    let r := if (given instId).isNone && !r.rigInstances.has s then addRigInstance r s else r
    if !r.rigInstances.has i then none
    else mapCreateShot r s cam rc i pose a

/-- `PANOSHOT_RIG_PREFIX` (types.py:12). -/
def panoPrefix : String := "panoshot_"

/-- `Reconstruction.create_pano_shot` (types.py:252-270), followed by the attributes. -/
def createPano [Group P] (r : Rec P) (s cam : String) (pose : P) (a : Attrs) : Option (Rec P) :=
  let rc := panoPrefix ++ cam
  let i := panoPrefix ++ s
  let r := if !r.rigCameras.has rc then addRigCamera r rc 1 else r
  let r := if !r.rigInstances.has i then addRigInstance r i else r
  mapCreatePano r s cam rc i pose a

/-- `create_point` and the `color` setter (types.py:289-297, io.py:230-231),
`Map::CreateLandmark` (map.cc:282-294). -/
def createPoint (r : Rec P) (k : String) (p : Pt) : Option (Rec P) :=
  if r.points.has k then none else some { r with points := r.points.set k p }

/-- `Map::RemoveShot` (map.cc:209-225) and `RigInstance::RemoveShot` (rig.cc:65-72). -/
def removeShot (r : Rec P) (s : String) : Option (Rec P) :=
  match r.shots.get? s with
  | none => none
  | some sh =>
    match r.rigInstances.get? sh.inst with
    | none => none
    | some x =>
      if !x.members.has s then none
      else some { r with
        shots := r.shots.erase s
        rigInstances := r.rigInstances.set sh.inst { x with members := x.members.erase s } }

/-- `Map::RemovePanoShot` (map.cc:256-272). -/
def removePano (r : Rec P) (s : String) : Option (Rec P) :=
  match r.pano.get? s with
  | none => none
  | some sh =>
    match r.rigInstances.get? sh.inst with
    | none => none
    | some x =>
      if !x.members.has s then none
      else some { r with
        pano := r.pano.erase s
        rigInstances := r.rigInstances.set sh.inst { x with members := x.members.erase s } }

/-- `Map::RemoveLandmark` (map.cc:303-320). -/
def removePoint (r : Rec P) (k : String) : Option (Rec P) :=
  if r.points.has k then some { r with points := r.points.erase k } else none

/-- The calls a program makes on a `Reconstruction`. -/
inductive Op (P : Type) where
  | camera (c : Cam)
  | bias (k : String) (b : P × ℚ)
  | rigCamera (k : String) (p : P)
  | rigInstance (k : String)
  | instancePose (k : String) (p : P)
  | shot (s cam : String) (pose : P) (rc inst : Option String) (a : Attrs)
  | pano (s cam : String) (pose : P) (a : Attrs)
  | point (k : String) (p : Pt)
  | reference (l : ℚ × ℚ × ℚ)
  | removeShot (s : String)
  | removePano (s : String)
  | removePoint (k : String)

/-- One call; `none` when it raises. -/
def step [Group P] (r : Rec P) : Op P → Option (Rec P)
  | .camera c => some (addCamera r c)
  | .bias k b => setBias r k b
  | .rigCamera k p => some (addRigCamera r k p)
  | .rigInstance k => some (addRigInstance r k)
  | .instancePose k p => setInstancePose r k p
  | .shot s cam pose rc inst a => createShot r s cam pose rc inst a
  | .pano s cam pose a => createPano r s cam pose a
  | .point k p => createPoint r k p
  | .reference l => some { r with reference := l }
  | .removeShot s => removeShot r s
  | .removePano s => removePano r s
  | .removePoint k => removePoint r k

/-- `shot.pose` (shot.cc:146-167): the pose of the rig camera composed with that of the
instance. -/
def shotPose [Mul P] (r : Rec P) (sh : Shot) : Option P :=
  match r.rigCameras.get? sh.rigCamera, r.rigInstances.get? sh.inst with
  | some rp, some i => some (rp * i.pose)
  | _, _ => none

/-! ### Writing -/

/-- `point_to_json` (io.py:602-609). -/
def pointToJson (p : Pt) : J :=
  .obj [("color", vec3J (p.color.1, p.color.2.1, p.color.2.2)),
    ("coordinates", vec3J p.coordinates)]

/-- `bias_to_json` (io.py:682-687). -/
def biasToJson (cd : Codec P) (b : P × ℚ) : J :=
  .obj [("rotation", vec3J (cd.rot b.1)), ("translation", vec3J (cd.trans b.1)),
    ("scale", .num b.2)]

/-- `rig_camera_to_json` (io.py:533-541). -/
def rigCameraToJson (cd : Codec P) (p : P) : J :=
  .obj [("rotation", vec3J (cd.rot p)), ("translation", vec3J (cd.trans p))]

/-- `rig_instance_to_json` (io.py:522-530). -/
def rigInstanceToJson (cd : Codec P) (i : Inst P) : J :=
  .obj [("translation", vec3J (cd.trans i.pose)), ("rotation", vec3J (cd.rot i.pose)),
    ("rig_camera_ids", .obj (i.members.map fun m => (m.1, J.str m.2)))]

/-- One iteration of the writing loops (io.py:619-645): `obj[...][key] = f(value)`. -/
def writeStep {V : Type} (f : V → Option J) (acc : Dict String J) (kv : String × V) :
    Option (Dict String J) :=
  (f kv.2).map fun j => acc.set kv.1 j

/-- A writing loop. -/
def writeAll {V : Type} (f : V → Option J) (d : Dict String V) : Option (Dict String J) :=
  d.foldlM (writeStep f) []

/-- `shot_to_json` of a shot of the map. -/
def mapShotToJson [Mul P] (cd : Codec P) (r : Rec P) (sh : Shot) : Option J :=
  (shotPose r sh).map fun p => shotToJson cd p sh.camera sh.attrs

/-- `reconstruction_to_json` (io.py:612-660). The reference object is always true. -/
def toJson [Mul P] (cd : Codec P) (r : Rec P) : Option J := do
  let cams ← writeAll cameraToJson (r.cameras.map fun kc => (kc.2.id, kc.2))
  let biases ← writeAll (fun b => some (biasToJson cd b)) r.biases
  let rcs ← writeAll (fun p => some (rigCameraToJson cd p)) r.rigCameras
  let ris ← writeAll (fun i => some (rigInstanceToJson cd i)) r.rigInstances
  let shots ← writeAll (mapShotToJson cd r) r.shots
  let points ← writeAll (fun p => some (pointToJson p)) r.points
  let pano ← writeAll (mapShotToJson cd r) r.pano
  some (.obj ([("cameras", .obj cams), ("shots", .obj shots), ("points", .obj points),
      ("biases", .obj biases)]
    ++ (if r.rigCameras.length = 0 then [] else [("rig_cameras", .obj rcs)])
    ++ (if r.rigInstances.length = 0 then [] else [("rig_instances", .obj ris)])
    ++ (if r.pano.length = 0 then [] else [("pano_shots", .obj pano)])
    ++ [("reference_lla", .obj [("latitude", .num r.reference.1),
        ("longitude", .num r.reference.2.1), ("altitude", .num r.reference.2.2)])]))

/-! ### Reading -/

/-- `.items()` of a value. -/
def items? : J → Option (List (String × J))
  | .obj l => some l
  | _ => none

/-- `if key in obj: for k, v in obj[key].items()`. -/
def optItems (o : J) (k : String) : Option (List (String × J)) :=
  match o.get? k with
  | some v => items? v
  | none => some []

/-- `for k, v in obj[key].items()`. -/
def reqItems (o : J) (k : String) : Option (List (String × J)) :=
  match o.get? k with
  | some v => items? v
  | none => none

/-- One camera (io.py:293-295). -/
def readCamera [One P] (r : Rec P) (kv : String × J) : Option (Rec P) :=
  (cameraFromJson kv.1 kv.2).map (addCamera r)

/-- Rotation and translation, both required (io.py:239-241, 263-266). -/
def fullPose (cd : Codec P) (o : J) : Option P :=
  match reqVec o "rotation", reqVec o "translation" with
  | some a, some b => some (cd.make a b)
  | _, _ => none

/-- One bias (io.py:171-172, 299-301). -/
def readBias (cd : Codec P) (r : Rec P) (kv : String × J) : Option (Rec P) :=
  match fullPose cd kv.2, kv.2.reqNum "scale" with
  | some p, some s => setBias r kv.1 (p, s)
  | _, _ => none

/-- One rig camera (io.py:235-243, 305-306). -/
def readRigCamera (cd : Codec P) (r : Rec P) (kv : String × J) : Option (Rec P) :=
  (fullPose cd kv.2).map (addRigCamera r kv.1)

/-- One rig instance (io.py:256-267). -/
def readRigInstance [One P] (cd : Codec P) (r : Rec P) (kv : String × J) : Option (Rec P) :=
  match fullPose cd kv.2 with
  | some p => setInstancePose (addRigInstance r kv.1) kv.1 p
  | none => none

/-- The inner loop of `rig_instance_camera_per_shot` (io.py:279-281). -/
def rigShotStep (pano : List String) (i : String) (acc : Dict String (String × String))
    (m : String × J) : Option (Dict String (String × String)) :=
  if m.1 ∈ pano then some acc
  else
    match m.2 with
    | .str c => some (acc.set m.1 (i, c))
    | _ => none

/-- The outer loop (io.py:278). -/
def rigInstStep (pano : List String) (acc : Dict String (String × String)) (kv : String × J) :
    Option (Dict String (String × String)) :=
  match reqItems kv.2 "rig_camera_ids" with
  | some l => l.foldlM (rigShotStep pano kv.1) acc
  | none => none

/-- `rig_instance_camera_per_shot` (io.py:270-283). -/
def rigShots (o : J) : Option (Dict String (String × String)) :=
  match optItems o "pano_shots", optItems o "rig_instances" with
  | some pano, some ris => ris.foldlM (rigInstStep (pano.map Prod.fst)) []
  | _, _ => none

/-- `obj["camera"]`. -/
def cameraKey (o : J) : Option String :=
  match o.get? "camera" with
  | some v => v.str?
  | none => none

/-- One shot (io.py:189-209, 315-323). -/
def readShot [Group P] (cd : Codec P) (rig : Dict String (String × String)) (r : Rec P)
    (kv : String × J) : Option (Rec P) :=
  match poseFromJson cd kv.2, cameraKey kv.2, attrsFromJson kv.2 with
  | some p, some cam, some a =>
    createShot r kv.1 cam p ((rig.get? kv.1).map Prod.snd) ((rig.get? kv.1).map Prod.fst) a
  | _, _, _ => none

/-- One pano shot (io.py:189-209, 332-334). -/
def readPano [Group P] (cd : Codec P) (r : Rec P) (kv : String × J) : Option (Rec P) :=
  match poseFromJson cd kv.2, cameraKey kv.2, attrsFromJson kv.2 with
  | some p, some cam, some a => createPano r kv.1 cam p a
  | _, _, _ => none

/-- One point (io.py:224-232); the colour is converted to integers. -/
def readPoint (r : Rec P) (kv : String × J) : Option (Rec P) :=
  match reqVec kv.2 "coordinates", reqVec kv.2 "color" with
  | some x, some c => createPoint r kv.1 ⟨x, pyInt c.1, pyInt c.2.1, pyInt c.2.2⟩
  | _, _ => none

/-- The reference (io.py:337-341). -/
def readReference (r : Rec P) (o : J) : Option (Rec P) :=
  match o.get? "reference_lla" with
  | none => some r
  | some l =>
    match l.reqNum "latitude", l.reqNum "longitude", l.reqNum "altitude" with
    | some a, some b, some c => some { r with reference := (a, b, c) }
    | _, _, _ => none

/-- `reconstruction_from_json` (io.py:286-344). -/
def fromJson [Group P] (cd : Codec P) (o : J) : Option (Rec P) := do
  let r ← (← reqItems o "cameras").foldlM readCamera ({} : Rec P)
  let r ← (← optItems o "biases").foldlM (readBias cd) r
  let r ← (← optItems o "rig_cameras").foldlM (readRigCamera cd) r
  let r ← (← optItems o "rig_instances").foldlM (readRigInstance cd) r
  let rig ← rigShots o
  let r ← (← reqItems o "shots").foldlM (readShot cd rig) r
  let r ← (← optItems o "points").foldlM readPoint r
  let r ← (← optItems o "pano_shots").foldlM (readPano cd) r
  readReference r o

/-- `reconstructions_to_json` (io.py:663-669). -/
def recsToJson [Mul P] (cd : Codec P) (rs : List (Rec P)) : Option (List J) := rs.mapM (toJson cd)

/-- `reconstructions_from_json` (io.py:347-351). -/
def recsFromJson [Group P] (cd : Codec P) (os : List J) : Option (List (Rec P)) :=
  os.mapM (fromJson cd)

end Verif.RecIO
