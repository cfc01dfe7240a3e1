import Mathlib.Algebra.Group.Basic
import Mathlib.Algebra.Field.Basic
import Verif.Base.Dict
import Verif.Base.Text
import Verif.Model.CameraIO
import Verif.Model.UndistortPano

/-!
Model of `undistort_reconstruction` (/repo/opensfm/undistort.py): which shots, cameras, poses and
observations the undistorted reconstruction gets.

Simplifications: the poses are the elements of a group, with `Compose` as product (C39); the rotations of
the faces are a parameter `rot` (C76 gives them); identifiers are lists of characters; an exception is
`none`; a rig camera or instance identifier that is the empty string, which Python takes for a missing one,
is not considered; points and the reference are copied and not modelled.
-/
namespace Verif.UndistortRec
open Verif.CameraIO Verif.Undistort Verif.Text

abbrev Id := List Char

/-- A camera of the reconstruction, as far as undistortion reads it. -/
structure CamInfo (K : Type) where
  ptype : PType
  focal : K
  aspect : K
  width : ℕ
  height : ℕ

/-- A camera of the undistorted reconstruction: perspective, without distortion. -/
structure UCam (K : Type) where
  focal : K
  width : ℕ
  height : ℕ
  deriving DecidableEq

/-- A shot of the reconstruction. -/
structure Src (P M : Type) where
  id : Id
  camera : Id
  pose : P
  info : M

/-- A shot of the undistorted reconstruction. -/
structure UShot (M : Type) where
  camera : Id
  rigCamera : Id
  inst : Id
  info : M
  deriving DecidableEq

/-- A rig instance: its pose and the rig camera of each of its shots. -/
structure Inst (P : Type) where
  pose : P
  shots : Dict Id Id := []
  deriving DecidableEq

/-- `urec`. -/
structure URec (K P M : Type) where
  cameras : Dict Id (UCam K) := []
  rigCameras : Dict Id P := []
  instances : Dict Id (Inst P) := []
  shots : Dict Id (UShot M) := []
  deriving DecidableEq

/-- `add_image_format_extension` (undistort.py:236-240). -/
def extension (fmt id : Id) : Id := if ('.' :: fmt).isSuffixOf id then id else id ++ '.' :: fmt

/-- The perspective camera of a non-panorama camera (undistort.py:44-59, 254-309). -/
def undistortedCamera {K : Type} [Field K] (c : CamInfo K) : Option (UCam K) :=
  match c.ptype with
  | .perspective | .fisheye => some ⟨c.focal, c.width, c.height⟩
  | .brown | .fisheyeOpencv | .fisheye62 => some ⟨c.focal * (1 + c.aspect) / 2, c.width, c.height⟩
  | _ => none

/-- `camera.id` of the views (undistort.py:321). -/
def panoCamera : Id := "perspective_panorama_camera".toList

/-- `names` (undistort.py:326). -/
def faceName (f : Face) : Id := f.name.toList

/-- `names`, in order. -/
def faces : List Face := [.front, .left, .back, .right, .top, .bottom]

/-- Id of a view (undistort.py:349-351). -/
def viewId (fmt id : Id) (f : Face) : Id := extension fmt (id ++ "_perspective_view_".toList ++ faceName f)

section
variable {K P M T O : Type} [Field K] [Group P]

/-- `Reconstruction.add_camera` (types.py:133-142). -/
def addCamera (r : URec K P M) (k : Id) (c : UCam K) : URec K P M :=
  { r with cameras := r.cameras.insertNew k c }

/-- Adding a rig camera if there is none with this id (types.py:188-189, undistort.py:342-347). -/
def ensureRigCamera (r : URec K P M) (k : Id) (q : P) : URec K P M :=
  { r with rigCameras := r.rigCameras.insertNew k q }

/-- Adding a rig instance without shots if there is none with this id (types.py:195-196). -/
def ensureInstance (r : URec K P M) (k : Id) : URec K P M :=
  { r with instances := r.instances.insertNew k ⟨1, []⟩ }

/-- `Map::CreateShot` (map.cc:172-190), the constructor of `Shot` (shot.cc:18-29), `AddShot` and
`UpdateInstancePoseWithShot` (rig.cc:16-49), then `shot.metadata = ...`. -/
def place (r : URec K P M) (id cam rc ri : Id) (pose : P) (info : M) : Option (URec K P M) :=
  if r.shots.has id then none
  else
    match r.cameras.get? cam, r.rigCameras.get? rc, r.instances.get? ri with
    | some _, some q, some i =>
      if rc ∈ i.shots.vals then none
      else some { r with instances := r.instances.set ri ⟨q⁻¹ * pose, i.shots.set id rc⟩
                         shots := r.shots.set id ⟨cam, rc, ri, info⟩ }
    | _, _, _ => none

/-- `urec.add_camera(...)`, then `get_shot_with_different_camera` (undistort.py:44-59, 243-251) with
`Reconstruction.create_shot` (types.py:176-211) without rig camera and instance. -/
def singleView (fmt : Id) (r : URec K P M) (s : Src P M) (u : UCam K) : Option (URec K P M) :=
  let uid := extension fmt s.id
  place (ensureInstance (ensureRigCamera (addCamera r s.camera u) s.camera 1) uid) uid s.camera s.camera uid
    s.pose s.info

/-- The loop body of `perspective_views_of_a_panorama` (undistort.py:340-356). -/
def viewStep (rot : Face → P) (fmt inst : Id) (s : Src P M) (acc : Option (URec K P M)) (f : Face) :
    Option (URec K P M) :=
  acc.bind (fun r => place (ensureRigCamera r (faceName f) (rot f)) (viewId fmt s.id f) panoCamera (faceName f)
    inst 1 s.info)

/-- `rig_instance.pose = ...` (undistort.py:357). -/
def setInstancePose (r : URec K P M) (k : Id) (p : P) : URec K P M :=
  { r with instances := match r.instances.get? k with
      | some i => r.instances.set k ⟨p, i.shots⟩
      | none => r.instances }

/-- `perspective_views_of_a_panorama` (undistort.py:312-359); `n` is the next value of
`rig_instance_count`. -/
def panoViews (rot : Face → P) (fmt : Id) (width n : ℕ) (r : URec K P M) (s : Src P M) : Option (URec K P M) :=
  let r1 := addCamera r panoCamera ⟨1 / 2, width, width⟩
  let r2 := { r1 with instances := r1.instances.set (fmtNat n) ⟨1, []⟩ }
  (faces.foldl (viewStep rot fmt (fmtNat n) s) (some r2)).map (fun r => setInstancePose r (fmtNat n) s.pose)

/-- `shot.pose` (shot.cc:146-167). -/
def shotPose (r : URec K P M) (id : Id) : Option P :=
  (r.shots.get? id).bind (fun u =>
    match r.rigCameras.get? u.rigCamera, r.instances.get? u.inst with
    | some q, some i => some (q * i.pose)
    | _, _ => none)

/-- What undistortion reads: the images of the data set, `undistorted_image_format`, `depthmap_resolution`, the
cameras, the tracks (`none`: no tracks manager; a shot without entry is not in it), and the test and transformation
of the observation of a panorama for a view (C76). -/
structure Input (K P T O : Type) where
  images : List Id
  format : Id
  width : ℕ
  cam : Id → CamInfo K
  rot : Face → P
  tracks : Option (Id → Option (List (T × O)))
  sub : P → P → O → Option O

/-- The variables of the loop of `undistort_reconstruction`: `urec`, `rig_instance_count`, `undistorted_shots`, and
the calls of `utracks_manager.add_observation`. -/
structure State (K P M T O : Type) where
  rec' : URec K P M := {}
  count : ℕ := 0
  undistorted : Dict Id (List Id) := []
  calls : List (Id × T × O) := []

/-- `add_subshot_tracks` (undistort.py:416-459) for one subshot. -/
def subshotCalls (inp : Input K P T O) (s : Src P M) (r : URec K P M) (uid : Id) : List (Id × T × O) :=
  match inp.tracks with
  | none => []
  | some tm =>
    match tm s.id with
    | none => []
    | some obs =>
      if (inp.cam s.camera).ptype = .spherical then
        obs.filterMap (fun o => ((shotPose r uid).bind (fun v => inp.sub s.pose v o.2)).map (fun o' => (uid, o.1, o')))
      else obs.map (fun o => (uid, o.1, o.2))

/-- The new reconstruction and the subshots of a shot (undistort.py:43-68); `none` inside: unknown camera type. -/
def subshots (inp : Input K P T O) (r : URec K P M) (n : ℕ) (s : Src P M) :
    Option (Option (URec K P M × ℕ × List Id)) :=
  if (inp.cam s.camera).ptype = .spherical then
    (panoViews inp.rot inp.format inp.width n r s).map (fun r' =>
      some (r', n + 1, faces.map (viewId inp.format s.id)))
  else
    match undistortedCamera (inp.cam s.camera) with
    | some u => (singleView inp.format r s u).map (fun r' => some (r', n, [extension inp.format s.id]))
    | none => some none

/-- The variables of the loop after a shot (undistort.py:43-73): its subshots are registered and their observations
added; a shot of an unknown camera type is skipped. -/
def afterShot (inp : Input K P T O) (st : State K P M T O) (s : Src P M) :
    Option (URec K P M × ℕ × List Id) → State K P M T O
  | none => st
  | some (r', n', ids) =>
    { rec' := r', count := n', undistorted := st.undistorted.set s.id ids
      calls := st.calls ++ ids.flatMap (subshotCalls inp s r') }

/-- The loop body of `undistort_reconstruction` (undistort.py:37-73). -/
def step (inp : Input K P T O) (acc : Option (State K P M T O)) (s : Src P M) : Option (State K P M T O) :=
  acc.bind (fun st =>
    if s.id ∈ inp.images then
      (subshots inp st.rec' st.count s).map (afterShot inp st s)
    else some st)

/-- `undistort_reconstruction` (undistort.py:24-86). -/
def undistort (inp : Input K P T O) (shots : List (Src P M)) : Option (State K P M T O) :=
  shots.foldl (step inp) (some {})

end
end Verif.UndistortRec
