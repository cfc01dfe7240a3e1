import Verif.Model.Pose
import Mathlib.Data.Real.Basic

/-!
Model of `RealignMaps` (/repo/opensfm/src/sfm/src/retriangulation.cc:8-113).

Simplifications: numbers are exact reals; hash maps are lists in the order they are visited; the part of a map the function
reads or writes: cameras (their parameter values as an opaque value), rig cameras, rig instances with their shots, shots with
`scale` and `merge_cc`, points with the shots that see them. `offset` is the origin of the first map's reference in the
frame of the second (lines 12-14).
-/
set_option linter.unusedSectionVars false
namespace Verif.Realign
open Matrix Verif.Pose
variable {Id C : Type} [DecidableEq Id]

/-- The parts of `map::Shot` that are used. -/
structure RShot (Id : Type) where
  camera : Id
  inst : Id
  rigCamera : Id
  scale : ℝ
  mergeCC : ℤ

/-- The parts of `map::Map` that are used. -/
structure RMap (Id C : Type) where
  cameras : Dict Id C
  rigCameras : Dict Id (Pose ℝ)
  instances : Dict Id (Pose ℝ × List Id)
  shots : Dict Id (RShot Id)
  points : Dict Id (V3 ℝ × List Id)

/-- `Shot::GetPose` (shot.cc:146-159). -/
noncomputable def RMap.shotPose (m : RMap Id C) (s : Id) : Option (Pose ℝ) :=
  match m.shots.get? s with
  | none => none
  | some st =>
    match m.instances.get? st.inst, m.rigCameras.get? st.rigCamera with
    | some i, some pc => some (pc.compose i.1)
    | _, _ => none

/-- `SetOrigin(GetOrigin() + offset)` (retriangulation.cc:28, 101). -/
noncomputable def shift (offset : V3 ℝ) (p : Pose ℝ) : Pose ℝ := p.setOrigin (p.getOrigin + offset)

/-- `shot_from.scale != 0. ? (1.0 / shot_from.scale) : 1.0` (retriangulation.cc:36). -/
noncomputable def relScale (s : ℝ) : ℝ := if s ≠ 0 then 1 / s else 1

/-- The transform of a pair of poses (retriangulation.cc:36-43); `pf` is already shifted. -/
noncomputable def relTransform (scale : ℝ) (pf pt : Pose ℝ) : Similarity ℝ :=
  let R := pf.cwR * pt.wcR
  Similarity.mk' R (-((scale • R) *ᵥ pt.getOrigin) + pf.getOrigin) scale

/-- `from_to_transforms` (retriangulation.cc:17-44). -/
noncomputable def transformOf (offset : V3 ℝ) (src dst : RMap Id C) (s : Id) : Option (Similarity ℝ) :=
  match src.shots.get? s, src.shotPose s, dst.shotPose s with
  | some sf, some pf, some pt => some (relTransform (relScale sf.scale) (shift offset pf) pt)
  | _, _, _ => none

/-- Squared distance of a point to the shot (retriangulation.cc:57-58). -/
def dist2 (x : V3 ℝ) (p : Pose ℝ) : ℝ := (x - p.getOrigin) ⬝ᵥ (x - p.getOrigin)

open Classical in
/-- One round of the search of the nearest shot (retriangulation.cc:53-62). Simplification: no distance is the largest
double. -/
noncomputable def nearStep (src dst : RMap Id C) (x : V3 ℝ) (best : Option (ℝ × Id)) (s : Id) : Option (ℝ × Id) :=
  if src.shots.has s then
    match dst.shotPose s, best with
    | some p, some b => if dist2 x p < b.1 then some (dist2 x p, s) else some b
    | some p, none => some (dist2 x p, s)
    | none, b => b
  else best

/-- The nearest shot of a point (retriangulation.cc:50-62). -/
noncomputable def nearest (src dst : RMap Id C) (x : V3 ℝ) (obs : List Id) : Option (ℝ × Id) :=
  obs.foldl (nearStep src dst x) none

/-- A point after the alignment (retriangulation.cc:48-71). -/
noncomputable def movePoint (offset : V3 ℝ) (src dst : RMap Id C) (x : V3 ℝ) (obs : List Id) : V3 ℝ :=
  match nearest src dst x obs with
  | none => x
  | some b =>
    match transformOf offset src dst b.2 with
    | none => x
    | some T => T.transform x

/-- The camera of one shot (retriangulation.cc:83-86). -/
def cameraStep (src : RMap Id C) (cams : Dict Id C) (e : Id × RShot Id) : Dict Id C :=
  match src.shots.get? e.1 with
  | none => cams
  | some sf =>
    match src.cameras.get? sf.camera with
    | none => cams
    | some c => cams.set e.2.camera c

/-- Scale and component of one shot; `none` for the shots to delete (retriangulation.cc:76-90, 109-111). -/
def moveShot (src : RMap Id C) (e : Id × RShot Id) : Option (Id × RShot Id) :=
  match src.shots.get? e.1 with
  | none => none
  | some sf => some (e.1, { e.2 with scale := sf.scale, mergeCC := sf.mergeCC })

/-- The pose of a rig instance (retriangulation.cc:93-106): that of the instance in `from` of the first of its shots that is
there. -/
noncomputable def moveInstance (offset : V3 ℝ) (src : RMap Id C) (p : Pose ℝ) (shots : List Id) : Pose ℝ :=
  match shots.find? (fun s => src.shots.has s) with
  | none => p
  | some s =>
    match src.shots.get? s with
    | none => p
    | some sf =>
      match src.instances.get? sf.inst with
      | none => p
      | some q => shift offset q.1

/-- `RealignMaps` (retriangulation.cc:8-113). `RemoveShot` takes the shot out of its instance and of its points. -/
noncomputable def realign (offset : V3 ℝ) (src dst : RMap Id C) (updatePoints : Bool) : RMap Id C where
  cameras := dst.shots.foldl (cameraStep src) dst.cameras
  rigCameras := dst.rigCameras
  instances := dst.instances.map (fun e =>
    (e.1, (moveInstance offset src e.2.1 e.2.2, e.2.2.filter (fun s => src.shots.has s))))
  shots := dst.shots.filterMap (moveShot src)
  points := dst.points.map (fun e =>
    (e.1, (if updatePoints then movePoint offset src dst e.2.1 e.2.2 else e.2.1, e.2.2.filter (fun s => src.shots.has s))))

end Verif.Realign
