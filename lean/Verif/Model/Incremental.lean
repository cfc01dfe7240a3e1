import Verif.Base.Dict
import Mathlib.Data.List.Sort

/-!
# Incremental reconstruction

Model of the control flow of `opensfm/reconstruction.py`: `add_shot` (247-285),
`reconstruction_from_relative_pose` (563-630), `bootstrap_reconstruction` (633-674),
`reconstructed_points_for_images` (677-692), `resect` (695-762), `grow_reconstruction` (1457-1597),
`incremental_reconstruction` (1712-1786), and of `rig.rig_assignments_per_image`
(`opensfm/rig.py` 39-52) and `CountTracksPerShot` (`opensfm/src/sfm/src/tracks_helpers.cc` 7-30).

A reconstruction is its list of shots, its list of points (track ids) and an arbitrary `World`
(poses, cameras, coordinates, colours, random generator state, ...).  Every numerical step is an
arbitrary function stored in the environment: it may change points and world in any way but not
the shots, which is what `bundle*`, `align_reconstruction`, `triangulate_shot_features`,
`retriangulate`, `remove_outliers`, `paint_reconstruction` and the point filters do.  Because the
world is an arbitrary type which every step may change, a different result may come out each time
a numerical step is run.

Simplified away: loading of EXIF/camera/rig camera files (assumed to succeed), reports other than
those listed in `Step`, and saving of partial reconstructions.
-/

namespace Verif.Inc

variable {Img Trk World : Type} [DecidableEq Img] [DecidableEq Trk]

/-- A partial reconstruction (`types.Reconstruction`): `shots`, `points` and everything else. -/
structure Rec (Img Trk World : Type) where
  shots : List Img
  points : List Trk
  world : World

/-- What `resect` reports: `num_common_points`, `num_inliers` (reconstruction.py 733-739). -/
structure Step (Img : Type) where
  /-- the image that was resected -/
  image : Img
  /-- `report["images"]`, the shots added -/
  images : List Img
  commonPoints : Nat
  inliers : Nat

/-- Inputs of the pipeline: configuration, tracks, rigs and the numerical oracles. -/
structure Env (Img Trk World : Type) where
  /-- `tracks_manager.get_shot_ids()` -/
  images : List Img
  /-- keys of `tracks_manager.get_shot_observations(image)` -/
  tracks : Img → List Trk
  /-- `data.load_rig_assignments()`, one list of shots per instance (rig camera ids dropped) -/
  rigs : List (List Img)
  /-- `config["resection_min_inliers"]` -/
  minInliers : Nat
  /-- `config["five_point_algo_min_inliers"]` -/
  minBoot : Nat
  /-- `two_view_reconstruction_general(...)` returned a pose (not `None`) -/
  twoView : Img → Img → Bool
  /-- align + `triangulate_shot_features` on the two initial shots (583-584) -/
  bootTriangulate : Img → Img → List Img → List Trk × World
  /-- `bundle_shot_poses` + `retriangulate` (596-600) -/
  bootRetriangulate : Rec Img Trk World → List Trk × World
  /-- last `bundle_shot_poses` (609-611) -/
  bootBundle : Rec Img Trk World → World
  /-- iteration order of a Python set / of the hash map returned by `count_tracks_per_shot` -/
  order : List Img → List Img
  /-- which of the common tracks are inliers of `absolute_pose_ransac` (719-731) -/
  ransac : Rec Img Trk World → Img → (Trk → Bool) × World
  /-- triangulation of a rig and addition of the observations (746-757) -/
  resectAdd : Rec Img Trk World → List Img → List Trk × World
  /-- paint, align, bundle, remove outliers before the loop (1472-1477) -/
  growInit : Rec Img Trk World → List Trk × World
  /-- bundling, triangulation, retriangulation after each addition (1507-1571) -/
  growSettle : Rec Img Trk World → List Img → List Trk × World
  /-- final alignment, bundle, outlier removal and filters (1580-1596) -/
  growFinish : Rec Img Trk World → List Trk × World

/-- `rig_assignments_per_image` (rig.py 39-52): the shots of the instance recorded for each image;
an image listed in several instances keeps the last one, as the Python dict does. -/
def assignOne (inst : List Img) (d : Dict Img (List Img)) : Dict Img (List Img) :=
  inst.foldl (fun (d : Dict Img (List Img)) s => Dict.set d s inst) d

/-- `rig_assignments_per_image` (rig.py 39-52), the loop over instances. -/
def assignments (rigs : List (List Img)) : Dict Img (List Img) :=
  rigs.foldl (fun d inst => assignOne inst d) []

/-- `reconstruction.create_shot` for each given shot: raises (`none`) if it already exists
(`Map::CreateShot`, map.cc; types.py 180-214). -/
def createShots (shots : List Img) : List Img → Option (List Img)
  | [] => some shots
  | s :: rest => if s ∈ shots then none else createShots (shots ++ [s]) rest

/-- The shots `add_shot` creates for `im` (reconstruction.py 262-283): itself, or the whole rig
instance. -/
def unit (rigs : List (List Img)) (im : Img) : List Img :=
  match Dict.get? (assignments rigs) im with
  | none => [im]
  | some inst => inst

/-- `add_shot` (reconstruction.py 247-285): new shots list and the set of added shots. -/
def addShot (env : Env Img Trk World) (shots : List Img) (im : Img) :
    Option (List Img × List Img) :=
  (createShots shots (unit env.rigs im)).map (fun s => (s, unit env.rigs im))

/-- First half of `reconstruction_from_relative_pose` (575-592): the shots of the initial pair. -/
def bootShots (env : Env Img Trk World) (im1 im2 : Img) : Option (List Img) :=
  match addShot env [] im1 with
  | none => none
  | some (shots, new) =>
    if im2 ∈ new then some shots
    else (addShot env shots im2).map Prod.fst

/-- `bootstrap_reconstruction` (633-674) and `reconstruction_from_relative_pose` (563-630).
Outer `none`: an exception; inner `none`: no reconstruction. -/
def bootstrap (env : Env Img Trk World) (im1 im2 : Img) :
    Option (Option (Rec Img Trk World)) :=
  if env.twoView im1 im2 then
    match bootShots env im1 im2 with
    | none => none
    | some shots =>
      let (points, world) := env.bootTriangulate im1 im2 shots
      if points.length < env.minBoot then some none
      else
        let (points, world) := env.bootRetriangulate ⟨shots, points, world⟩
        if points.length < env.minBoot then some none
        else some (some ⟨shots, points, env.bootBundle ⟨shots, points, world⟩⟩)
  else some none

/-- Tracks of `im` that are points of the reconstruction (707-714; also the count computed by
`CountTracksPerShot`, tracks_helpers.cc 18-27). -/
def common (env : Env Img Trk World) (r : Rec Img Trk World) (im : Img) : List Trk :=
  (env.tracks im).filter (fun t => decide (t ∈ r.points))

/-- `reconstructed_points_for_images` (677-692): images not in the reconstruction with their number
of reconstructed points, by decreasing number. -/
def candidates (env : Env Img Trk World) (r : Rec Img Trk World) (images : List Img) :
    List (Img × Nat) :=
  ((env.order (images.filter (fun im => decide (im ∉ r.shots)))).map
    (fun im => (im, (common env r im).length))).insertionSort (fun a b => b.2 ≤ a.2)

/-- Result of one `resect` call. -/
inductive Resection (Img Trk World : Type) where
  /-- an exception -/
  | raised
  /-- `False, set(), report`; RANSAC may have advanced the world -/
  | failed (r : Rec Img Trk World)
  /-- `True, new_shots, report` -/
  | ok (r : Rec Img Trk World) (step : Step Img)

/-- `resect` (695-762). -/
def resect (env : Env Img Trk World) (r : Rec Img Trk World) (im : Img) :
    Resection Img Trk World :=
  let ids := common env r im
  if ids.length < 5 then .failed r
  else
    let (inlier, world) := env.ransac r im
    let ninliers := (ids.filter inlier).length
    if env.minInliers ≤ ninliers then
      if im ∈ r.shots then .raised           -- the assertion, 745
      else
        match addShot env r.shots im with
        | none => .raised
        | some (shots, new) =>
          let (points, world) := env.resectAdd ⟨shots, r.points, world⟩ new
          .ok ⟨shots, points, world⟩ ⟨im, new, ids.length, ninliers⟩
    else .failed ⟨r.shots, r.points, world⟩

/-- The `for image, _ in candidates` loop (1497-1575): the first candidate that can be resected.
`failed` is the `else` branch of the loop. -/
def tryCandidates (env : Env Img Trk World) (r : Rec Img Trk World) :
    List (Img × Nat) → Resection Img Trk World
  | [] => .failed r
  | (im, _) :: rest =>
    match resect env r im with
    | .raised => .raised
    | .ok r' step => .ok r' step
    | .failed r' => tryCandidates env r' rest

/-- `set.__isub__` (1509, 1763). -/
def minus (images : List Img) (shots : List Img) : List Img :=
  images.filter (fun im => decide (im ∉ shots))

/-- Apply a numerical step: points and world change, shots do not. -/
def settle (r : Rec Img Trk World) (pw : List Trk × World) : Rec Img Trk World :=
  ⟨r.shots, pw.1, pw.2⟩

/-- Outcome of a loop. -/
inductive Outcome (α : Type) where
  /-- still running when the fuel was exhausted -/
  | running
  /-- an exception -/
  | raised
  | done (a : α)

/-- The `while True` loop of `grow_reconstruction` (1481-1577).  `fuel` bounds the iterations; it
is proved that it never runs out. -/
def growLoop (env : Env Img Trk World) :
    Nat → Rec Img Trk World → List Img → List (Step Img) →
      Outcome (Rec Img Trk World × List Img × List (Step Img))
  | 0, _, _, _ => .running
  | fuel + 1, r, images, steps =>
    match tryCandidates env r (candidates env r images) with
    | .raised => .raised
    | .failed r' => .done (r', images, steps)
    | .ok r' step =>
      growLoop env fuel (settle r' (env.growSettle r' step.images)) (minus images step.images)
        (steps ++ [step])

/-- `grow_reconstruction` (1457-1597).  The third component is the caller's set after the in-place
`images -= new_shots`. -/
def grow (env : Env Img Trk World) (fuel : Nat) (r : Rec Img Trk World) (images : List Img) :
    Outcome (Rec Img Trk World × List Img × List (Step Img)) :=
  match growLoop env fuel (settle r (env.growInit r)) images [] with
  | .running => .running
  | .raised => .raised
  | .done (r', images', steps) => .done (settle r' (env.growFinish r'), images', steps)

/-- `sorted(reconstructions, key=lambda x: -len(x.shots))` (1772). -/
def sortRecs (rs : List (Rec Img Trk World)) : List (Rec Img Trk World) :=
  rs.insertionSort (fun a b => b.shots.length ≤ a.shots.length)

/-- The `for im1, im2 in pairs` loop (1747-1772): reconstructions and remaining images. -/
def mainLoop (env : Env Img Trk World) (fuel : Nat) :
    List (Img × Img) → List (Rec Img Trk World) → List Img →
      Outcome (List (Rec Img Trk World) × List Img)
  | [], recs, remaining => .done (recs, remaining)
  | (im1, im2) :: pairs, recs, remaining =>
    if im1 ∈ remaining ∧ im2 ∈ remaining then
      match bootstrap env im1 im2 with
      | none => .raised
      | some none => mainLoop env fuel pairs recs remaining
      | some (some r) =>
        match grow env fuel r (minus remaining r.shots) with
        | .running => .running
        | .raised => .raised
        | .done (r', remaining', _) => mainLoop env fuel pairs (sortRecs (recs ++ [r'])) remaining'
    else mainLoop env fuel pairs recs remaining

/-- `incremental_reconstruction` (1712-1786): reconstructions and `not_reconstructed_images`. -/
def incremental (env : Env Img Trk World) (fuel : Nat) (pairs : List (Img × Img)) :
    Outcome (List (Rec Img Trk World) × List Img) :=
  mainLoop env fuel pairs [] env.images

end Verif.Inc
