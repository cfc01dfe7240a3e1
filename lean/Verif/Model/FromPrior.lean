import Verif.Model.MapCopy

/-!
Model of `reconstruct_from_prior` (/repo/opensfm/reconstruction.py:1789-1818), of the command around it
(/repo/opensfm/actions/reconstruct_from_prior.py:6-16), of `paint_reconstruction` (reconstruction.py:1393-1407) and of the
map side of `triangulate_shot_features` (reconstruction.py:1143-1183).

The triangulation of one track is an arbitrary function of the map and the track (C85, C86 say what it is); it reads the
shots only, which do not change while the points are made. `A` is the payload of an observation (coordinates, scale,
colour, labels). Following a pointer to nothing and an exception are `none`; a set is listed in any order.
-/
namespace Verif.FromPrior
open Verif.MapCopy

variable {Id A X C K B P D M R : Type} [DecidableEq Id]

/-- `reconstruction.cameras = rec_prior.cameras` (reconstruction.py:1802, types.py:54-56): every camera is created. -/
def copyCameras (df : Defaults B C D M R) (src m : FMap Id A X C K B P D M R) : FMap Id A X C K B P D M R :=
  src.cameras.foldl (fun m e => createCamera df m e.1 e.2) m

/-- A turn of the loop over the shots of the prior (reconstruction.py:1803-1804). -/
def priorStep [Group P] (df : Defaults B C D M R) (src m : FMap Id A X C K B P D M R) (e : Id × FShot Id A D M) :
    Option (FMap Id A X C K B P D M R) :=
  addShot df src m e.1 e.2

/-- Reference, cameras and shots of the prior (reconstruction.py:1795-1804). -/
def base [Group P] (df : Defaults B C D M R) (src : FMap Id A X C K B P D M R) : Option (FMap Id A X C K B P D M R) :=
  src.shots.foldlM (priorStep df src) (copyCameras df src { empty df with reference := src.reference })

/-- The tracks of an image, nothing when the image has none (reconstruction.py:1158-1164). -/
def tracksOfShot (tm : TM Id Id (Ob A)) (s : Id) : List Id :=
  match tm.getShotObservations s with
  | .ok obs => obs.keys
  | .error _ => []

/-- `tracks_ids` (reconstruction.py:1157-1164): the tracks of some images. -/
def tracksIds (order : List Id → List Id) (tm : TM Id Id (Ob A)) (shotIds : List Id) : List Id :=
  order ((shotIds.flatMap (tracksOfShot tm)).dedup)

/-- `store_inliers_observation` (reconstruction.py:890-893). -/
def storeInlier (tm : TM Id Id (Ob A)) (t : Id) (m : FMap Id A X C K B P D M R) (s : Id) :
    Option (FMap Id A X C K B P D M R) :=
  match tm.getObservation s t with
  | .error _ => none
  | .ok o => addObservation m s t o

/-- `store_track_coordinates` (reconstruction.py:886-888): `create_point` of a new point (types.py, map.cc:282-294). -/
def storePoint (df : Defaults B C D M R) (m : FMap Id A X C K B P D M R) (t : Id) (x : X) : FMap Id A X C K B P D M R :=
  { m with landmarks := m.landmarks.set t ⟨x, df.color, []⟩ }

/-- What a triangulated track does to the map: the point, then the observations of the inliers (reconstruction.py:1024-1029,
1067-1072). -/
def storeTrack (df : Defaults B C D M R) (tm : TM Id Id (Ob A)) (m : FMap Id A X C K B P D M R) (t : Id) :
    Option (X × List Id) → Option (FMap Id A X C K B P D M R)
  | none => some m
  | some r => r.2.foldlM (storeInlier tm t) (storePoint df m t r.1)

/-- A turn of the loop over the tracks (reconstruction.py:1165-1183). -/
def trackStep (df : Defaults B C D M R) (tm : TM Id Id (Ob A)) (tri : Id → Option (X × List Id))
    (m : FMap Id A X C K B P D M R) (t : Id) : Option (FMap Id A X C K B P D M R) :=
  if m.landmarks.has t then some m else storeTrack df tm m t (tri t)

/-- `triangulate_shot_features` (reconstruction.py:1143-1183). -/
def triangulateFeatures (df : Defaults B C D M R) (order : List Id → List Id) (tm : TM Id Id (Ob A))
    (tri : Id → Option (X × List Id)) (shotIds : List Id) (m : FMap Id A X C K B P D M R) :
    Option (FMap Id A X C K B P D M R) :=
  (tracksIds order tm shotIds).foldlM (trackStep df tm tri) m

/-- The colour of the first observation of a track (reconstruction.py:1400-1404). -/
def firstColor (color : A → C) (tm : TM Id Id (Ob A)) (t : Id) : Option C :=
  match tm.getTrackObservations t with
  | .ok (e :: _) => some (color e.2.data)
  | _ => none

/-- One point of `paint_reconstruction` (reconstruction.py:1399-1407). -/
def paintPoint (color : A → C) (tm : TM Id Id (Ob A)) (e : Id × FLm Id X C) : Option (Id × FLm Id X C) :=
  (firstColor color tm e.1).map fun c => (e.1, { e.2 with color := c })

/-- `paint_reconstruction` (reconstruction.py:1393-1407). -/
def paint (color : A → C) (tm : TM Id Id (Ob A)) (m : FMap Id A X C K B P D M R) :
    Option (FMap Id A X C K B P D M R) :=
  (m.landmarks.mapM (paintPoint color tm)).map fun l => { m with landmarks := l }

/-- The report (reconstruction.py:1798, 1808-1809, 1817). -/
structure Report (Id : Type) where
  numPrior : ℕ
  numRemaining : ℕ
  notReconstructed : List Id

/-- What is reported: of the images of the tracks, those that are not shots of the prior (reconstruction.py:1799, 1805-1809,
1817). -/
def report (order : List Id → List Id) (tm : TM Id Id (Ob A)) (src : FMap Id A X C K B P D M R) : Report Id :=
  let remaining := tm.getShotIds.filter (fun s => !src.shots.has s)
  ⟨src.shots.length, remaining.length, order remaining⟩

/-- `reconstruct_from_prior` (reconstruction.py:1789-1818). `order` lists the elements of a set. -/
def fromPrior [Group P] (df : Defaults B C D M R) (order : List Id → List Id) (color : A → C) (tm : TM Id Id (Ob A))
    (tri : FMap Id A X C K B P D M R → Id → Option (X × List Id)) (src : FMap Id A X C K B P D M R) :
    Option (Report Id × FMap Id A X C K B P D M R) :=
  (base df src).bind fun m =>
  (triangulateFeatures df order tm (tri m) (order src.shots.keys) m).bind fun m' =>
  (paint color tm m').map fun m'' => (report order tm src, m'')

/-- The command (actions/reconstruct_from_prior.py:6-16): what is saved, if anything. -/
def command [Group P] (df : Defaults B C D M R) (order : List Id → List Id) (color : A → C) (tm : TM Id Id (Ob A))
    (tri : FMap Id A X C K B P D M R → Id → Option (X × List Id)) (recs : List (FMap Id A X C K B P D M R)) :
    Option (Option (Report Id × List (FMap Id A X C K B P D M R))) :=
  match recs with
  | [] => some none
  | src :: _ => (fromPrior df order color tm tri src).map fun r => some (r.1, [r.2])

end Verif.FromPrior
