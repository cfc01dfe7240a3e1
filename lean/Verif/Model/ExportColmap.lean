import Verif.Model.TracksManager
import Verif.Model.Camera
import Mathlib.Data.Real.Sqrt

/-!
# COLMAP files

`/repo/opensfm/actions/export_colmap.py`. The tables of the database and the files are lists of rows; how a number is written is left out. An exception
is `none`. `nan` is `none` in a quaternion. Feature coordinates are exact reals (the database has 32-bit floats).
-/
namespace Verif.ExportColmap

variable {Id T C : Type} [DecidableEq Id] [DecidableEq T] [DecidableEq C]

/-- `MAX_IMAGE_ID` (export_colmap.py:107). -/
def maxImageId : ℕ := 2 ^ 31 - 1

/-- `image_ids_to_pair_id` (export_colmap.py:187-190). -/
def pairId (i j : ℕ) : ℕ := if i > j then j * maxImageId + i else i * maxImageId + j

/-- `pair_id_to_image_ids` (export_colmap.py:193-196). -/
def imageIds (p : ℕ) : ℕ × ℕ := ((p - p % maxImageId) / maxImageId, p % maxImageId)

/-! ### Cameras -/

/-- A camera: projection, size, and the parameters in the order of `Camera.project`. -/
structure Cam where
  kind : Camera.ProjType
  width : ℕ
  height : ℕ
  values : Camera.Ptr

/-- `COLMAP_ID_MAP` (export_colmap.py:365); a missing key raises. -/
def modelId : Camera.ProjType → Option ℕ
  | .brown => some 6
  | .perspective => some 3
  | .fisheye => some 9
  | .fisheyeOpencv => some 5
  | _ => none

/-- `camera_to_colmap_params` (export_colmap.py:368-401). The attributes of a camera are looked up in the order of its parameters
(camera.cc:9-66). -/
noncomputable def params (c : Cam) : Option (List ℝ) :=
  let n : ℝ := (max c.width c.height : ℕ)
  match c.kind with
  | .perspective | .fisheye => some [c.values 2 * n, c.width * (1 / 2), c.height * (1 / 2), c.values 0, c.values 1]
  | .brown =>
    some [c.values 5 * n, c.values 5 * n * c.values 6, c.width * (1 / 2) + n * c.values 7, c.height * (1 / 2) + n * c.values 8, c.values 0, c.values 1,
      c.values 3, c.values 4, c.values 2, 0, 0, 0]
  | .fisheyeOpencv =>
    some [c.values 4 * n, c.values 4 * n * c.values 5, c.width * (1 / 2) + c.values 6, c.height * (1 / 2) + c.values 7, c.values 0, c.values 1, c.values 2,
      c.values 3]
  | _ => none

/-- A row of the table of cameras, or a camera of `cameras.txt`. -/
structure CameraRow where
  id : ℕ
  model : ℕ
  width : ℕ
  height : ℕ
  params : List ℝ

/-- The row of a camera with an identifier (export_colmap.py:413-419, 503-519). -/
noncomputable def cameraRow (id : ℕ) (c : Cam) : Option CameraRow :=
  match params c, modelId c.kind with
  | some p, some m => some ⟨id, m, c.width, c.height, p⟩
  | _, _ => none

/-- The camera models, with the overrides (export_colmap.py:408-411). -/
def overridden (overrides : Option (Dict C Cam)) (e : C × Cam) : Cam :=
  match overrides with
  | none => e.2
  | some o => (o.get? e.1).getD e.2

/-- One camera model (export_colmap.py:408-420); identifiers are 1, 2, ... (`AUTOINCREMENT`). -/
noncomputable def addCamera (overrides : Option (Dict C Cam)) (acc : List CameraRow × Dict C ℕ) (e : C × Cam) : Option (List CameraRow × Dict C ℕ) :=
  (cameraRow (acc.1.length + 1) (overridden overrides e)).map fun row => (acc.1 ++ [row], acc.2.set e.1 (acc.1.length + 1))

/-- One image (export_colmap.py:423-427): a camera without identifier raises, and so does an image that is there already (`UNIQUE`). -/
def addImage (camera : Id → C) (cameraMap : Dict C ℕ) (acc : List (ℕ × Id × ℕ) × Dict Id ℕ) (i : Id) : Option (List (ℕ × Id × ℕ) × Dict Id ℕ) :=
  match cameraMap.get? (camera i) with
  | none => none
  | some c => if acc.2.has i then none else some (acc.1 ++ [(acc.1.length + 1, i, c)], acc.2.set i (acc.1.length + 1))

/-- The table of cameras and the identifiers of the cameras (export_colmap.py:407-420). -/
noncomputable def cameraTable (overrides : Option (Dict C Cam)) (models : Dict C Cam) : Option (List CameraRow × Dict C ℕ) :=
  models.foldlM (addCamera overrides) ([], [])

/-- The table of images and the identifiers of the images (export_colmap.py:422-430). -/
def imageTable (camera : Id → C) (cameraMap : Dict C ℕ) (images : List Id) : Option (List (ℕ × Id × ℕ) × Dict Id ℕ) :=
  images.foldlM (addImage camera cameraMap) ([], [])

/-! ### Features and matches -/

/-- `denormalized_image_coordinates` (features.py:334-341). -/
noncomputable def denormalized (w h : ℕ) (p : ℝ × ℝ) : ℝ × ℝ :=
  (p.1 * (max w h : ℕ) - 1 / 2 + w / 2, p.2 * (max w h : ℕ) - 1 / 2 + h / 2)

/-- One image of `export_features` (export_colmap.py:437-447): an image without features is left out. -/
noncomputable def addFeatures (size : Id → ℕ × ℕ) (feats : Id → Option (List (ℝ × ℝ))) (images : Dict Id ℕ)
    (acc : List (ℕ × List (ℝ × ℝ)) × Dict Id (List (ℝ × ℝ))) (i : Id) : Option (List (ℕ × List (ℝ × ℝ)) × Dict Id (List (ℝ × ℝ))) :=
  match feats i with
  | none => some acc
  | some f =>
    match images.get? i with
    | none => none
    | some n =>
      let p := f.map (denormalized (size i).1 (size i).2)
      some (acc.1 ++ [(n, p)], acc.2.set i p)

/-- `export_features` (export_colmap.py:433-448). -/
noncomputable def featureTable (size : Id → ℕ × ℕ) (feats : Id → Option (List (ℝ × ℝ))) (imageMap : Dict Id ℕ) (images : List Id) :
    Option (List (ℕ × List (ℝ × ℝ)) × Dict Id (List (ℝ × ℝ))) :=
  images.foldlM (addFeatures size feats imageMap) ([], [])

/-- The key of a pair of images (export_colmap.py:462): `min` and `max` of the names. -/
def pairKey (lt : Id → Id → Bool) (a b : Id) : Id × Id := (if lt b a then b else a, if lt a b then b else a)

/-- One match (export_colmap.py:464-470). -/
def addMatch (lt : Id → Id → Bool) (a b : Id) (acc : Dict (ℕ × ℕ) Bool) (m : ℕ × ℕ) : Dict (ℕ × ℕ) Bool :=
  if lt a b then acc.set (m.1, m.2) true else acc.set (m.2, m.1) true

/-- The matches of an image with another one (export_colmap.py:461-470). -/
def addPair (lt : Id → Id → Bool) (a : Id) (acc : Dict (Id × Id) (Dict (ℕ × ℕ) Bool)) (e : Id × List (ℕ × ℕ)) : Dict (Id × Id) (Dict (ℕ × ℕ) Bool) :=
  acc.set (pairKey lt a e.1) (e.2.foldl (addMatch lt a e.1) ((acc.get? (pairKey lt a e.1)).getD []))

/-- `matches_per_pair` (export_colmap.py:458-470). -/
def matchesPerPair (lt : Id → Id → Bool) (images : List Id) (found : Id → List (Id × List (ℕ × ℕ))) : Dict (Id × Id) (Dict (ℕ × ℕ) Bool) :=
  images.foldl (fun acc a => (found a).foldl (addPair lt a) acc) []

/-- A row of the tables of matches and of two-view geometries (both have the same matches). -/
structure GeometryRow (F : Type) where
  pair : ℕ
  pairs : List (ℕ × ℕ)
  F : F

/-- `add_two_view_geometry` and `add_matches` (export_colmap.py:304-352): the columns are swapped when the identifiers are not in order. -/
def geometryRow {F : Type} (i j : ℕ) (ms : List (ℕ × ℕ)) (f : F) : GeometryRow F :=
  ⟨pairId i j, if i > j then ms.map Prod.swap else ms, f⟩

/-- One pair of `export_matches` (export_colmap.py:473-486). `robust` is `matching.robust_match_fundamental`. -/
def addGeometry {F : Type} (robust : List (ℝ × ℝ) → List (ℝ × ℝ) → List (ℕ × ℕ) → F × List (ℕ × ℕ)) (feats : Dict Id (List (ℝ × ℝ))) (images : Dict Id ℕ)
    (acc : List (GeometryRow F)) (e : (Id × Id) × Dict (ℕ × ℕ) Bool) : Option (List (GeometryRow F)) :=
  if e.2.keys.length < 10 then some acc
  else
    match feats.get? e.1.1, feats.get? e.1.2 with
    | some p, some q =>
      let r := robust p q e.2.keys
      if r.2.length > 10 then
        match images.get? e.1.1, images.get? e.1.2 with
        | some i, some j => some (acc ++ [geometryRow i j r.2 r.1])
        | _, _ => none
      else some acc
    | _, _ => none

/-- `export_matches` (export_colmap.py:451-486). -/
def geometryTable {F : Type} (lt : Id → Id → Bool) (robust : List (ℝ × ℝ) → List (ℝ × ℝ) → List (ℕ × ℕ) → F × List (ℕ × ℕ)) (feats : Dict Id (List (ℝ × ℝ)))
    (imageMap : Dict Id ℕ) (images : List Id) (found : Id → List (Id × List (ℕ × ℕ))) : Option (List (GeometryRow F)) :=
  (matchesPerPair lt images found).foldlM (addGeometry robust feats imageMap) []

/-! ### Reconstructions -/

/-- What is read of a shot. -/
structure Shot (C : Type) where
  camera : C
  rotation : Fin 3 → ℝ
  translation : Fin 3 → ℝ

/-- What is read of a point. -/
structure Point where
  coords : Fin 3 → ℝ
  color : Fin 3 → ℤ

/-- A reconstruction. -/
structure Rec (Id T C : Type) where
  cameras : Dict C Cam
  shots : Dict Id (Shot C)
  points : Dict T Point

/-- The cameras of all the reconstructions (export_colmap.py:493-496): the last one with an identifier stays. -/
def allCameras (recs : List (Rec Id T C)) : Dict C Cam :=
  recs.foldl (fun acc r => r.cameras.foldl (fun a e => a.set e.1 e.2) acc) []

/-- `export_cameras_reconstruction` (export_colmap.py:489-525). -/
noncomputable def exportCameras (cameraMap : Dict C ℕ) (recs : List (Rec Id T C)) : Option (List CameraRow) :=
  (allCameras recs).mapM fun e =>
    match cameraMap.get? e.1 with
    | none => none
    | some i => cameraRow i e.2

/-- A point of `points3D.txt`. -/
structure PointRow where
  id : ℕ
  coords : Fin 3 → ℝ
  color : Fin 3 → ℤ
  track : List (ℕ × ℕ)

/-- One observation of a point (export_colmap.py:643-647). -/
def trackElement (r : Rec Id T C) (images : Dict Id ℕ) (acc : List (ℕ × ℕ)) (e : Id × ℕ) : Option (List (ℕ × ℕ)) :=
  if r.shots.has e.1 then
    match images.get? e.1 with
    | none => none
    | some i => some (acc ++ [(i, e.2)])
  else some acc

/-- One point (export_colmap.py:619-659): a binary file has bytes for the colour. -/
def addPoint (binary : Bool) (tm : TM Id T ℕ) (images : Dict Id ℕ) (r : Rec Id T C) (acc : List PointRow × Dict T ℕ) (p : T × Point) :
    Option (List PointRow × Dict T ℕ) :=
  if binary ∧ ¬ ∀ i, 0 ≤ p.2.color i ∧ p.2.color i < 256 then none
  else
    match tm.getTrackObservations p.1 with
    | .error _ => none
    | .ok d =>
      match d.foldlM (trackElement r images) [] with
      | none => none
      | some track => some (acc.1 ++ [⟨acc.1.length, p.2.coords, p.2.color, track⟩], acc.2.set p.1 acc.1.length)

/-- `export_points_reconstruction` (export_colmap.py:599-660). -/
def exportPoints (binary : Bool) (tm : TM Id T ℕ) (images : Dict Id ℕ) (recs : List (Rec Id T C)) : Option (List PointRow × Dict T ℕ) :=
  recs.foldlM (fun acc r => r.points.foldlM (addPoint binary tm images r) acc) ([], [])

/-- `angle_axis_to_quaternion` (export_colmap.py:663-675): zero divided by zero is `nan`. -/
noncomputable def quaternion (v : Fin 3 → ℝ) : Fin 4 → Option ℝ :=
  let a := Real.sqrt (v 0 * v 0 + v 1 * v 1 + v 2 * v 2)
  let w := Real.cos (a / 2)
  let s := Real.sqrt (1 - w * w)
  ![some w, if a = 0 then none else some (v 0 / a * s), if a = 0 then none else some (v 1 / a * s), if a = 0 then none else some (v 2 / a * s)]

/-- An image of `images.txt`. -/
structure ImageRow (Id : Type) where
  id : ℕ
  q : Fin 4 → Option ℝ
  t : Fin 3 → ℝ
  camera : ℕ
  name : Id
  points : List (ℝ × ℝ × ℕ)

/-- `point_per_feat` (export_colmap.py:567-570). -/
def pointPerFeat (d : Dict T ℕ) : Dict ℕ T := d.foldl (fun acc e => acc.set e.2 e.1) []

/-- One feature (export_colmap.py:573-583): only features with a point are written. -/
def addFeature (feat : List (ℝ × ℝ)) (perFeat : Dict ℕ T) (points : Dict T ℕ) (acc : List (ℝ × ℝ × ℕ)) (f : ℕ) : List (ℝ × ℝ × ℕ) :=
  match perFeat.get? f with
  | none => acc
  | some t =>
    match points.get? t with
    | none => acc
    | some p =>
      match feat[f]? with
      | none => acc
      | some x => acc ++ [(x.1, x.2, p)]

/-- One shot (export_colmap.py:546-596); a binary file has one byte for every character of the name. -/
noncomputable def addShot (binary : Bool) (ascii : Id → Bool) (tm : TM Id T ℕ) (cameras : Dict C ℕ) (images : Dict Id ℕ) (feats : Dict Id (List (ℝ × ℝ)))
    (points : Dict T ℕ) (acc : List (ImageRow Id)) (e : Id × Shot C) : Option (List (ImageRow Id)) :=
  if binary ∧ ascii e.1 = false then none
  else
    match cameras.get? e.2.camera, images.get? e.1, tm.getShotObservations e.1, feats.get? e.1 with
    | some c, some i, .ok d, some f =>
      some (acc ++ [⟨i, quaternion e.2.rotation, e.2.translation, c, e.1, (List.range f.length).foldl (addFeature f (pointPerFeat d) points) []⟩])
    | _, _, _, _ => none

/-- `export_images_reconstruction` (export_colmap.py:528-596). -/
noncomputable def exportImages (binary : Bool) (ascii : Id → Bool) (tm : TM Id T ℕ) (cameras : Dict C ℕ) (images : Dict Id ℕ) (feats : Dict Id (List (ℝ × ℝ)))
    (points : Dict T ℕ) (recs : List (Rec Id T C)) : Option (List (ImageRow Id)) :=
  recs.foldlM (fun acc r => r.shots.foldlM (addShot binary ascii tm cameras images feats points) acc) []

end Verif.ExportColmap
