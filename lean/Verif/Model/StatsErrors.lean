import Verif.Model.MapCopy
import Mathlib.Data.Real.Sqrt
import Mathlib.Data.Fintype.BigOperators
import Mathlib.Algebra.BigOperators.Group.List.Basic

/-!
# Errors and calibrations of the report

`/repo/opensfm/stats.py`: `_gps_errors`, `_gps_gcp_errors_stats`, `gps_errors`, `gcp_errors`, `cameras_statistics`, `rig_statistics`. The map
is that of `MapCopy`; a lookup that raises is `none`.
-/
namespace Verif.StatsErrors
open Verif.MapCopy

/-- A vector of three numbers. -/
abbrev V3 := Fin 3 → ℝ

variable {Id A X C K B P D M R : Type} [DecidableEq Id]

/-- `mean`, `std`, `error` per axis and `average_error` (stats.py:52-71). -/
structure ErrorStats where
  mean : V3
  std : V3
  error : V3
  average : ℝ

/-- `np.mean` of a list. -/
noncomputable def mean (l : List ℝ) : ℝ := l.sum / l.length

/-- `np.std` of a list: with the number of values, not one less. -/
noncomputable def std (l : List ℝ) : ℝ := Real.sqrt (mean (l.map fun x => (x - mean l) * (x - mean l)))

/-- `np.linalg.norm` of a row. -/
noncomputable def norm (v : V3) : ℝ := Real.sqrt (v 0 * v 0 + v 1 * v 1 + v 2 * v 2)

/-- `_gps_gcp_errors_stats` (stats.py:52-71); the empty dictionary is `none`. -/
noncomputable def errorStats (errors : List V3) : Option ErrorStats :=
  if errors.length = 0 then none
  else some
    { mean := fun i => mean (errors.map fun e => e i)
      std := fun i => std (errors.map fun e => e i)
      error := fun i => Real.sqrt (mean (errors.map fun e => e i * e i))
      average := mean (errors.map norm) }

/-- One shot of `_gps_errors` (stats.py:42-48): `gps` is the position of the shot if it has one, `origin` its optical centre, `transform` that of
a bias. -/
def gpsStep (gps : FShot Id A D M → Option V3) (origin : FMap Id A X C K B P D M R → FShot Id A D M → V3) (transform : B → V3 → V3)
    (r : FMap Id A X C K B P D M R) (acc : List V3) (sh : FShot Id A D M) : Option (List V3) :=
  match gps sh with
  | none => some acc
  | some g =>
    match r.bias.get? sh.camera with
    | none => none
    | some b => some (acc ++ [origin r sh - transform b g])

/-- `_gps_errors` (stats.py:40-49). -/
def gpsErrorsOf (gps : FShot Id A D M → Option V3) (origin : FMap Id A X C K B P D M R → FShot Id A D M → V3) (transform : B → V3 → V3)
    (r : FMap Id A X C K B P D M R) : Option (List V3) :=
  r.shots.vals.foldlM (gpsStep gps origin transform r) []

/-- One reconstruction of `gps_errors` (stats.py:76-77). -/
def gpsRec (gps : FShot Id A D M → Option V3) (origin : FMap Id A X C K B P D M R → FShot Id A D M → V3) (transform : B → V3 → V3)
    (acc : List V3) (r : FMap Id A X C K B P D M R) : Option (List V3) :=
  (gpsErrorsOf gps origin transform r).map fun e => acc ++ e

/-- The errors of `gps_errors` (stats.py:74-78). -/
def gpsErrors (gps : FShot Id A D M → Option V3) (origin : FMap Id A X C K B P D M R → FShot Id A D M → V3) (transform : B → V3 → V3)
    (recs : List (FMap Id A X C K B P D M R)) : Option (List V3) :=
  recs.foldlM (gpsRec gps origin transform) []

/-- The first reconstruction that triangulates a ground control point (stats.py:96-103). -/
def firstTriangulated {G Rec : Type} (triangulate : G → Rec → Option V3) (g : G) : List Rec → Option V3
  | [] => none
  | r :: t =>
    match triangulate g r with
    | none => firstTriangulated triangulate g t
    | some x => some x

/-- One ground control point (stats.py:91-108): `position` is where the point is in topocentric coordinates, `none` without `lla`. -/
def gcpStep {G Rec : Type} (triangulate : G → Rec → Option V3) (position : G → Option V3) (recs : List Rec) (acc : List V3) (g : G) : List V3 :=
  match position g with
  | none => acc
  | some enu =>
    match firstTriangulated triangulate g recs with
    | none => acc
    | some x => acc ++ [x - enu]

/-- The errors of `gcp_errors` (stats.py:81-110). -/
def gcpErrors {G Rec : Type} (triangulate : G → Rec → Option V3) (position : G → Option V3) (recs : List Rec) (gcps : List G) : List V3 :=
  gcps.foldl (gcpStep triangulate position recs) []

/-! ### Cameras and rigs -/

/-- The values of a camera: of the data, and of a reconstruction with its bias. -/
structure CamStats (K B : Type) where
  initial : K
  optimized : Option (K × B)
  deriving DecidableEq, Repr

/-- One camera of a reconstruction (stats.py:403-407): `stats[camera.id]` raises for an unknown camera. -/
def camStep (r : FMap Id A X C K B P D M R) (acc : Dict Id (CamStats K B)) (e : Id × K) : Option (Dict Id (CamStats K B)) :=
  match acc.get? e.1 with
  | none => none
  | some c =>
    match c.optimized with
    | some _ => some acc
    | none =>
      match r.bias.get? e.1 with
      | none => none
      | some b => some (acc.set e.1 { c with optimized := some (e.2, b) })

/-- One reconstruction (stats.py:401-407). -/
def camRec (recs : List (FMap Id A X C K B P D M R)) (acc : Dict Id (CamStats K B)) (i : ℕ) : Option (Dict Id (CamStats K B)) :=
  match recs[i]? with
  | none => none
  | some r => r.cameras.foldlM (camStep r) acc

/-- `if "optimized_values" not in stats[camera_id]: del stats[camera_id]` (stats.py:409-411). -/
def camDelete (acc : Dict Id (CamStats K B)) (c : Id) : Dict Id (CamStats K B) :=
  match acc.get? c with
  | none => acc
  | some x => if x.optimized.isSome then acc else acc.erase c

/-- `cameras_statistics` (stats.py:393-413): `data` are the camera models of the dataset, `perm` the result of `argsort`. -/
def camerasStatistics (data : Dict Id K) (perm : List ℕ) (recs : List (FMap Id A X C K B P D M R)) : Option (Dict Id (CamStats K B)) :=
  (perm.foldlM (camRec recs) (data.foldl (fun a e => a.set e.1 ⟨e.2, none⟩) [])).map fun d => data.keys.foldl camDelete d

/-- The values of a rig camera. -/
structure RigStats (P : Type) where
  initial : P
  optimized : Option P
  deriving DecidableEq, Repr

/-- One rig camera of a reconstruction (stats.py:436-444). -/
def rigStep (acc : Dict Id (RigStats P)) (e : Id × P) : Dict Id (RigStats P) :=
  match acc.get? e.1 with
  | none => acc
  | some c =>
    match c.optimized with
    | some _ => acc
    | none => acc.set e.1 { c with optimized := some e.2 }

/-- One reconstruction (stats.py:434-444). -/
def rigRec (recs : List (FMap Id A X C K B P D M R)) (acc : Dict Id (RigStats P)) (i : ℕ) : Option (Dict Id (RigStats P)) :=
  match recs[i]? with
  | none => none
  | some r => some (r.rigCameras.foldl rigStep acc)

/-- `del stats[rig_camera_id]` (stats.py:446-450). -/
def rigDelete (acc : Dict Id (RigStats P)) (c : Id) : Dict Id (RigStats P) :=
  match acc.get? c with
  | none => acc
  | some x => if x.optimized.isSome then acc else acc.erase c

/-- `rig_statistics` (stats.py:416-452): the rig cameras made for one camera, which have its name, are left out. -/
def rigStatistics (data : Dict Id P) (cameras : List Id) (perm : List ℕ) (recs : List (FMap Id A X C K B P D M R)) : Option (Dict Id (RigStats P)) :=
  (perm.foldlM (rigRec recs) (data.foldl (fun a e => if e.1 ∈ cameras then a else a.set e.1 ⟨e.2, none⟩) [])).map fun d => data.keys.foldl rigDelete d

end Verif.StatsErrors
