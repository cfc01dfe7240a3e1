import Verif.Model.TracksManager
import Verif.Model.Tracking
import Verif.Base.Dict
import Mathlib.Data.Real.Basic
import Mathlib.Data.Fin.VecNotation
import Mathlib.LinearAlgebra.Matrix.Notation

/-!
Model of the OpenMVS export (/repo/opensfm/actions/export_openmvs.py, /repo/opensfm/src/dense/openmvs_exporter.h) and of the visibility file of
the PMVS export (/repo/opensfm/actions/export_pmvs.py:91-165).

Simplifications: exact reals; the binary writer of OpenMVS and the images of PMVS are left out; a path is the shot it belongs to; an exception is
`none`; `R` and `C` of a pose are one value of a type `P`.
-/
set_option linter.unusedSectionVars false
namespace Verif.ExportScene

variable {Id C T P : Type} [DecidableEq Id] [DecidableEq C] [DecidableEq T]

/-- What the exporter reads of a camera (export_openmvs.py:36-46). -/
structure Cam where
  perspective : Bool
  focal : ℝ
  width : ℕ
  height : ℕ

/-- What it reads of a shot (export_openmvs.py:49-66): its camera, whether it has a mask file, its rotation and centre. -/
structure Shot (C P : Type) where
  camera : C
  hasMask : Bool
  pose : P

/-- A reconstruction. -/
structure Rec (Id C T P : Type) where
  cameras : Dict C Cam
  shots : Dict Id (Shot C P)
  points : Dict T (Fin 3 → ℝ)

/-- `MVS::Interface::Platform` with its only camera (openmvs_exporter.h:11-19). -/
structure Platform (C P : Type) where
  name : C
  K : Matrix (Fin 3) (Fin 3) ℝ
  width : ℕ
  height : ℕ
  poses : List P

/-- The path of a mask (export_openmvs.py:55-60): `os.path.abspath("")` is the working directory. -/
inductive MaskPath (Id : Type) where
  | file (i : Id)
  | workingDirectory

/-- `MVS::Interface::Image` (openmvs_exporter.h:39-44). -/
structure Image (Id : Type) where
  name : Id
  mask : MaskPath Id
  platformID : ℕ
  poseID : ℕ

/-- `MVS::Interface::Vertex` (openmvs_exporter.h:53-62). -/
structure Vertex where
  X : Fin 3 → ℝ
  views : List ℕ

/-- `OpenMVSExporter` (openmvs_exporter.h:71-74). -/
structure Exporter (Id C P : Type) where
  platforms : List (Platform C P)
  images : List (Image Id)
  vertices : List Vertex
  platformIds : Dict C ℕ
  imageIds : Dict Id ℕ

/-- `K` (export_openmvs.py:38-44). -/
noncomputable def calibration (c : Cam) : Matrix (Fin 3) (Fin 3) ℝ :=
  !![c.focal * (max c.width c.height : ℕ), 0, ((c.width : ℝ) - 1) / 2;
     0, c.focal * (max c.width c.height : ℕ), ((c.height : ℝ) - 1) / 2;
     0, 0, 1]

/-- `AddCamera` (openmvs_exporter.h:9-23), called for perspective cameras (export_openmvs.py:35-46). -/
noncomputable def addCamera (x : Exporter Id C P) (c : C × Cam) : Exporter Id C P :=
  if c.2.perspective then
    { x with
      platformIds := x.platformIds.set c.1 x.platforms.length
      platforms := x.platforms ++ [⟨c.1, calibration c.2, c.2.width, c.2.height, []⟩] }
  else x

/-- `poses.push_back` on a platform (openmvs_exporter.h:37). -/
def pushPose (p : P) (pl : Platform C P) : Platform C P := { pl with poses := pl.poses ++ [p] }

/-- `AddShot` (openmvs_exporter.h:25-48): `operator[]` of a missing camera gives 0. -/
def addImage (x : Exporter Id C P) (i : Id) (s : Shot C P) : Exporter Id C P :=
  let k := (x.platformIds.get? s.camera).getD 0
  { x with
    platforms := x.platforms.modify k (pushPose s.pose)
    imageIds := x.imageIds.set i x.images.length
    images := x.images ++ [⟨i, if s.hasMask then .file i else .workingDirectory, k,
      ((x.platforms[k]?).map (fun pl => pl.poses.length)).getD 0⟩] }

/-- `export_only` (export_openmvs.py:49-50, 71-74). -/
def exported (only : Option (List Id)) (i : Id) : Bool :=
  match only with
  | none => true
  | some l => decide (i ∈ l)

/-- `shot.camera.projection_type == "perspective"` (export_openmvs.py:53). -/
def isPerspective (cameras : Dict C Cam) (c : C) : Bool :=
  match cameras.get? c with
  | none => false
  | some cam => cam.perspective

/-- The loop over the shots (export_openmvs.py:48-66). -/
def addShot (cameras : Dict C Cam) (only : Option (List Id)) (x : Exporter Id C P) (e : Id × Shot C P) : Exporter Id C P :=
  if exported only e.1 then
    if isPerspective cameras e.2.camera then addImage x e.1 e.2 else x
  else x

/-- One view of a vertex (openmvs_exporter.h:55-61): `image_ids_[shot_id]` inserts 0 for a shot that is not there. -/
def addView (acc : Dict Id ℕ × List ℕ) (i : Id) : Dict Id ℕ × List ℕ :=
  (acc.1.insertNew i 0, acc.2 ++ [(acc.1.get? i).getD 0])

/-- `AddPoint` (openmvs_exporter.h:50-63). -/
def addVertex (x : Exporter Id C P) (c : Fin 3 → ℝ) (shots : List Id) : Exporter Id C P :=
  let r := shots.foldl addView (x.imageIds, [])
  { x with imageIds := r.1, vertices := x.vertices ++ [⟨c, r.2⟩] }

/-- The loop over the points (export_openmvs.py:68-79). -/
def addPoint {O : Type} (tm : TM Id T O) (only : Option (List Id)) (x : Exporter Id C P) (e : T × (Fin 3 → ℝ)) : Option (Exporter Id C P) :=
  match tm.getTrackObservations e.1 with
  | .error _ => none
  | .ok d =>
    let shots := d.keys.filter (exported only)
    if shots.isEmpty then some x else some (addVertex x e.2 shots)

/-- `export` (export_openmvs.py:28-82): what `scene.mvs` holds. -/
noncomputable def exportScene {O : Type} (tm : TM Id T O) (only : Option (List Id)) (r : Rec Id C T P) : Option (Exporter Id C P) :=
  r.points.foldlM (addPoint tm only) (r.shots.foldl (addShot r.cameras only) (r.cameras.foldl addCamera ⟨[], [], [], [], []⟩))

/-! ### PMVS -/

/-- The neighbours of a node and the weights (`image_graph[image]`, export_pmvs.py:108-110): every edge is kept at both ends. -/
def neighbours (edges : Dict (Id × Id) ℕ) (s : Id) : List (Id × ℕ) :=
  edges.filterMap (fun e => if e.1.1 = s then some (e.1.2, e.2) else if e.1.2 = s then some (e.1.1, e.2) else none)

/-- `adj_indices` (export_pmvs.py:107-112); a shot that is not a node raises `KeyError`. -/
def adjacent (graph : List Id × Dict (Id × Id) ℕ) (index : Dict Id ℕ) (s : Id) : Option (List ℕ) :=
  if s ∈ graph.1 then
    some ((neighbours graph.2 s).filterMap (fun n => if 0 < n.2 then index.get? n.1 else none))
  else none

/-- `shot_index` (export_pmvs.py:96). -/
def shotIndex (shots : List Id) : Dict Id ℕ := shots.zipIdx

/-- A line of `vis.dat` (export_pmvs.py:114-119): index, number of neighbours, neighbours. -/
abbrev VisLine := ℕ × ℕ × List ℕ

/-- The lines of the loop (export_pmvs.py:102-119): a graph without nodes is false. -/
def visLines (graph : Option (List Id × Dict (Id × Id) ℕ)) (shots : List Id) : Option (List VisLine) :=
  match graph with
  | none => some []
  | some g =>
    if g.1.isEmpty then some []
    else (shotIndex shots).mapM (fun e => (adjacent g (shotIndex shots) e.1).map (fun l => (e.2, l.length, l)))

/-- The files `vis.dat` (number of shots, lines) and the flag `useVisData` of `pmvs_txt` (export_pmvs.py:98-100, 160). -/
def pmvs (graph : Option (List Id × Dict (Id × Id) ℕ)) (shots : List Id) : Option (ℕ × List VisLine × Bool) :=
  (visLines graph shots).map (fun ls => ((shotIndex shots).length, ls, graph.isSome))

end Verif.ExportScene
