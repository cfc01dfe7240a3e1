import Verif.Base.Dict
import Verif.Base.Json
import Mathlib.Logic.Function.Iterate

/-!
# Model of the stage `extract_metadata`

`opensfm/actions/extract_metadata.py` 14-73 and the file operations of `opensfm/dataset.py` 263-274,
484-494. The stage is a machine whose steps are the effects on the disk that a crash can fall between:
`open(path, "w")` truncates a file, closing it completes it. A file between the two is `torn`; reading
it raises (no proper prefix of a JSON object is JSON).

Simplifications: reading the pixels, decoding EXIF and making a camera are parameters (`ext`, `camOf`);
`camOf` may keep state for the life of a process, as the calibration table does (C66). Directories and
logging are left out.
-/
namespace Verif.ExtractMetadata


/-- The metadata of an image. -/
abbrev Meta := Dict String J

/-- A file. -/
inductive File (α : Type)
  | torn
  | whole (a : α)

/-- The files of the data set that the stage writes. -/
structure Disk (Img C : Type) where
  exif : Img → Option (File Meta)
  cams : Option (File (Dict String C))

/-- What the stage reads and does not write. -/
structure Env (Img C T : Type) where
  /-- `data.images()` -/
  images : List Img
  /-- `_extract_exif` (extract_metadata.py:52-73), `none`: it raises. -/
  ext : Img → Option Meta
  /-- `exif_overrides.json` (`[]` if there is none) -/
  exifOv : Dict Img Meta
  /-- `exif.camera_from_exif_metadata`; the state of the process before and after -/
  camOf : T → Meta → Option C × T
  /-- the state of a new process -/
  t0 : T
  /-- `camera_models_overrides.json`, if it exists -/
  camOv : Option (Dict String C)
  /-- `camera.id = key` on a copy -/
  withId : String → C → C

/-- `d.update(o)`. -/
def update (d o : Meta) : Meta := o.foldl (fun d p => Dict.set d p.1 p.2) d

/-- `d["camera"]` (`none`: `KeyError`; camera names are strings). -/
def camId (d : Meta) : Option String :=
  match d.get? "camera" with
  | some (.str s) => some s
  | _ => none

variable {Img C T : Type} [DecidableEq Img]

/-- The metadata of an image that has no file yet (extract_metadata.py:28-32). -/
def fresh (e : Env Img C T) (i : Img) : Option Meta :=
  (e.ext i).map (fun d => match e.exifOv.get? i with
    | some o => update d o
    | none => d)

/-- Where a run is. -/
inductive Phase (Img : Type)
  /-- before `todo` of the loop -/
  | loop (todo : List Img)
  /-- the file of `i` is open -/
  | writing (i : Img) (d : Meta) (todo : List Img)
  /-- the file of the camera models is open -/
  | saving
  | done
  /-- an exception was raised -/
  | failed

/-- The state of a run. -/
structure St (Img C T : Type) where
  disk : Disk Img C
  phase : Phase Img
  models : Dict String C
  table : T

/-- A new run on a disk. -/
def start (e : Env Img C T) (d : Disk Img C) : St Img C T :=
  { disk := d, phase := .loop e.images, models := [], table := e.t0 }

/-- A file is written or opened. -/
def setExif (d : Disk Img C) (i : Img) (f : File Meta) : Disk Img C :=
  { d with exif := fun j => if j = i then some f else d.exif j }

/-- The end of an iteration (extract_metadata.py:36-38). -/
def endIter (e : Env Img C T) (s : St Img C T) (d : Meta) (todo : List Img) : St Img C T :=
  match camId d with
  | none => { s with phase := .failed }
  | some k =>
    if s.models.has k then { s with phase := .loop todo }
    else
      match e.camOf s.table d with
      | (none, t) => { s with phase := .failed, table := t }
      | (some c, t) => { s with phase := .loop todo, models := s.models.set k c, table := t }

/-- `camera_models_overrides.json` (extract_metadata.py:41-49). -/
def override (e : Env Img C T) (m : Dict String C) : Dict String C :=
  match e.camOv with
  | none => m
  | some o =>
    match o.get? "all" with
    | some c => Dict.mapVals (fun k _ => e.withId k c) m
    | none => o.foldl (fun m p => Dict.set m p.1 p.2) m

/-- One step of a run. -/
def step (e : Env Img C T) (s : St Img C T) : St Img C T :=
  match s.phase with
  | .loop [] => { s with disk := { s.disk with cams := some .torn }, phase := .saving }
  | .loop (i :: todo) =>
    match s.disk.exif i with
    | some (.whole d) => endIter e s d todo
    | some .torn => { s with phase := .failed }
    | none =>
      match fresh e i with
      | none => { s with phase := .failed }
      | some d => { s with disk := setExif s.disk i .torn, phase := .writing i d todo }
  | .writing i d todo => endIter e { s with disk := setExif s.disk i (.whole d) } d todo
  | .saving =>
    { s with disk := { s.disk with cams := some (.whole (override e s.models)) }, phase := .done }
  | .done => s
  | .failed => s

/-- `n` steps of a run on a disk: what a crash after `n` steps leaves. -/
def runN (e : Env Img C T) (n : Nat) (d : Disk Img C) : St Img C T := (step e)^[n] (start e d)

/-- A run to its end (`run_ends` shows that this many steps are enough). -/
def run (e : Env Img C T) (d : Disk Img C) : St Img C T := runN e (2 * e.images.length + 2) d

/-- Any number of runs, each stopped after any number of steps. -/
inductive Crashes (e : Env Img C T) : Disk Img C → Disk Img C → Prop
  | refl (d) : Crashes e d d
  | run {d d' : Disk Img C} (n : Nat) : Crashes e d d' → Crashes e d (runN e n d').disk

end Verif.ExtractMetadata
