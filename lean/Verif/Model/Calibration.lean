import Verif.Base.PyText
import Verif.Model.CameraIO
import Mathlib.Data.Rat.Floor

/-!
# Model of the camera model made for an image

`opensfm/exif.py` 636-849 (`hard_coded_calibration` ... `camera_from_exif_metadata`) and
`opensfm/sensors.py` 17-22. `camera_calibration()` is read once per process (`lru_cache`) and
`calibration_from_metadata` stores the projection type in the dictionary it returns, so the table
is a state that the calls change.

Simplifications: numbers are exact rationals; names are lower-cased for ASCII letters only; a
calibration of the table is its numbers and its projection type. An exception is `none`.
-/
namespace Verif.Calibration
open Verif.CameraIO Verif.PyText

/-- A calibration dictionary. -/
structure Calib where
  params : Dict String ℚ
  ptype : Option String := none
  deriving DecidableEq

/-- An entry of `camera_calibration.yaml` for one maker. -/
structure Maker where
  all : Option Calib := none
  model : Option (Dict String Calib) := none
  focal : Option (Dict ℤ Calib) := none
  deriving DecidableEq

/-- `camera_calibration()[0]`. -/
abbrev Table := Dict String Maker

/-- `s.lower()`. -/
def lower (s : String) : String := String.ofList (s.toList.map Char.toLower)

/-- `s.strip().lower()`. -/
def norm (s : String) : String := String.ofList ((strip s.toList).map Char.toLower)

/-- The metadata of an image that is used. -/
structure ImgMeta where
  make : String
  model : String
  width : ℤ
  height : ℤ
  projection : String := "perspective"
  focalRatio : ℚ
  focalX : Option ℚ := none
  cx : Option ℚ := none
  cy : Option ℚ := none
  camera : String
  deriving DecidableEq

/-- `round(x)`: to the nearest integer, halves to even. -/
def pyRound (q : ℚ) : ℤ :=
  let f := ⌊q⌋
  if q - f < 1 / 2 then f else if q - f > 1 / 2 then f + 1 else if f % 2 = 0 then f else f + 1

/-- Where in the table a calibration comes from. -/
inductive Slot
  | all (make : String)
  | model (make name : String)
  | focal (make : String) (f : ℤ)
  deriving DecidableEq

/-- `hard_coded_calibration` (exif.py:636-655), with the place it was found at. -/
def hardCoded (t : Table) (m : ImgMeta) : Option (Slot × Calib) :=
  match t.get? (norm m.make) with
  | none => none
  | some mk =>
    match mk.all with
    | some c => some (.all (norm m.make), c)
    | none =>
      match mk.model with
      | some d => (d.get? (norm m.model)).map (fun c => (.model (norm m.make) (norm m.model), c))
      | none =>
        match mk.focal with
        | some d =>
          (d.get? (pyRound (m.focalRatio * 36))).map
            (fun c => (.focal (norm m.make) (pyRound (m.focalRatio * 36)), c))
        | none => none

/-- `focal_ratio_calibration` (exif.py:658-667). -/
def focalRatioCalib (m : ImgMeta) : Option Calib :=
  if m.focalRatio ≠ 0 then
    some { params := [("focal", m.focalRatio), ("k1", 0), ("k2", 0), ("p1", 0), ("p2", 0), ("k3", 0)] }
  else none

/-- `focal_xy_calibration` (exif.py:670-690). -/
def focalXyCalib (m : ImgMeta) : Option Calib :=
  let f := m.focalX.getD m.focalRatio
  if f ≠ 0 then
    some { params := [("focal_x", f), ("focal_y", f), ("c_x", m.cx.getD 0), ("c_y", m.cy.getD 0),
      ("k1", 0), ("k2", 0), ("p1", 0), ("p2", 0), ("k3", 0), ("k4", 0), ("k5", 0), ("k6", 0),
      ("s0", 0), ("s1", 0), ("s2", 0), ("s3", 0)] }
  else none

/-- `default_calibration` (exif.py:693-712). -/
def defaultCalib (prior : ℚ) : Calib where
  params := [("focal", prior), ("focal_x", prior), ("focal_y", prior), ("c_x", 0), ("c_y", 0),
    ("k1", 0), ("k2", 0), ("p1", 0), ("p2", 0), ("k3", 0), ("k4", 0), ("k5", 0), ("k6", 0),
    ("s0", 0), ("s1", 0), ("s2", 0), ("s3", 0)]

/-- The projection types with two focal lengths (exif.py:720-727). -/
def xyTypes : List String :=
  ["brown", "fisheye_opencv", "radial", "simple_radial", "fisheye62", "fisheye624"]

/-- `calib["projection_type"] = pt` on the dictionary at `s` of the table. -/
def setType (t : Table) (s : Slot) (pt : String) : Table :=
  match s with
  | .all mk => Dict.mapVals (fun k v =>
      if k = mk then { v with all := v.all.map (fun c => { c with ptype := some pt }) } else v) t
  | .model mk n => Dict.mapVals (fun k v =>
      if k = mk then { v with model := v.model.map (Dict.mapVals (fun k' c =>
        if k' = n then { c with ptype := some pt } else c)) } else v) t
  | .focal mk f => Dict.mapVals (fun k v =>
      if k = mk then { v with focal := v.focal.map (Dict.mapVals (fun k' c =>
        if k' = f then { c with ptype := some pt } else c)) } else v) t

/-- An empty dictionary counts as false in `a or b`. -/
def usable (c : Calib) : Bool := !(c.params.isEmpty && c.ptype.isNone)

/-- `calibration_from_metadata` (exif.py:715-741): the calibration and the table afterwards. -/
def calibration (prior : ℚ) (t : Table) (m : ImgMeta) : Calib × Table :=
  let pt := lower m.projection
  let own : Calib :=
    ((if pt ∈ xyTypes then focalXyCalib m else focalRatioCalib m).getD (defaultCalib prior))
  match hardCoded t m with
  | some (s, c) =>
    if usable c then
      match c.ptype with
      | some _ => (c, t)
      | none => ({ c with ptype := some pt }, setType t s pt)
    else ({ own with ptype := some pt }, t)
  | none => ({ own with ptype := some pt }, t)

/-- The camera of a calibration (exif.py:757-843): `none` is `KeyError`, `ZeroDivisionError` or
`ValueError`. -/
def buildCam (c : Calib) : Option Cam :=
  let g (k : String) : Option ℚ := c.params.get? k
  let pt := lower (c.ptype.getD "perspective")
  let affine (ks : List String) (f : ℚ → ℚ → ℚ × ℚ → List ℚ → Option Cam) : Option Cam :=
    match g "focal_x", g "focal_y", g "c_x", g "c_y", ks.mapM g with
    | some fx, some fy, some cx, some cy, some d => (pyDiv fy fx).bind (fun ar => f fx ar (cx, cy) d)
    | _, _, _, _, _ => none
  if pt = "perspective" then
    match g "focal", g "k1", g "k2" with
    | some f, some k1, some k2 => some (createPerspective f k1 k2)
    | _, _, _ => none
  else if pt = "brown" then affine ["k1", "k2", "k3", "p1", "p2"] createBrown
  else if pt = "fisheye" then
    match g "focal", g "k1", g "k2" with
    | some f, some k1, some k2 => some (createFisheye f k1 k2)
    | _, _, _ => none
  else if pt = "fisheye_opencv" then affine ["k1", "k2", "k3", "k4"] createFisheyeOpencv
  else if pt = "fisheye62" then
    affine ["k1", "k2", "k3", "k4", "k5", "k6", "p1", "p2"] createFisheye62
  else if pt = "fisheye624" then
    affine ["k1", "k2", "k3", "k4", "k5", "k6", "p1", "p2", "s0", "s1", "s2", "s3"] createFisheye624
  else if pt = "radial" then
    affine ["k1", "k2"] (fun f ar pp d => match d with
      | [a, b] => some (createRadial f ar pp (a, b))
      | _ => none)
  else if pt = "simple_radial" then
    affine ["k1"] (fun f ar pp d => match d with
      | [a] => some (createSimpleRadial f ar pp a)
      | _ => none)
  else if pt = "dual" then
    match g "transition", g "focal", g "k1", g "k2" with
    | some tr, some f, some k1, some k2 => some (createDual tr f k1 k2)
    | _, _, _, _ => none
  else if isPanorama pt then some createSpherical
  else none

/-- `camera_from_exif_metadata` (exif.py:744-849): the camera (`none`: an exception) and the table
afterwards. -/
def cameraFromExif (prior : ℚ) (t : Table) (m : ImgMeta) : Option Cam × Table :=
  let r := calibration prior t m
  ((buildCam r.1).map (fun c => { c with id := m.camera, width := m.width, height := m.height }), r.2)

/-- The table after a list of images. -/
def tableAfter (prior : ℚ) (t : Table) (l : List ImgMeta) : Table :=
  l.foldl (fun t m => (cameraFromExif prior t m).2) t

end Verif.Calibration
