import Verif.Base.PyText
import Verif.Base.Dict
import Mathlib.Data.Int.Notation
import Mathlib.Data.Nat.Notation

/-!
# Model of the camera identifiers

`opensfm/exif.py`: `sensor_string`, `camera_id_`, `get_gpano_from_xmp`, `extract_make`,
`extract_model`, `extract_projection_type`, and `_extract_exif` of `actions/extract_metadata.py`.

Simplifications: texts are lists of characters; `str.lower` changes the ASCII letters only;
`str(float(focal))` and the decoding of UTF-8 are given. An exception is `none`.
-/
namespace Verif.CameraIds
open Verif.Text Verif.PyText

/-- `s.lower()` (exif.py:89, 118), on the ASCII letters. -/
def lower (s : List Char) : List Char := s.map Char.toLower

/-- The scan of `s.replace(old, "")` (exif.py:88, 108) for an `old` which is not empty: `skip` characters of an
occurrence remain to be dropped. -/
def removeGo (old : List Char) : ℕ → List Char → List Char
  | _, [] => []
  | skip + 1, _ :: cs => removeGo old skip cs
  | 0, c :: cs => if old.isPrefixOf (c :: cs) then removeGo old (old.length - 1) cs else c :: removeGo old 0 cs

/-- `s.replace(old, "")` (exif.py:88, 108). -/
def remove (old s : List Char) : List Char :=
  if old = [] then s else removeGo old 0 s

/-- `"unknown"` (exif.py:86, 105). -/
def unknown : List Char := ['u', 'n', 'k', 'n', 'o', 'w', 'n']

/-- `if make != "unknown": model = model.replace(make, "")` (exif.py:86-88, 105-107). -/
def bareModel (make model : List Char) : List Char :=
  if make ≠ unknown then remove make model else model

/-- `sensor_string` (exif.py:85-89). -/
def sensorString (make model : List Char) : List Char :=
  lower (strip (strip make ++ ' ' :: strip (bareModel make model)))

/-- `camera_id_` (exif.py:102-118): `focal` is `str(float(focal))`. -/
def cameraId (make model : List Char) (width height : ℤ) (projection focal : List Char) : List Char :=
  lower (joinSep ' ' [['v', '2'], strip make, strip (bareModel make model), fmtInt width,
    fmtInt height, projection, focal.take 6])

/-- The value of a make or model tag (exif.py:214-223). -/
inductive Raw (B : Type)
  | bytes (b : B)
  | str (s : List Char)
  | other

/-- `_decode_make_model` (exif.py:214-223): `decode` is `bytes.decode("utf-8")`; `none` is the failed assertion. -/
def decodeMakeModel {B : Type} (decode : B → Option (List Char)) : Raw B → Option (List Char)
  | .bytes b => some ((decode b).getD unknown)
  | .str s => some s
  | .other => none

/-- The tag of the lens, else the one of the image, else `"unknown"` (exif.py:227-233, 237-243). -/
def lensOrImage {B : Type} (lens image : String) (tags : Dict String (Raw B)) : Raw B :=
  match tags.get? lens with
  | some v => v
  | none =>
    match tags.get? image with
    | some v => v
    | none => .str unknown

/-- `extract_make` (exif.py:225-233). -/
def extractMake {B : Type} (decode : B → Option (List Char)) (tags : Dict String (Raw B)) : Option (List Char) :=
  decodeMakeModel decode (lensOrImage "EXIF LensMake" "Image Make" tags)

/-- `extract_model` (exif.py:235-243). -/
def extractModel {B : Type} (decode : B → Option (List Char)) (tags : Dict String (Raw B)) : Option (List Char) :=
  decodeMakeModel decode (lensOrImage "EXIF LensModel" "Image Model" tags)

/-- `old in s` (exif.py:166). -/
def contains (old : List Char) : List Char → Bool
  | [] => old.isPrefixOf []
  | c :: cs => old.isPrefixOf (c :: cs) || contains old cs

/-- `"GPano" in k` (exif.py:166). -/
def isGPano (k : List Char) : Bool := contains ['G', 'P', 'a', 'n', 'o'] k

/-- One XMP description (exif.py:163-168). -/
abbrev Desc := Dict (List Char) (List Char)

/-- `get_gpano_from_xmp` (exif.py:163-168). -/
def gpano : List Desc → Desc
  | [] => []
  | i :: xmp => if i.any (fun kv => isGPano kv.1) then i else gpano xmp

/-- `"GPano:ProjectionType"` (exif.py:247). -/
def projectionKey : List Char :=
  ['G', 'P', 'a', 'n', 'o', ':', 'P', 'r', 'o', 'j', 'e', 'c', 't', 'i', 'o', 'n', 'T', 'y', 'p', 'e']

/-- `extract_projection_type` (exif.py:245-247). -/
def extractProjection (xmp : List Desc) : List Char :=
  ((gpano xmp).get? projectionKey).getD ['p', 'e', 'r', 's', 'p', 'e', 'c', 't', 'i', 'v', 'e']

/-- What identifies the camera of an image (extract_metadata.py:56-74): `focal` is `str(float(focal_ratio))`. -/
structure Ident where
  make : List Char
  model : List Char
  width : ℤ
  height : ℤ
  projection : List Char
  focal : List Char
  deriving DecidableEq

/-- `camera_id` (exif.py:92-99). -/
def Ident.id (d : Ident) : List Char := cameraId d.make d.model d.width d.height d.projection d.focal

/-- The configuration read by `_extract_exif` (extract_metadata.py:64-69). -/
structure Cfg where
  unknownDifferent : Bool
  defaultProjection : Option (List Char)

/-- `d["model"] = f"unknown_{image}"` (extract_metadata.py:64-67). -/
def modelOf (different : Bool) (image model : List Char) : List Char :=
  if different = true ∧ (model = [] ∨ model = unknown) then unknown ++ '_' :: image else model

/-- `if data.config.get("default_projection_type")` (extract_metadata.py:68-69). -/
def projectionOf (default : Option (List Char)) (projection : List Char) : List Char :=
  match default with
  | some (c :: cs) => c :: cs
  | _ => projection

/-- `_extract_exif` after reading the file (extract_metadata.py:64-74): the data and the `"camera"` entry. -/
def extractExif (cfg : Cfg) (image : List Char) (d : Ident) : Ident × List Char :=
  let d' := { d with model := modelOf cfg.unknownDifferent image d.model
                     projection := projectionOf cfg.defaultProjection d.projection }
  (d', d'.id)

end Verif.CameraIds
