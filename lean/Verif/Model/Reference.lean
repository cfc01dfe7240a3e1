import Mathlib.Algebra.Order.Field.Basic

/-!
# The reference position of a dataset

Model of `invent_reference_from_gps_and_gcp` (/repo/opensfm/dataset.py 996-1036), `init_reference`,
`save_reference`, `load_reference` and `reference_exists` (dataset.py 452-478).

Numbers are in an ordered field (the code uses doubles). An EXIF file is reduced to its `gps` entry
and the keys read here; a ground control point to its `lla` dictionary.
-/
namespace Verif.Reference

variable {F : Type} [Field F] [LinearOrder F]

/-- The `gps` dictionary of an image; `none` for a missing key. -/
structure Gps (F : Type) where
  latitude : Option F
  longitude : Option F
  dop : Option F

/-- A position: `TopocentricConverter(lat, lon, alt)`. -/
structure Ref (F : Type) where
  lat : F
  lon : F
  alt : F
  deriving DecidableEq

/-- The accumulators `lat, lon, wlat, wlon` (dataset.py 1003-1004). -/
structure Acc (F : Type) where
  lat : F
  lon : F
  wlat : F
  wlon : F

/-- The weight of an image (dataset.py 1010): `1.0 / max(0.01, gps.get("dop", 15))`; Python's `max`
returns its first argument unless the second is larger. -/
def weight (g : Gps F) : F :=
  let d := g.dop.getD 15
  1 / (if (1 / 100 : F) < d then d else 1 / 100)

/-- The body of the loop over images (dataset.py 1007-1014); `none`: no `gps` entry. -/
def addImage (a : Acc F) (d : Option (Gps F)) : Acc F :=
  match d with
  | none => a
  | some g =>
    match g.latitude, g.longitude with
    | some la, some lo =>
      ⟨a.lat + weight g * la, a.lon + weight g * lo, a.wlat + weight g, a.wlon + weight g⟩
    | _, _ => a

/-- The body of the loop over ground control points (dataset.py 1017-1022); `none`: empty `lla`. -/
def addGcp (a : Acc F) (l : Option (F × F)) : Acc F :=
  match l with
  | none => a
  | some (la, lo) => ⟨a.lat + la, a.lon + lo, a.wlat + 1, a.wlon + 1⟩

/-- `invent_reference_from_gps_and_gcp` (dataset.py 996-1029). -/
def invent (exifs : List (Option (Gps F))) (gcps : List (Option (F × F))) : Ref F :=
  let a := exifs.foldl addImage ⟨0, 0, 0, 0⟩
  let b := if a.wlat = 0 ∧ a.wlon = 0 then gcps.foldl addGcp a else a
  ⟨if b.wlat ≠ 0 then b.lat / b.wlat else b.lat, if b.wlon ≠ 0 then b.lon / b.wlon else b.lon, 0⟩

/-- The file `reference_lla.json`: `truncated` after `open(path, "wt")` and before the contents are
written (a process that dies there leaves this). -/
inductive File (F : Type) where
  | absent
  | truncated
  | saved (r : Ref F)
  deriving DecidableEq

/-- A dataset as far as the reference is concerned. -/
structure Data (F : Type) where
  images : List String
  exif : String → Option (Gps F)
  gcps : List (Option (F × F))
  file : File F

/-- `reference_exists` (dataset.py 477-478). -/
def Data.referenceExists (d : Data F) : Bool :=
  match d.file with
  | .absent => false
  | _ => true

/-- `save_reference` (dataset.py 458-466). -/
def Data.saveReference (d : Data F) (r : Ref F) : Data F := { d with file := .saved r }

/-- `init_reference(images)` (dataset.py 452-456). -/
def Data.initReference (d : Data F) (images : Option (List String)) : Data F :=
  if d.referenceExists then d
  else d.saveReference (invent ((images.getD d.images).map d.exif) d.gcps)

/-- `init_reference` in a process that dies while the file is written. -/
def Data.initReferenceCrash (d : Data F) : Data F :=
  if d.referenceExists then d else { d with file := .truncated }

/-- `load_reference` (dataset.py 468-475); `none`: the exception for a missing or unreadable file. -/
def Data.loadReference (d : Data F) : Option (Ref F) :=
  match d.file with
  | .saved r => some r
  | _ => none

/-- What happens to a dataset between two readings of the reference: the stages that initialise it
(reconstruction.py 1609, 1722; reconstruction_helpers.py 88; pairs_selection.py 611; rig.py 141;
actions/create_rig.py 41; actions/create_submodels.py 22), new EXIF data, images or ground control
points, and a process dying. -/
inductive Op (F : Type) where
  | init (images : Option (List String))
  | crash
  | setExif (e : String → Option (Gps F))
  | setImages (l : List String)
  | setGcps (l : List (Option (F × F)))

/-- Effect of one step. -/
def Data.step (d : Data F) : Op F → Data F
  | .init images => d.initReference images
  | .crash => d.initReferenceCrash
  | .setExif e => { d with exif := e }
  | .setImages l => { d with images := l }
  | .setGcps l => { d with gcps := l }

/-- A history. -/
def Data.run (d : Data F) (ops : List (Op F)) : Data F := ops.foldl Data.step d

end Verif.Reference
