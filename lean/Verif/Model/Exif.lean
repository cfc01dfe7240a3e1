import Verif.Base.PyText
import Verif.Base.Dict
import Mathlib.Data.Rat.Floor
import Mathlib.Tactic.NormNum

/-!
# Model of EXIF decoding

`opensfm/exif.py`: `eval_frac`, `gps_to_decimal`, `get_tag_as_float`, `compute_focal` and the methods
`extract_image_size`, `extract_focal`, `extract_sensor_width`, `extract_orientation`,
`extract_altitude`, `extract_lon_lat`, `extract_geo`, `extract_capture_time` of `EXIF`.

Simplifications: numbers are exact rationals. The file formats (exifread, XMP) are not modelled: the
tags are a dictionary. `datetime.strptime` is an arbitrary function to seconds. `float(text)` is an
arbitrary function. An exception is `none` (the outer `none` when a function can also return `None`).
-/
namespace Verif.Exif
open Verif.PyText

/-- A member of a tag's `values`. -/
inductive Val
  | ratio (num den : ℤ)
  | int (n : ℤ)
  | other
  deriving DecidableEq

/-- A tag: a list of values, or text. -/
inductive Tag
  | vals (l : List Val)
  | text (s : List Char)
  deriving DecidableEq

/-- All tags of an image. -/
abbrev Tags := Dict String Tag

/-- `eval_frac` (exif.py:24-30). -/
def evalFrac : ℤ → ℤ → Option ℚ
  | n, d => if d = 0 then none else some ((n : ℚ) / (d : ℚ))

/-- `tags[key].values[i]`: `none` is the `KeyError` or `IndexError`. -/
def valueAt (tags : Tags) (key : String) (i : ℕ) : Option Val :=
  match tags.get? key with
  | some (.vals l) => l[i]?
  | _ => none

/-- `get_tag_as_float` (exif.py:45-59); the inner `none` is the result `None`. -/
def tagAsFloat (tags : Tags) (key : String) (i : ℕ) : Option (Option ℚ) :=
  match tags.get? key with
  | none => some none
  | some (.vals l) =>
    match l[i]? with
    | some (.ratio n d) => some (evalFrac n d)
    | some (.int n) => some (some (n : ℚ))
    | _ => none
  | some (.text _) => none

/-- `gps_to_decimal` (exif.py:33-43): `reference in "NE"` is a substring test. -/
def gpsToDecimal (values : List Val) (reference : List Char) : Option (Option ℚ) :=
  let sign : ℚ :=
    if reference = [] ∨ reference = ['N'] ∨ reference = ['E'] ∨ reference = ['N', 'E'] then 1 else -1
  match values with
  | .ratio n0 d0 :: .ratio n1 d1 :: .ratio n2 d2 :: _ =>
    match evalFrac n0 d0, evalFrac n1 d1, evalFrac n2 d2 with
    | some deg, some mins, some sec => some (some (sign * (deg + mins / 60 + sec / 3600)))
    | _, _, _ => some none
  | _ => none

/-- A Python number used as a condition: `None` and `0` are false. -/
def truthy : Option ℚ → Bool
  | some q => q ≠ 0
  | none => false

/-- `compute_focal` (exif.py:62-81). `sensors` is `sensor_data()`. -/
def computeFocal (sensors : Dict String ℚ) (focal35 focal width : Option ℚ)
    (sensorString : Option String) : ℚ × ℚ :=
  match focal35 with
  | some f => if f > 0 then (f, f / 36) else fallback
  | none => fallback
where
  /-- The branch without a 35 mm equivalent (exif.py:71-80). -/
  fallback : ℚ × ℚ :=
    let w : Option ℚ :=
      if truthy width then width
      else match sensorString with
        | some s => if s = "" then none else sensors.get? s
        | none => none
    match w, focal with
    | some w, some f => if w ≠ 0 ∧ f ≠ 0 then (36 * (f / w), f / w) else (0, 0)
    | _, _ => (0, 0)

/-- `extract_image_size` (exif.py:191-212): `(width, height)`; `loaded` is what the image loader
returns, `(height, width)`. -/
def imageSize (useExif : Bool) (tags : Tags) (loaded : ℤ × ℤ) : Option (ℤ × ℤ) :=
  let ints (a b : String) : Option (ℤ × ℤ) :=
    match valueAt tags a 0, valueAt tags b 0 with
    | some (.int w), some (.int h) => some (w, h)
    | _, _ => none
  if useExif && tags.has "EXIF ExifImageWidth" && tags.has "EXIF ExifImageLength" then
    ints "EXIF ExifImageWidth" "EXIF ExifImageLength"
  else if useExif && tags.has "Image ImageWidth" && tags.has "Image ImageLength" then
    ints "Image ImageWidth" "Image ImageLength"
  else some (loaded.2, loaded.1)

/-- `get_mm_per_unit` (exif.py:280-302). -/
def mmPerUnit (u : ℤ) : Option ℚ :=
  if u = 2 then some (254 / 10)
  else if u = 3 then some 10
  else if u = 4 then some 1
  else if u = 5 then some (1 / 1000)
  else none

/-- `extract_sensor_width` (exif.py:258-278). -/
def sensorWidth (tags : Tags) (width : ℤ) : Option (Option ℚ) :=
  if !tags.has "EXIF FocalPlaneResolutionUnit" || !tags.has "EXIF FocalPlaneXResolution" then some none
  else
    match valueAt tags "EXIF FocalPlaneResolutionUnit" 0 with
    | some (.int u) =>
      match mmPerUnit u with
      | none => some none
      | some mm =>
        match tagAsFloat tags "EXIF FocalPlaneXResolution" 0 with
        | none => none
        | some none => some none
        | some (some x) =>
          if x ≤ 0 then
            match tagAsFloat tags "EXIF FocalPlaneYResolution" 0 with
            | none => none
            | some none => some none
            | some (some y) => if y ≤ 0 then some none else some (some ((width : ℚ) * (1 / y) * mm))
          else some (some ((width : ℚ) * (1 / x) * mm))
    | _ => none

/-- `extract_orientation` (exif.py:304-310). -/
def orientation (tags : Tags) : Option ℤ :=
  match tags.get? "Image Orientation" with
  | none => some 1
  | some (.vals (.int v :: _)) => some (if v ≠ 0 then v else 1)
  | some (.vals (_ :: _)) => some 1
  | some (.vals []) => none
  | some (.text _) => some 1

/-- The XMP entries of a DJI drone that are used, already converted to numbers (exif.py:323-346). -/
structure Dji where
  lonLat : Option (ℚ × ℚ) := none
  altitude : Option ℚ := none

/-- The text of a reference tag, or the default (exif.py:312-321). -/
def refText (tags : Tags) (key : String) (default : List Char) : List Char :=
  match tags.get? key with
  | some (.text s) => s
  | _ => default

/-- `extract_lon_lat` (exif.py:348-357): `(lon, lat)`. -/
def lonLat (dji : Dji) (tags : Tags) : Option (Option ℚ × Option ℚ) :=
  match dji.lonLat with
  | some (lon, lat) => some (some lon, some lat)
  | none =>
    match tags.get? "GPS GPSLatitude" with
    | none => some (none, none)
    | some latTag =>
      match latTag, tags.get? "GPS GPSLongitude" with
      | .vals la, some (.vals lo) =>
        match gpsToDecimal la (refText tags "GPS GPSLatitudeRef" ['N']),
            gpsToDecimal lo (refText tags "GPS GPSLongitudeRef" ['E']) with
        | some lat, some lon => some (lon, lat)
        | _, _ => none
      | _, _ => none

/-- `extract_altitude` (exif.py:359-380). -/
def altitude (dji : Dji) (tags : Tags) : Option (Option ℚ) :=
  match dji.altitude with
  | some a => some (some a)
  | none =>
    match tags.get? "GPS GPSAltitude" with
    | none => some none
    | some _ =>
      match valueAt tags "GPS GPSAltitude" 0 with
      | none => none
      | some v =>
        let a : Option ℚ := match v with
          | .ratio n d => evalFrac n d
          | .int n => some (n : ℚ)
          | .other => none
        match tags.get? "GPS GPSAltitudeRef" with
        | none => some a
        | some _ =>
          match valueAt tags "GPS GPSAltitudeRef" 0 with
          | none => none
          | some r => if r = .int 1 then some (a.map (fun x => -x)) else some a

/-- `extract_dop` (exif.py:382-385). -/
def dop (tags : Tags) : Option (Option ℚ) :=
  match tags.get? "GPS GPSDOP" with
  | none => some none
  | some _ =>
    match valueAt tags "GPS GPSDOP" 0 with
    | some (.ratio n d) => some (evalFrac n d)
    | _ => none

/-- `maximum_altitude` (exif.py:21). -/
def maximumAltitude : ℚ := 10000

/-- `extract_geo` (exif.py:387-400). -/
def geo (dji : Dji) (tags : Tags) : Option (Dict String ℚ) :=
  match altitude dji tags, dop tags, lonLat dji tags with
  | some alt, some dp, some (lon, lat) =>
    some ((match lon, lat with
        | some lo, some la => [("latitude", la), ("longitude", lo)]
        | _, _ => [])
      ++ (match alt with
        | some a => [("altitude", min maximumAltitude a)]
        | none => [])
      ++ (match dp with
        | some d => [("dop", d)]
        | none => []))
  | _, _, _ => none

/-! ### Capture time -/

/-- The clock functions: `stamp` is `strptime(s, "%Y:%m:%d %H:%M:%S.%f")` in seconds since 1970, `gps`
is formatting date, hours, minutes and seconds and parsing the result (exif.py:413-423). -/
structure Clock where
  stamp : List Char → Option ℚ
  gps : List Char → ℤ → ℤ → ℚ → Option ℚ

/-- `int(x)` of a float: truncation. -/
def trunc (q : ℚ) : ℤ := q.num.tdiv q.den

/-- The GPS time (exif.py:403-428): the inner `none` when it is absent or invalid; an `IndexError`
is not caught. -/
def gpsTime (c : Clock) (tags : Tags) : Option (Option ℚ) :=
  match tags.get? "GPS GPSDate", tags.get? "GPS GPSTimeStamp" with
  | some date, some _ =>
    match tagAsFloat tags "GPS GPSTimeStamp" 0, tagAsFloat tags "GPS GPSTimeStamp" 1 with
    | some h, some m =>
      match h, m with
      | some h, some m =>
        match tagAsFloat tags "GPS GPSTimeStamp" 2 with
        | none => none
        | some none => some none
        | some (some s) =>
          match date with
          | .text d => some (c.gps d (trunc h) (trunc m) s)
          | .vals _ => some none
      | _, _ => some none
    | _, _ => none
  | _, _ => some none

/-- The shift by a time zone offset (exif.py:457-460): `hours=-int(s[0:3]), minutes=int(s[4:6])`, in
seconds; `none` is the caught exception. -/
def offsetShift (s : List Char) : Option ℚ :=
  match pyInt (s.take 3), pyInt ((s.drop 4).take 2) with
  | some h, some m => some (-(h : ℚ) * 3600 + (m : ℚ) * 60)
  | _, _ => none

/-- The fraction of a second (exif.py:438-441). -/
def subsec (tags : Tags) (key : String) : List Char :=
  match tags.get? key with
  | some (.text s) => s
  | _ => ['0']

/-- One of the three time tags (exif.py:436-478): `none` when absent or invalid. -/
def tagTime (c : Clock) (tags : Tags) (t : String × String × String) : Option ℚ :=
  match tags.get? t.1 with
  | some (.text d) =>
    match c.stamp (d ++ '.' :: subsec tags t.2.1) with
    | none => none
    | some x =>
      match tags.get? t.2.2 with
      | some (.text o) => some (x + (offsetShift o).getD 0)
      | _ => some x
  | _ => none

/-- `time_strings` (exif.py:430-434). -/
def timeStrings : List (String × String × String) :=
  [("EXIF DateTimeOriginal", "EXIF SubSecTimeOriginal", "EXIF Tag 0x9011"),
   ("EXIF DateTimeDigitized", "EXIF SubSecTimeDigitized", "EXIF Tag 0x9012"),
   ("Image DateTime", "Image SubSecTime", "Image Tag 0x9010")]

/-- `extract_capture_time` (exif.py:402-483). -/
def captureTime (c : Clock) (tags : Tags) : Option ℚ :=
  match gpsTime c tags with
  | none => none
  | some (some t) => some t
  | some none => some ((timeStrings.findSome? (tagTime c tags)).getD 0)

end Verif.Exif
