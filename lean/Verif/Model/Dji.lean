import Verif.Model.Exif

/-!
# The position that a DJI drone writes in the XMP

`extract_dji_lon_lat`, `extract_dji_altitude`, `has_xmp`, `has_dji_latlon`, `has_dji_altitude` of `EXIF`
(`/repo/opensfm/exif.py` 323-346), and `extract_geo` with them. The XMP entries are dictionaries of texts; `float` is a
parameter (`none`: `ValueError`).
-/
namespace Verif.Exif

/-- An XMP entry, keys without their namespace and `@`. -/
abbrev Xmp := List (Dict String (List Char))

/-- One coordinate (325-330): the number after the first character, negated unless that character is `+`; an empty text raises. -/
def djiNumber (float : List Char → Option ℚ) : List Char → Option ℚ
  | [] => none
  | c :: rest => (float rest).map fun q => if c = '+' then q else -q

/-- `has_dji_latlon` and `extract_dji_lon_lat` (323-331, 339-344), on the first entry; outer `none`: an exception. -/
def djiLonLat (float : List Char → Option ℚ) (xmp : Xmp) : Option (Option (ℚ × ℚ)) :=
  match xmp with
  | [] => some none
  | e :: _ =>
    match e.get? "Latitude", e.get? "Longitude" with
    | some lat, some lon =>
      match djiNumber float lon, djiNumber float lat with
      | some x, some y => some (some (x, y))
      | _, _ => none
    | _, _ => some none

/-- `has_dji_altitude` and `extract_dji_altitude` (333-334, 346-347): here `float` takes the sign. -/
def djiAltitude (float : List Char → Option ℚ) (xmp : Xmp) : Option (Option ℚ) :=
  match xmp with
  | [] => some none
  | e :: _ =>
    match e.get? "AbsoluteAltitude" with
    | some a => (float a).map some
    | none => some none

/-- `extract_geo` (387-400) from the XMP and the tags. -/
def geoOf (float : List Char → Option ℚ) (xmp : Xmp) (tags : Tags) : Option (Dict String ℚ) :=
  match djiAltitude float xmp, djiLonLat float xmp with
  | some a, some l => geo { lonLat := l, altitude := a } tags
  | _, _ => none

end Verif.Exif
