import Verif.Model.Angles

/-!
Model of the orientation of drone images: `EXIF.extract_opk` (/repo/opensfm/exif.py:485-607).

Simplifications: exact reals (without the sign of zero); the XMP data are the dictionaries found by `get_xmp`; `parse` is `float` on the
text of a tag, `none` for `ValueError`; the altitude is a number.
-/
set_option linter.unusedSectionVars false
namespace Verif.ExifOpk
open Matrix Verif.Superimpose Verif.AlignPrior
open Verif.Geo (arctan2 degrees radians ecefFromLla)

/-- What `extract_opk` reads of `geo` (exif.py:488, 565-579). -/
structure GeoTag where
  lat : Option ℝ
  lon : Option ℝ
  alt : Option ℝ

/-- Three tags read with `float` (exif.py:505-511, 518-524); `none`: one of them is not a number. -/
def readThree (parse : String → Option ℝ) (a b c : String) : Option (Vec 3) :=
  match parse a, parse b, parse c with
  | some u, some v, some w => some ![u, v, w]
  | _, _, _ => none

/-- Yaw, pitch and roll in degrees (exif.py:489-531). -/
def ypr (parse : String → Option ℝ) (x : String → Option String) : Option (Vec 3) :=
  match x "@Camera:Yaw", x "@Camera:Pitch", x "@Camera:Roll" with
  | some a, some b, some c => readThree parse a b c
  | _, _, _ =>
    match x "@drone-dji:GimbalYawDegree", x "@drone-dji:GimbalPitchDegree", x "@drone-dji:GimbalRollDegree" with
    | some a, some b, some c => (readThree parse a b c).map fun v => ![v 0, v 1 + 90, v 2]
    | _, _, _ => none

/-- `cnb` (exif.py:542-557). -/
noncomputable def cnb (y p r : ℝ) : Mat 3 :=
  !![Real.cos y * Real.cos p, Real.cos y * Real.sin p * Real.sin r - Real.sin y * Real.cos r,
      Real.cos y * Real.sin p * Real.cos r + Real.sin y * Real.sin r;
    Real.sin y * Real.cos p, Real.sin y * Real.sin p * Real.sin r + Real.cos y * Real.cos r,
      Real.sin y * Real.sin p * Real.cos r - Real.cos y * Real.sin r;
    -Real.sin p, Real.cos p * Real.sin r, Real.cos p * Real.cos r]

/-- `cbb` (exif.py:565). -/
def cbb : Mat 3 := !![0, 1, 0; 1, 0, 0; 0, 0, -1]

/-- `delta` (exif.py:567). -/
noncomputable def delta : ℝ := 1 / 10000000

/-- `xnp` before it is normalised (exif.py:569-583). -/
noncomputable def north (lat lon alt : ℝ) : Vec 3 :=
  ecefFromLla (lat + delta) lon alt - ecefFromLla (lat - delta) lon alt

/-- `cen` (exif.py:593-596). -/
def cen (xnp : Vec 3) : Mat 3 :=
  let znp : Vec 3 := ![0, 0, -1]
  Angles.columns xnp (cross znp xnp) znp

open Classical in
/-- The angles for yaw, pitch and roll in degrees at a place (exif.py:533-605). -/
noncomputable def opkOf (lat lon alt : ℝ) (v : Vec 3) : Option (ℝ × ℝ × ℝ) :=
  let xnp := north lat lon alt
  let m := AlignPrior.norm xnp
  if m = 0 then none
  else
    let ceb := cen ((1 / m) • xnp) * cnb (radians (v 0)) (radians (v 1)) (radians (v 2)) * cbb
    some (degrees (arctan2 (-ceb 1 2) (ceb 2 2)), degrees (Real.arcsin (ceb 0 2)), degrees (arctan2 (-ceb 0 1) (ceb 0 0)))

/-- `EXIF.extract_opk` (exif.py:485-607). -/
noncomputable def extractOpk (parse : String → Option ℝ) (xmp : List (String → Option String)) (geo : GeoTag) : Option (ℝ × ℝ × ℝ) :=
  match xmp, geo.lat, geo.lon with
  | x :: _, some lat, some lon => (ypr parse x).bind fun v => opkOf lat lon (geo.alt.getD 0) v
  | _, _, _ => none

end Verif.ExifOpk
