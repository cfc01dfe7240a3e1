import Verif.Model.Calibration
import Verif.Model.Exif
import Mathlib.Analysis.SpecialFunctions.Complex.Arg
import Mathlib.Data.Real.Sqrt
import Mathlib.Algebra.Order.ToIntervalMod

/-!
# Model of geotagging from a GPX track

`opensfm/geotag_from_gpx.py`: `compute_bearing`, `interpolate_lat_lon`, `to_deg`, the EXIF values written
by `add_exif_using_timestamp`, `gpx_lerp`, `segment_sphere_intersection`, `time_next_point`,
`time_distance` and `sample_gpx`.

Simplifications: times are seconds and numbers are exact (rationals; reals where there are roots and
trigonometric functions). Reading the GPX file and writing the EXIF block are not modelled. An
exception is `none`.
-/
namespace Verif.Gpx

/-- A point of a track: time, latitude, longitude, elevation. -/
structure Pt where
  t : ℚ
  lat : ℚ
  lon : ℚ
  ele : Option ℚ
  deriving DecidableEq

/-- The loop of `interpolate_lat_lon` (geotag_from_gpx.py:136-143): the first point after `t` and the one
before it. -/
def enclosing (t : ℚ) : Option Pt → List Pt → Option (Pt × Pt)
  | _, [] => none
  | prev, p :: l => if t < p.t then some (prev.getD p, p) else enclosing t (some p) l

/-- `interpolate_lat_lon` (geotag_from_gpx.py:121-165) without the bearing: latitude, longitude, elevation
(the inner `none` is the elevation `None`), and the two points that the bearing is computed from. -/
def interpolate (points : List Pt) (t : ℚ) : Option (ℚ × ℚ × Option ℚ × Pt × Pt) :=
  match points.head?, points.getLast? with
  | some first, some last =>
    if t < first.t ∨ t ≥ last.t then none
    else
      match enclosing t none points with
      | none => none
      | some (before, after) =>
        let dtBefore := t - before.t
        let dtAfter := after.t - t
        if dtBefore + dtAfter = 0 then none
        else
          let mix (a b : ℚ) : ℚ := (a * dtAfter + b * dtBefore) / (dtBefore + dtAfter)
          match before.ele, after.ele with
          | none, _ => some (mix before.lat after.lat, mix before.lon after.lon, none, before, after)
          | some _, none => none
          | some a, some b =>
            some (mix before.lat after.lat, mix before.lon after.lon, some (mix a b), before, after)
  | _, _ => none

/-- The `dLong` adjustment (geotag_from_gpx.py:103-107). -/
noncomputable def wrapLong (d : ℝ) : ℝ :=
  if |d| > Real.pi then (if d > 0 then -(2 * Real.pi - d) else 2 * Real.pi + d) else d

/-- `math.radians`. -/
noncomputable def radians (x : ℝ) : ℝ := x * (Real.pi / 180)

/-- `compute_bearing` (geotag_from_gpx.py:86-116). `math.atan2(y, x)` is the argument of `x + y i` and
`a % 360.0` is in `[0, 360)`. -/
noncomputable def bearing (lat1 lon1 lat2 lon2 : ℝ) : ℝ :=
  let d := wrapLong (radians lon2 - radians lon1)
  let y := Real.sin d * Real.cos (radians lat2)
  let x := Real.cos (radians lat1) * Real.sin (radians lat2) -
    Real.sin (radians lat1) * Real.cos (radians lat2) * Real.cos d
  toIcoMod (by norm_num : (0 : ℝ) < 360) 0 (Complex.arg ⟨x, y⟩ * (180 / Real.pi) + 360)

/-- `round(x, 6)`. -/
def round6 (x : ℚ) : ℚ := (Calibration.pyRound (x * 1000000) : ℚ) / 1000000

/-- `to_deg` (geotag_from_gpx.py:168-183). -/
def toDeg (value : ℚ) (neg pos : List Char) : ℤ × ℤ × ℚ × List Char :=
  let ref := if value < 0 then neg else if value > 0 then pos else []
  let deg := ⌊|value|⌋
  let t1 := (|value| - deg) * 60
  let mint := ⌊t1⌋
  (deg, mint, round6 ((t1 - mint) * 60), ref)

/-- The rational numbers and the reference written to EXIF (geotag_from_gpx.py:360-384). -/
def exifDms (value : ℚ) (neg pos : List Char) : List Exif.Val × List Char :=
  let d := toDeg value neg pos
  ([.ratio d.1 1, .ratio d.2.1 1, .ratio ⌊d.2.2.1 * 1000000⌋ 1000000], d.2.2.2)

/-- `gpx_lerp` (geotag_from_gpx.py:186-197); it raises without elevations. -/
def lerp (alpha : ℚ) (a b : Pt) : Option Pt :=
  match a.ele, b.ele with
  | some ea, some eb =>
    some { t := a.t + alpha * (b.t - a.t)
           lat := (1 - alpha) * a.lat + alpha * b.lat
           lon := (1 - alpha) * a.lon + alpha * b.lon
           ele := some ((1 - alpha) * ea + alpha * eb) }
  | _, _ => none

/-- `time_distance` (geotag_from_gpx.py:246-250). -/
def timeDistance (a b : Pt) : ℚ := b.t - a.t

/-- `time_next_point` (geotag_from_gpx.py:234-243). -/
def timeNext (a b last : Pt) (dt : ℚ) : Option Pt :=
  let da := a.t - last.t
  let db := b.t - last.t
  if db - da = 0 then none else lerp ((dt - da) / (db - da)) a b

/-- The loop `while dx and dx_b >= dx` (geotag_from_gpx.py:281-285) in at most `n` rounds; `last` is the
last key point. The result is the new key points. -/
def fill (dist : Pt → Pt → ℚ) (next : Pt → Pt → Pt → ℚ → Option Pt) (dx : ℚ) (b : Pt) :
    ℕ → Pt → Pt → Option (List Pt)
  | 0, _, _ => none
  | n + 1, a, last =>
    if dx ≠ 0 ∧ dist last b ≥ dx then
      match next a b last dx with
      | none => none
      | some a' =>
        if |dx - dist last a'| < 1 / 10 then (fill dist next dx b n a' a').map (a' :: ·) else none
    else some []

/-- The loop over the points (geotag_from_gpx.py:278-285). -/
def sampleLoop (dist : Pt → Pt → ℚ) (next : Pt → Pt → Pt → ℚ → Option Pt) (dx : ℚ) (n : ℕ) :
    Pt → Pt → List Pt → Option (List Pt)
  | _, _, [] => some []
  | a, last, b :: l =>
    match fill dist next dx b n a last with
    | none => none
    | some ks => (sampleLoop dist next dx n b (ks.getLastD last) l).map (ks ++ ·)

/-- `sample_gpx` (geotag_from_gpx.py:260-287) with at most `n` rounds of each inner loop. -/
def sample (dist : Pt → Pt → ℚ) (next : Pt → Pt → Pt → ℚ → Option Pt) (dx : ℚ) (n : ℕ) :
    List Pt → Option (List Pt)
  | [] => none
  | p :: l => (sampleLoop dist next dx n p p l).map (p :: ·)

/-- The scalar product. -/
def dot3 (a b : Fin 3 → ℝ) : ℝ := a 0 * b 0 + a 1 * b 1 + a 2 * b 2

/-- `segment_sphere_intersection` (geotag_from_gpx.py:200-219). -/
noncomputable def sphereAlpha (A B C : Fin 3 → ℝ) (r : ℝ) : ℝ :=
  let ab := fun i => B i - A i
  let ca := fun i => A i - C i
  let a := dot3 ab ab
  let b := 2 * dot3 ab ca
  let c := dot3 ca ca - r ^ 2
  let d := max 0 (b ^ 2 - 4 * a * c)
  (-b + Real.sqrt d) / (2 * a)

end Verif.Gpx
