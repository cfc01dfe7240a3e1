import Verif.Base.PyText
import Verif.Base.Json
import Verif.Model.ImageCoords

/-!
# Model of ground control points

`opensfm/io.py` 888-1061 (reading `gcp_list.txt`, reading and writing `ground_control_points.json`),
`opensfm/src/map/ground_control_points.h` and `opensfm/dataset.py` 627-641.

Simplifications: a floating point number is a rational or NaN (`none`); infinities are left out.
`float(word)` and the map projections of pyproj are arbitrary functions. Text files are lists of
lines of characters. An exception is `none`.
-/
namespace Verif.Gcp
open Verif.PyText

/-- A floating point number: a rational, or NaN. -/
abbrev Flt := Option ℚ

/-- `a == b` of two floats: NaN differs from everything. -/
def feq : Flt → Flt → Bool
  | some a, some b => a = b
  | _, _ => false

/-- `GroundControlPointObservation` (ground_control_points.h:15-29). -/
structure GObs (R : Type) where
  shot : String
  projection : R × R
  uid : ℕ := 0
  deriving DecidableEq

/-- `GroundControlPointRole` (ground_control_points.h:6-14). -/
inductive Role | optimization | metricsOnly
  deriving DecidableEq

/-- `GroundControlPoint` (ground_control_points.h:30-50). -/
structure Point (R : Type) where
  id : String := ""
  surveyId : ℕ := 0
  hasAltitude : Bool := false
  obs : List (GObs R) := []
  lla : Dict String R := []
  role : Role := .optimization
  deriving DecidableEq

/-- `GetLlaVec3d` (ground_control_points.h:52-58). -/
def llaVec {R : Type} [Zero R] (p : Point R) : Option (R × R × R) :=
  match p.lla.get? "latitude", p.lla.get? "longitude" with
  | some lat, some lon =>
    if p.hasAltitude then (p.lla.get? "altitude").map (fun a => (lat, lon, a)) else some (lat, lon, 0)
  | _, _ => none

/-! ### The list file -/

/-- What one line of the file says. -/
structure Entry where
  e : Flt
  n : Flt
  alt : Flt
  px : Flt
  py : Flt
  shot : String
  deriving DecidableEq

/-- The words of one line (io.py:895-900). -/
def parseLine (flt : List Char → Option Flt) (line : List Char) : Option Entry :=
  match splitN 5 line with
  | [a, b, c, x, y, r] =>
    match flt a, flt b, flt c, flt x, flt y, (words r).head? with
    | some e, some n, some alt, some px, some py, some s => some ⟨e, n, alt, px, py, String.ofList s⟩
    | _, _, _, _, _, _ => none
  | _ => none

/-- The key `(easting, northing, alt)` of the dictionary. -/
abbrev Key := Flt × Flt × Flt

/-- Two keys read from two lines are the same dictionary key: tuples are compared member by
member, and NaN objects of different lines are different objects. -/
def keyEq (a b : Key) : Bool := feq a.1 b.1 && feq a.2.1 b.2.1 && feq a.2.2 b.2.2

/-- The key of a line. -/
def Entry.key (x : Entry) : Key := (x.e, x.n, x.alt)

/-- `normalized_image_coordinates` on floats (io.py:926-929, features.py:324-331). -/
def normalizeF (w h : ℕ) (p : Flt × Flt) : Flt × Flt :=
  (p.1.map (fun x => (ImageCoords.normalize w h (x, 0)).1),
   p.2.map (fun y => (ImageCoords.normalize w h (0, y)).2))

/-- The observation made for a line (io.py:924-933). -/
def newObs (dims : ℕ × ℕ) (x : Entry) : GObs Flt :=
  { shot := x.shot, projection := normalizeF dims.1 dims.2 (x.px, x.py) }

/-- The position made for a line (io.py:908-918, 921). -/
def newLla (proj : Option (Flt → Flt → Flt × Flt)) (x : Entry) : Dict String Flt :=
  let alt : Flt := match x.alt with
    | none => some 0
    | some a => some a
  let ll : Flt × Flt := match proj with
    | some t => t x.e x.n
    | none => (x.n, x.e)
  [("latitude", ll.1), ("longitude", ll.2), ("altitude", alt)]

/-- `"unnamed-%d" % n`. -/
def unnamed (n : ℕ) : String := String.ofList ("unnamed-".toList ++ Text.fmtNat n)

/-- The point made for a line (io.py:919-922). -/
def newPoint (proj : Option (Flt → Flt → Flt × Flt)) (n : ℕ) (x : Entry) : Point Flt :=
  { id := unnamed n, hasAltitude := x.alt.isSome, lla := newLla proj x }

/-- `point.add_observation(o)`. -/
def addObs (o : GObs Flt) (p : Point Flt) : Point Flt := { p with obs := p.obs ++ [o] }

/-- `points[key].add_observation(o)`. -/
def addTo (k : Key) (o : GObs Flt) : List (Key × Point Flt) → List (Key × Point Flt)
  | [] => []
  | q :: qs => if keyEq q.1 k then (q.1, addObs o q.2) :: qs else q :: addTo k o qs

/-- One line of `_read_gcp_list_lines` (io.py:894-934). -/
def lineStep (flt : List Char → Option Flt) (proj : Option (Flt → Flt → Flt × Flt))
    (exifs : Dict String (ℕ × ℕ)) (pts : List (Key × Point Flt)) (line : List Char) :
    Option (List (Key × Point Flt)) :=
  match parseLine flt line with
  | none => none
  | some x =>
    match exifs.get? x.shot with
    | none => some pts
    | some dims =>
      if pts.any (fun q => keyEq q.1 x.key) then some (addTo x.key (newObs dims x) pts)
      else some (pts ++ [(x.key, addObs (newObs dims x) (newPoint proj pts.length x))])

/-- `_read_gcp_list_lines` (io.py:888-936). -/
def readLines (flt : List Char → Option Flt) (proj : Option (Flt → Flt → Flt × Flt))
    (exifs : Dict String (ℕ × ℕ)) (lines : List (List Char)) : Option (List (Point Flt)) :=
  (lines.foldlM (lineStep flt proj exifs) []).map (fun pts => pts.map Prod.snd)

/-- What the first line selects (`_parse_projection`, io.py:957-973). -/
inductive Crs
  | wgs84
  | utm (zone : ℤ) (north : Bool)
  | proj4 (s : List Char)
  | epsg (n : ℤ)
  deriving DecidableEq

/-- `_parse_utm_projection_string` (io.py:939-954): zone and hemisphere put into the proj4 string. -/
def parseUtm (line : List Char) : Option Crs :=
  match words line with
  | [_, _, z] =>
    let zone := upper z
    match zone.getLast? with
    | some 'N' => (pyInt zone.dropLast).map (fun n => .utm n true)
    | some 'S' => (pyInt zone.dropLast).map (fun n => .utm n false)
    | _ => (pyInt zone).map (fun n => .utm n true)
  | _ => none

/-- `_parse_projection` (io.py:957-973), without pyproj. -/
def parseProjection (line : List Char) : Option Crs :=
  if strip line = "WGS84".toList then some .wgs84
  else if "WGS84 UTM".toList.isPrefixOf (upper line) then parseUtm line
  else if line.tails.any ("+proj".toList.isPrefixOf ·) then some (.proj4 line)
  else if "EPSG:".toList.isPrefixOf (upper line) then
    match Text.splitAll ':' line with
    | _ :: n :: _ => (pyInt n).map .epsg
    | _ => none
  else none

/-- `_valid_gcp_line` (io.py:976-978). -/
def validLine (line : List Char) : Bool :=
  match strip line with
  | [] => false
  | c :: _ => c ≠ '#'

/-- `read_gcp_list` (io.py:981-993). `crs` gives the pyproj transformer (`none` inside: the identity
of `WGS84`). -/
def readList (flt : List Char → Option Flt) (crs : Crs → Option (Option (Flt → Flt → Flt × Flt)))
    (exifs : Dict String (ℕ × ℕ)) (file : List (List Char)) : Option (List (Point Flt)) :=
  match file.filter validLine with
  | [] => none
  | header :: rest =>
    match parseProjection header with
    | none => none
    | some c =>
      match crs c with
      | none => none
      | some t => readLines flt t exifs rest

/-! ### The JSON file -/

/-- `{"shot_id": .., "projection": ..}` (io.py:1052-1057). -/
def obsToJson (o : GObs ℚ) : J :=
  .obj [("shot_id", .str o.shot), ("projection", .ofNums [o.projection.1, o.projection.2])]

/-- The `position` entry (io.py:1040-1047): `none` is the `KeyError`. -/
def positionToJson (p : Point ℚ) : Option (List (String × J)) :=
  if p.lla = [] then some []
  else
    match p.lla.get? "latitude", p.lla.get? "longitude" with
    | some lat, some lon =>
      if p.hasAltitude then
        match p.lla.get? "altitude" with
        | some a => some [("position",
            .obj [("latitude", .num lat), ("longitude", .num lon), ("altitude", .num a)])]
        | none => none
      else some [("position", .obj [("latitude", .num lat), ("longitude", .num lon)])]
    | _, _ => none

/-- One point (io.py:1037-1059). -/
def pointToJson (p : Point ℚ) : Option J :=
  (positionToJson p).map (fun pos =>
    .obj (("id", .str p.id) :: pos ++ [("observations", .arr (p.obs.map obsToJson))]))

/-- `write_ground_control_points` (io.py:1030-1061). -/
def writePoints (l : List (Point ℚ)) : Option J :=
  (l.mapM pointToJson).map (fun ps => .obj [("points", .arr ps)])

/-- An observation (io.py:1011-1024). -/
def obsFromJson (j : J) : Option (GObs ℚ) :=
  match j.get? "shot_id" with
  | some (.str s) =>
    match j.get? "projection" with
    | none => some { shot := s, projection := (0, 0) }
    | some v =>
      match v.nums? with
      | some [x, y] => some { shot := s, projection := (x, y) }
      | _ => none
  | _ => none

/-- `point.lla = lla` for a dictionary of numbers. -/
def llaFromJson (l : List (String × J)) : Option (Dict String ℚ) :=
  l.mapM (fun q => q.2.num?.map (fun v => (q.1, v)))

/-- `point_dict.get("position")` and what is made of it (io.py:1004-1007). -/
def positionFromJson (j : J) : Option (Dict String ℚ × Bool) :=
  match j.get? "position" with
  | none => some ([], false)
  | some .null => some ([], false)
  | some (.obj []) => some ([], false)
  | some (.obj l) => (llaFromJson l).map (fun d => (d, d.has "altitude"))
  | _ => none

/-- One point (io.py:1001-1026). -/
def pointFromJson (j : J) : Option (Point ℚ) :=
  match j.get? "id", positionFromJson j, j.get? "observations" with
  | some (.str id), some (lla, ha), some (.arr os) =>
    (os.mapM obsFromJson).map (fun obs => { id := id, hasAltitude := ha, lla := lla, obs := obs })
  | _, _, _ => none

/-- `read_ground_control_points` (io.py:996-1027). -/
def readPoints (j : J) : Option (List (Point ℚ)) :=
  match j.get? "points" with
  | some (.arr l) => l.mapM pointFromJson
  | _ => none

end Verif.Gcp
