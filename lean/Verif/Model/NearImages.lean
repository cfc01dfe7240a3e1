import Verif.Model.PairsSelection
import Verif.Model.Angles

/-!
Model of the choice of images to match by position and by time: `get_gps_point`, `get_gps_opk_point`, `find_best_altitude`,
`get_representative_points`, `match_candidates_by_distance` (/repo/opensfm/pairs_selection.py:35-212), the points of
`match_candidates_by_graph` (234-241), `match_candidates_by_time` (526-559) and `preempt_candidates` (433-468).

Simplifications: exact reals; `reference.to_topocentric`, `np.polyfit` and the KD-tree of SciPy are parameters; a quotient by
zero is a failure, where NumPy goes on with `nan` or infinities; the fields of the metadata that these functions do not read are left out.
-/
set_option linter.unusedSectionVars false
namespace Verif.NearImages
open Verif.Superimpose Verif.PairsSelection
open Verif.Geo (radians)
variable {Id : Type} [LinearOrder Id]

/-- What is read of the metadata of an image (pairs_selection.py:126-134): latitude and longitude when both are there, omega,
phi and kappa in degrees, and whether there is yaw, pitch and roll. -/
structure Tags where
  gps : Option (ℝ × ℝ)
  opk : Option (ℝ × ℝ × ℝ)
  ypr : Bool

/-- How the choice of points fails. -/
inductive Failure where
  /-- the `RuntimeError` for images with yaw, pitch and roll (pairs_selection.py:137-140) -/
  | unsupported
  /-- the `KeyError` for an image without position (pairs_selection.py:147) -/
  | missing
  /-- a quotient by zero (pairs_selection.py:74, 105) -/
  | undefined
deriving DecidableEq

/-- `get_gps_point` (pairs_selection.py:35-45): a point at altitude 0 and a direction. -/
def gpsPoint (topo : ℝ → ℝ → ℝ → Vec 3) (lat lon : ℝ) : Vec 3 × Vec 3 := (topo lat lon 0, ![0, 0, 1])

/-- `DEFAULT_Z` (pairs_selection.py:48). -/
def defaultZ : ℝ := 1

open Classical in
/-- `sign` (pairs_selection.py:53-55). -/
noncomputable def sign (x : ℝ) : ℝ := if x > 0 then 1 else -1

open Classical in
/-- `get_gps_opk_point` (pairs_selection.py:58-74). -/
noncomputable def gpsOpkPoint (topo : ℝ → ℝ → ℝ → Vec 3) (lat lon : ℝ) (opk : ℝ × ℝ × ℝ) : Option (Vec 3 × Vec 3) :=
  let R := Angles.rotationFromOpk (radians opk.1) (radians opk.2.1) (radians opk.2.2)
  let z : Vec 3 := R 2
  if sign (z 2) * z 2 = 0 then none
  else some ((gpsPoint topo lat lon).1, defaultZ • ((1 / (sign (z 2) * z 2)) • z))

/-- Point and direction of one image (pairs_selection.py:124-141). -/
noncomputable def locate (topo : ℝ → ℝ → ℝ → Vec 3) (t : Tags) : Except Failure (Option (Vec 3 × Vec 3)) :=
  match t.gps with
  | none => .ok none
  | some (lat, lon) =>
    if t.ypr then .error .unsupported
    else
      match t.opk with
      | none => .ok (some (gpsPoint topo lat lon))
      | some opk =>
        match gpsOpkPoint topo lat lon opk with
        | none => .error .undefined
        | some p => .ok (some p)

/-- The loop over the images (pairs_selection.py:123-141). -/
noncomputable def locateAll (topo : ℝ → ℝ → ℝ → Vec 3) (tags : Id → Tags) :
    List Id → Dict Id (Vec 3 × Vec 3) → Except Failure (Dict Id (Vec 3 × Vec 3))
  | [], d => .ok d
  | i :: is, d =>
    match locate topo (tags i) with
    | .error e => .error e
    | .ok none => locateAll topo tags is d
    | .ok (some p) => locateAll topo tags is (d.set i p)

/-- Largest minus smallest number (pairs_selection.py:95-97). -/
noncomputable def spread : List ℝ → ℝ
  | [] => 0
  | a :: l => l.foldl max a - l.foldl min a

/-- `current_size` (pairs_selection.py:94-97). -/
noncomputable def sizeAt (l : List (Vec 3 × Vec 3)) (z : ℝ) : ℝ :=
  spread (l.map (fun p => (p.1 + (z / defaultZ) • p.2) 0)) ^ 2 + spread (l.map (fun p => (p.1 + (z / defaultZ) • p.2) 1)) ^ 2

/-- `range(1, MAXIMUM_Z, SAMPLE_Z)` (pairs_selection.py:49-50, 93). -/
def sampleZ : List ℝ := (List.range 80).map (fun i : ℕ => 1 + 100 * (i : ℝ))

open Classical in
/-- `find_best_altitude` (pairs_selection.py:77-110); `fit` is `np.polyfit(…, 2)`. -/
noncomputable def bestAltitude (fit : List (ℝ × ℝ) → ℝ × ℝ × ℝ) (l : List (Vec 3 × Vec 3)) : Option ℝ :=
  let c := fit (sampleZ.map (fun z => (z, sizeAt l z)))
  if 2 * c.1 = 0 then none
  else
    let e := -c.2.1 / (2 * c.1)
    some (if e < 0 then defaultZ else e)

/-- `had_orientation` (pairs_selection.py:122, 134). -/
def hadOrientation (tags : Id → Tags) (images : List Id) : Bool :=
  images.any (fun i => (tags i).gps.isSome && ((tags i).opk.isSome || (tags i).ypr))

/-- The points of `{k: origin[k] + directions_scaled[k] for k in images}` (pairs_selection.py:146-147). -/
noncomputable def moved (d : Dict Id (Vec 3 × Vec 3)) (altitude : ℝ) : List Id → Dict Id (Vec 3) → Except Failure (Dict Id (Vec 3))
  | [], r => .ok r
  | i :: is, r =>
    match d.get? i with
    | none => .error .missing
    | some p => moved d altitude is (r.set i (p.1 + (altitude / defaultZ) • p.2))

/-- `get_representative_points` (pairs_selection.py:113-151). -/
noncomputable def representative (topo : ℝ → ℝ → ℝ → Vec 3) (fit : List (ℝ × ℝ) → ℝ × ℝ × ℝ) (tags : Id → Tags) (images : List Id) :
    Except Failure (Dict Id (Vec 3)) :=
  match locateAll topo tags images [] with
  | .error e => .error e
  | .ok d =>
    if hadOrientation tags images then
      match bestAltitude fit d.vals with
      | none => .error .undefined
      | some a => moved d a images []
    else .ok (d.mapVals (fun _ p => p.1))

/-- The rows of the tree (pairs_selection.py:188-190): the candidates, then rows of zeros. -/
def rows (cand : List Id) (points : Dict Id (Vec 3)) (j : ℕ) : Vec 3 :=
  match cand[j]? with
  | none => 0
  | some c => (points.get? c).getD 0

/-- The loop over the images (pairs_selection.py:194-211); `tree rows n x k bound` is the answer of the KD-tree. -/
def distanceLoop (tree : (ℕ → Vec 3) → ℕ → Vec 3 → ℕ → ℝ → List ℕ) (cand : List Id) (points : Dict Id (Vec 3)) (k : ℕ) (bound : ℝ)
    (refs : List Id) : List (Id × Id) :=
  refs.foldl (fun ps r => queryLoop cand r
    (tree (rows cand points) points.length ((points.get? r).getD 0) (if r ∈ cand then k + 1 else k) bound) ps) []

open Classical in
/-- `match_candidates_by_distance` (pairs_selection.py:154-212). -/
noncomputable def byDistance (topo : ℝ → ℝ → ℝ → Vec 3) (fit : List (ℝ × ℝ) → ℝ × ℝ × ℝ) (tags : Id → Tags)
    (tree : (ℕ → Vec 3) → ℕ → Vec 3 → ℕ → ℝ → List ℕ) (refs cand : List Id) (maxNeighbors : ℤ) (maxDistance : ℝ) :
    Except Failure (List (Id × Id)) :=
  if cand.length = 0 then .ok []
  else if maxNeighbors ≤ 0 ∧ maxDistance ≤ 0 then .ok []
  else
    let maxNeighbors : ℤ := if maxNeighbors = 0 then 99999999 else maxNeighbors
    let maxDistance : ℝ := if maxDistance = 0 then 99999999 else maxDistance
    let k := (min (cand.length : ℤ) maxNeighbors).toNat
    match representative topo fit tags (cand ++ refs) with
    | .error e => .error e
    | .ok points =>
      if points.length ≠ (cand ++ refs).dedup.length then .ok []
      else .ok (distanceLoop tree cand points k maxDistance refs)

/-- `match_candidates_by_time` (pairs_selection.py:526-559), with the tree of the capture times. -/
def byTime (tree : (ℕ → ℝ) → ℕ → ℝ → ℕ → List ℕ) (time : Id → ℝ) (refs cand : List Id) (maxNeighbors : ℤ) : List (Id × Id) :=
  if maxNeighbors ≤ 0 then []
  else
    let k := (min (cand.length : ℤ) maxNeighbors).toNat
    refs.foldl (fun ps r => queryLoop cand r
      (tree (fun j => match cand[j]? with
        | none => 0
        | some c => time c) cand.length (time r) (if r ∈ cand then k + 1 else k)) ps) []

/-- The rows of the triangulation (pairs_selection.py:238-240): the points in the order of the dictionary, then zeros. -/
def graphRows (images : List Id) (points : Dict Id (Vec 3)) : List (ℝ × ℝ) :=
  points.vals.map (fun p => (p 0, p 1)) ++ List.replicate (images.length - points.length) (0, 0)

/-- The step of the loop over the pairs in `preempt_candidates` (pairs_selection.py:457-461). -/
def preemptStep (refs : List Id) (d : Dict Id (List Id)) (p : Id × Id) : Dict Id (List Id) :=
  let d := if p.1 ∈ refs then d.set p.1 ((d.get? p.1).getD [] ++ [p.2]) else d
  if p.2 ∈ refs then d.set p.2 ((d.get? p.2).getD [] ++ [p.1]) else d

/-- `preempt_candidates` (pairs_selection.py:433-468): the candidates of the images and what is to be loaded; `pairs` are those of
`match_candidates_by_distance`, `none` when neither a distance nor a number of neighbours is given. -/
def preempt (refs cand : List Id) (pairs : Option (List (Id × Id))) : Dict Id (List Id) × List Id :=
  let d := match pairs with
    | none => refs.foldl (fun d i => d.set i cand) []
    | some ps => ps.foldl (preemptStep refs) []
  (d, d.keys ++ d.vals.flatten)

/-- The candidates for VLAD (pairs_selection.py:412-417): all of them when the positions leave none. -/
def preemptVlad (refs cand : List Id) (pairs : Option (List (Id × Id))) : Dict Id (List Id) × List Id :=
  let r := preempt refs cand pairs
  if r.1.length = 0 then (refs.foldl (fun d i => d.set i cand) [], refs ++ cand) else r

end Verif.NearImages
