import Verif.Model.Triangulation
import Verif.Model.TracksManager
import Mathlib.Analysis.SpecialFunctions.Log.Basic

/-!
Model of the triangulation of tracks (/repo/opensfm/reconstruction.py:832-1230).

Simplifications: numbers are exact reals; `point_refinement` (Ceres) is an arbitrary function `refine` of the rays and the
start; the cached centres and rotations are those of the shots, which do not change while a triangulator exists; the colour
and the feature id of an observation are not modelled.
-/
namespace Verif.TrackTriangulator
open Verif.Depthmap Verif.Triangulation Matrix
variable {S T : Type} [DecidableEq S] [DecidableEq T]

/-- Observations: coordinates in the image. -/
abbrev Coord := ℝ × ℝ

/-- The observations of a track in shots of the reconstruction with their rays (reconstruction.py:871-876, 931-939).
`shots` gives centre, rotation and bearings of a shot. -/
def trackRays (shots : S → Option GShot) (obs : Dict S Coord) : List (S × Ray) :=
  obs.filterMap (fun e => (shots e.1).map (fun g : GShot => (e.1, (⟨g.center, g.Rᵀ *ᵥ g.bearing e.2⟩ : Ray))))

/-- The parameters: threshold, least angle (in radians), least depth. -/
structure Params where
  threshold : ℝ
  minAngle : ℝ
  minDepth : ℝ

/-- `TrackTriangulator.triangulate` (reconstruction.py:1032-1073): the point and the shots stored with it, if any. -/
noncomputable def full (refine : List Ray → V3 → V3) (p : Params) (obs : List (S × Ray)) : Option (V3 × List S) :=
  if obs.length ≥ 2 then
    match midpoint (obs.map (·.2)) (List.replicate obs.length p.threshold) p.minAngle p.minDepth with
    | some X => some (refine (obs.map (·.2)) X, obs.map (·.1))
    | none => none
  else none

/-- `list(combinations(range(n), 2))` (reconstruction.py:950). -/
def combinations (n : ℕ) : List (ℕ × ℕ) :=
  (List.range n).flatMap (fun i => ((List.range n).filter (fun j => i < j)).map (fun j => (i, j)))

/-- The distance of the bearing to the direction of the point (reconstruction.py:977-981). -/
noncomputable def chordError (X : V3) (r : Ray) : ℝ := norm3 (normalized (X - r.c) - r.b)

open Classical in
/-- The indices of the inliers of a point (reconstruction.py:979-981). -/
noncomputable def inliersAt (threshold : ℝ) (rays : List Ray) (X : V3) : List ℕ :=
  (List.range rays.length).filter (fun i => match rays[i]? with
    | some r => decide (chordError X r < threshold)
    | none => false)

/-- `os[inliers], bs[inliers]`. -/
def pick (rays : List Ray) (is : List ℕ) : List Ray := is.filterMap (fun i => rays[i]?)

/-- The state of the loop of the robust triangulation: best point with its inliers, pairs tried, stopped. -/
structure Robust where
  point : V3
  inliers : List ℕ
  tried : List ℕ
  stop : Bool

/-- The pair chosen by a random number in `[0, 1)` (reconstruction.py:955). -/
noncomputable def chosen (n : ℕ) (u : ℝ) : ℕ := ⌊u * (((combinations n).length : ℝ) - 1)⌋.toNat

open Classical in
/-- Whether the loop stops (reconstruction.py:1014-1022); `i` is the first index of the pair: the variable of the loop has
been overwritten (reconstruction.py:959). -/
noncomputable def stops (best n i : ℕ) : Bool :=
  let ratio : ℝ := best / n
  if ratio = 1 then true
  else decide (Real.log (1 - 99 / 100) / Real.log (1 - ratio * ratio) ≤ i)

/-- What a valid point of a pair does to the state (reconstruction.py:975-1022). -/
noncomputable def improve (refine : List Ray → V3 → V3) (threshold : ℝ) (rays : List Ray) (s : Robust) (i : ℕ) (X : V3) :
    Robust :=
  let inliers := inliersAt threshold rays X
  if inliers.length > s.inliers.length then
    let newX := refine (pick rays inliers) X
    let ls := inliersAt threshold rays newX
    let s' := if ls.length > inliers.length then { s with point := newX, inliers := ls } else { s with point := X, inliers := inliers }
    { s' with stop := stops s'.inliers.length rays.length i }
  else s

/-- One round of the loop (reconstruction.py:954-1022). -/
noncomputable def robustStep (refine : List Ray → V3 → V3) (p : Params) (rays : List Ray) (s : Robust) (u : ℝ) : Robust :=
  if s.stop then s
  else if chosen rays.length u ∈ s.tried then s
  else
    match (combinations rays.length)[chosen rays.length u]? with
    | none => s
    | some ij =>
      let s := { s with tried := chosen rays.length u :: s.tried }
      let two := pick rays [ij.1, ij.2]
      match midpoint two (List.replicate rays.length p.threshold) p.minAngle p.minDepth with
      | none => s
      | some X => improve refine p.threshold rays s ij.1 (refine two X)

/-- `TrackTriangulator.triangulate_robust` (reconstruction.py:922-1030) with the random numbers of the eleven rounds. -/
noncomputable def robust (refine : List Ray → V3 → V3) (p : Params) (draws : List ℝ) (obs : List (S × Ray)) :
    Option (V3 × List S) :=
  if obs.length < 2 then none
  else
    let s := draws.foldl (robustStep refine p (obs.map (·.2))) ⟨0, [], [], false⟩
    if s.inliers.length > 1 then some (s.point, s.inliers.filterMap (fun i => (obs.map (·.1))[i]?)) else none

/-- `TrackTriangulator.triangulate_dlt` (reconstruction.py:1075-1116): the rays given to the refinement. The bearings are
those of the camera frames. -/
def dltRefineRays (shots : S → Option GShot) (obs : Dict S Coord) : List Ray :=
  obs.filterMap (fun e => (shots e.1).map (fun g : GShot => (⟨g.center, g.bearing e.2⟩ : Ray)))

/-- The cameras and bearings given to the linear method (reconstruction.py:1085-1103); `Rt` of a shot with centre `c` and
rotation `R` is `[R | -R c]`. -/
def dltObs (shots : S → Option GShot) (obs : Dict S Coord) : List Obs :=
  obs.filterMap (fun e => (shots e.1).map (fun g : GShot => (⟨⟨g.R, -(g.R *ᵥ g.center)⟩, g.bearing e.2⟩ : Obs)))

/-- The cost the refinement minimises (`BearingErrorCost`, triangulation.cc:13-60). -/
noncomputable def bearingCost (rays : List Ray) (X : V3) : ℝ :=
  (rays.map (fun r : Ray => (normalized (X - r.c) - r.b) ⬝ᵥ (normalized (X - r.c) - r.b))).sum

/-- Points of a reconstruction: coordinates and the shots with an observation. -/
abbrev Points (T S : Type) := Dict T (V3 × List S)

/-- Triangulation of one track by `config["triangulation_type"]` (reconstruction.py:1168-1183, 1213-1220); `draw t` are the
random numbers used for the track. -/
noncomputable def byType (kind : String) (refine : List Ray → V3 → V3) (p : Params) (draws : List ℝ) (obs : List (S × Ray)) :
    Option (V3 × List S) :=
  if kind = "ROBUST" then robust refine p draws obs else if kind = "FULL" then full refine p obs else none

/-- The body of the loop over the tracks: `tri` triangulates a track. `create_point` and `add_observation` store. -/
def storeStep (tri : T → Option (V3 × List S)) (points : Points T S) (t : T) : Points T S :=
  match tri t with
  | some r => points.set t r
  | none => points

/-- The body of the loop of `triangulate_shot_features` (reconstruction.py:1166-1183). -/
def storeNewStep (tri : T → Option (V3 × List S)) (points : Points T S) (t : T) : Points T S :=
  if points.has t then points else storeStep tri points t

/-- The tracks seen in some shots (reconstruction.py:1158-1165, 1207-1211), in the order of a set: `order` lists the elements
of a set in any order. -/
def tracksOf (order : List T → List T) (m : TM S T Coord) (shotIds : List S) : List T :=
  order ((shotIds.flatMap (fun s => match m.getShotObservations s with
    | .ok obs => obs.keys
    | .error _ => [])).dedup)

/-- The observations of a track with their rays; tracks come from the tracks manager. -/
def raysOf (shots : S → Option GShot) (m : TM S T Coord) (t : T) : List (S × Ray) :=
  match m.getTrackObservations t with
  | .ok obs => trackRays shots obs
  | .error _ => []

/-- `triangulate_shot_features` (reconstruction.py:1143-1183). -/
noncomputable def triangulateShotFeatures (order : List T → List T) (kind : String) (refine : List Ray → V3 → V3) (p : Params)
    (draws : T → List ℝ) (m : TM S T Coord) (shots : S → Option GShot) (shotIds : List S) (points : Points T S) :
    Points T S :=
  (tracksOf order m shotIds).foldl
    (storeNewStep (fun t => byType kind refine p (draws t) (raysOf shots m t))) points

/-- `retriangulate` (reconstruction.py:1186-1226): all points are removed first. -/
noncomputable def retriangulate (order : List T → List T) (kind : String) (refine : List Ray → V3 → V3) (p : Params)
    (draws : T → List ℝ) (m : TM S T Coord) (shots : S → Option GShot) (shotIds : List S) (_points : Points T S) :
    Points T S :=
  (tracksOf order m shotIds).foldl (storeStep (fun t => byType kind refine p (draws t) (raysOf shots m t))) []

end Verif.TrackTriangulator
