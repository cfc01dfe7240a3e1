import Verif.Model.Tracking
import Verif.Model.Depthmap
import Mathlib.Analysis.SpecialFunctions.Trigonometric.Inverse

/-!
Model of the choice of neighbors and of the depth range in dense reconstruction
(/repo/opensfm/dense.py:376-460).

Simplifications: numbers are exact reals; where the code computes NaN (an angle at a point that is a camera centre) the
model has `0 / 0 = 0`, hence a right angle: in both cases the point is not counted.
-/
namespace Verif.DenseNeighbors
open Verif.Depthmap Matrix
variable {S T O : Type} [DecidableEq S] [DecidableEq T]

/-- The pose of a shot (rotation and translation, world to camera). -/
structure Pose where
  R : M3
  t : V3

/-- `pose.get_origin()` (src/geometry/pose.h): `-Rᵀ t`. -/
def Pose.origin (p : Pose) : V3 := -(p.Rᵀ *ᵥ p.t)

/-- `pose.transform(x)` (src/geometry/pose.h). -/
def Pose.transform (p : Pose) (x : V3) : V3 := p.R *ᵥ x + p.t

/-- What is used of a reconstruction: poses of the shots and coordinates of the points. -/
structure Rec (S T : Type) where
  shots : Dict S Pose
  points : Dict T V3

/-- The body of the loop of `common_tracks_double_dict` (dense.py:410-412); `none` is a `KeyError`. -/
def doubleStep (acc : Option (Dict S (Dict S (List T)))) (e : (S × S) × List T) : Option (Dict S (Dict S (List T))) :=
  match acc with
  | none => none
  | some res =>
    match res.get? e.1.1 with
    | none => none
    | some d1 =>
      let res := res.set e.1.1 (d1.set e.1.2 e.2)
      match res.get? e.1.2 with
      | none => none
      | some d2 => some (res.set e.1.2 (d2.set e.1.1 e.2))

/-- The body of the loop of `all_common_tracks` without features (tracking.py:221-233). -/
def commonStep (m : TM S T O) (minCommon : Nat) (acc : Except TMErr (Dict (S × S) (List T))) (q : (S × S) × Nat) :
    Except TMErr (Dict (S × S) (List T)) :=
  match acc with
  | .error e => .error e
  | .ok d =>
    if q.2 < minCommon then .ok d
    else
      match m.getAllCommonObservations q.1.1 q.1.2 with
      | .error e => .error e
      | .ok tuples => .ok (d.set q.1 (tuples.map (·.1)))

/-- `all_common_tracks_without_features` (tracking.py:192-235), with the default of 50 tracks. -/
def commonWithout (lt : S → S → Bool) (m : TM S T O) : Except TMErr (Dict (S × S) (List T)) :=
  (m.getAllPairsConnectivity lt [] []).foldl (commonStep m 50) (.ok [])

/-- `common_tracks_double_dict` (dense.py:400-413). `none`: an exception. -/
def doubleDict (lt : S → S → Bool) (m : TM S T O) : Option (Dict S (Dict S (List T))) :=
  match commonWithout lt m with
  | .error _ => none
  | .ok d => d.foldl doubleStep (some (m.getShotIds.map (fun s => (s, []))))

/-- `angle_between_points` (dense.py:446-460). -/
noncomputable def angleBetween (o p1 p2 : V3) : ℝ :=
  let a0 := p1 0 - o 0
  let a1 := p1 1 - o 1
  let a2 := p1 2 - o 2
  let b0 := p2 0 - o 0
  let b1 := p2 1 - o 1
  let b2 := p2 2 - o 2
  let dot := a0 * b0 + a1 * b1 + a2 * b2
  let la := a0 * a0 + a1 * a1 + a2 * a2
  let lb := b0 * b0 + b1 * b1 + b2 * b2
  Real.arccos (dot / Real.sqrt (la * lb))

/-- The body of the loop over tracks (dense.py:434-439). -/
noncomputable def scoreStep (points : Dict T V3) (c1 c2 : V3) (score : Nat) (track : T) : Nat :=
  match points.get? track with
  | none => score
  | some p =>
    if angleBetween p c1 c2 > Real.pi / 60 ∧ angleBetween p c1 c2 < Real.pi / 6 then score + 1 else score

/-- The body of the loop over the other shots (dense.py:428-441). -/
noncomputable def candidateStep (r : Rec S T) (c1 : V3) (ns : List (S × Nat)) (e : S × List T) : List (S × Nat) :=
  match r.shots.get? e.1 with
  | none => ns
  | some other =>
    let score := e.2.foldl (scoreStep r.points c1 other.origin) 0
    if score > 20 then ns ++ [(e.1, score)] else ns

/-- `find_neighboring_images` (dense.py:416-444) for the shot `s` with the pose `pose`. `k` is `num_neighbors`,
supposed not to be negative. `ns.sort(..., reverse=True)` is stable. -/
noncomputable def findNeighbors (s : S) (pose : Pose) (common : Dict S (Dict S (List T))) (r : Rec S T) (k : Nat) : List S :=
  let ns := ((common.get? s).getD []).foldl (candidateStep r pose.origin) []
  s :: ((ns.mergeSort (fun a b => decide (b.2 ≤ a.2))).take k).map Prod.fst

open Classical in
/-- `np.percentile(l, q)` with the default linear interpolation; `none` for an empty list. -/
noncomputable def percentile (q : ℝ) (l : List ℝ) : Option ℝ :=
  if l.length = 0 then none
  else
    let srt := l.mergeSort (fun a b => decide (a ≤ b))
    let h := ((l.length : ℝ) - 1) * (q / 100)
    let i := ⌊h⌋₊
    let lo := srt.getD i 0
    let hi := srt.getD (min (i + 1) (l.length - 1)) 0
    some (lo + (hi - lo) * (h - i))

/-- The body of the loop of `compute_depth_range` (dense.py:384-389). -/
noncomputable def depthStep (points : Dict T V3) (pose : Pose) (depths : List ℝ) (track : T) : List ℝ :=
  match points.get? track with
  | none => depths
  | some p => depths ++ [pose.transform p 2]

/-- `depths` (dense.py:383-389); `none`: the shot is not in the tracks manager. -/
noncomputable def depthsOf (m : TM S T O) (r : Rec S T) (s : S) (pose : Pose) : Option (List ℝ) :=
  match m.getShotObservations s with
  | .error _ => none
  | .ok obs => some (obs.keys.foldl (depthStep r.points pose) [])

/-- Python's `a or b` for numbers. -/
noncomputable def pyOr (a b : ℝ) : ℝ := if a = 0 then b else a

/-- `compute_depth_range` (dense.py:376-397); `cmin` and `cmax` from the configuration. `none`: an exception. -/
noncomputable def depthRange (m : TM S T O) (r : Rec S T) (s : S) (pose : Pose) (cmin cmax : ℝ) : Option (ℝ × ℝ) :=
  match depthsOf m r s pose with
  | none => none
  | some depths =>
    match percentile 10 depths, percentile 90 depths with
    | some p10, some p90 => some (pyOr cmin (p10 * (9 / 10)), pyOr cmax (p90 * (11 / 10)))
    | _, _ => none

end Verif.DenseNeighbors
