import Verif.Model.SfmMap
import Verif.Model.Triangulation

/-!
Model of the two filters of the final point cloud, `FilterBadlyConditionedPoints` and `RemoveIsolatedPoints`
(/repo/opensfm/src/sfm/src/map_helpers.cc), on the map of `Model/SfmMap` with points of three real coordinates, and of
`ComputePointInverseCovariance` (/repo/opensfm/src/geometry/src/covariance.cc:26-41).

Simplifications: exact reals (the neighbours are searched with positions rounded to single precision), so nothing is infinite
or not a number; no point is at the centre of a shot that sees it; `origin` is the centre of a shot, `jac` the derivative of
the projection of a point in a shot, `eigs` the eigenvalues of a symmetric matrix, `k` is not negative. The shots of a
landmark exist.
-/
set_option linter.unusedSectionVars false
namespace Verif.CloudFilters
open Verif.Depthmap Verif.Triangulation Matrix

variable {Id A K B P : Type} [DecidableEq Id]

/-- The mean (map_helpers.cc:129-134, 212-213). -/
noncomputable def average (l : List ℝ) : ℝ := l.sum / l.length

/-- The root of the mean squared difference to the mean (map_helpers.cc:135-141, 214-219). -/
noncomputable def stdDev (l : List ℝ) : ℝ := Real.sqrt ((l.map (fun x => (x - average l) ^ 2)).sum / l.length)

/-- Removal of landmarks, those that are there (map_helpers.cc:151-157, 223-228): the map and the number, or an exception. -/
def removeIds : SMap Id A V3 K B P → List Id → ℕ → SMap Id A V3 K B P × Except MErr ℕ
  | m, [], n => (m, .ok n)
  | m, l :: rest, n =>
    if (m.landmarks.get? l).isSome then
      match m.removeLandmark l with
      | (m', some e) => (m', .error e)
      | (m', none) => removeIds m' rest (n + 1)
    else removeIds m rest n

/-! ### Badly conditioned points -/

/-- Two of the rays form more than the angle (map_helpers.cc:64-76). -/
def wideAngle (minAngle : ℝ) : List V3 → Prop
  | [] => False
  | r :: rest => (∃ q ∈ rest, angleBetween (normalized r) (normalized q) > minAngle) ∨ wideAngle minAngle rest

/-- `ComputePointInverseCovariance` (covariance.cc:26-41), the matrix. -/
noncomputable def information (jac : Id → V3 → Matrix (Fin 2) (Fin 3) ℝ) (shots : List Id) (x : V3) : M3 :=
  (shots.map (fun s => (jac s x)ᵀ * jac s x)).sum

/-- `eigs.maxCoeff()` (map_helpers.cc:110). -/
noncomputable def maxCoeff (e : V3) : ℝ := max (e 0) (max (e 1) (e 2))

/-- `eigs.minCoeff()` (map_helpers.cc:111). -/
noncomputable def minCoeff (e : V3) : ℝ := min (e 0) (min (e 1) (e 2))

/-- `cond` (map_helpers.cc:119), with `kMaxCond` (21). -/
noncomputable def condition (e : V3) : ℝ := min (Real.sqrt (maxCoeff e / minCoeff e)) 1000

open Classical in
/-- The tests of one landmark (map_helpers.cc:29-125): its condition number, `none` when it is to be removed. -/
noncomputable def verdict (origin : Id → V3) (jac : Id → V3 → Matrix (Fin 2) (Fin 3) ℝ) (eigs : M3 → V3)
    (minAngleDeg minDet : ℝ) (lm : LmSt Id V3) : Option ℝ :=
  let shots := lm.obs.map (·.1)
  if ¬ wideAngle (minAngleDeg * Real.pi / 180) (shots.map (fun s => lm.pos - origin s)) then none
  else
    let info := information jac shots lm.pos
    if |info.det| < minDet then none
    else if minCoeff (eigs info⁻¹) ≤ 0 then none
    else some (condition (eigs info⁻¹))

/-- The condition numbers of the landmarks that pass the tests (map_helpers.cc:22, 124). -/
noncomputable def conds (v : LmSt Id V3 → Option ℝ) (landmarks : Dict Id (LmSt Id V3)) : List (Id × ℝ) :=
  landmarks.filterMap (fun e => (v e.2).map (fun c => (e.1, c)))

/-- `to_remove` (map_helpers.cc:16, 78-148). -/
noncomputable def toRemove (v : LmSt Id V3 → Option ℝ) (landmarks : Dict Id (LmSt Id V3)) : List Id :=
  let c := conds v landmarks
  let threshold := average (c.map (·.2)) + 1 * stdDev (c.map (·.2))
  (landmarks.filter (fun e => (v e.2).isNone)).map (·.1) ++ (c.filter (fun e => decide (threshold < e.2))).map (·.1)

/-- `FilterBadlyConditionedPoints` (map_helpers.cc:14-160). -/
noncomputable def filterBadlyConditioned (origin : Id → V3) (jac : Id → V3 → Matrix (Fin 2) (Fin 3) ℝ) (eigs : M3 → V3)
    (minAngleDeg minDet : ℝ) (m : SMap Id A V3 K B P) : SMap Id A V3 K B P × Except MErr ℕ :=
  removeIds m (toRemove (verdict origin jac eigs minAngleDeg minDet) m.landmarks) 0

/-! ### Isolated points -/

/-- The distance of VLFeat, `VlDistanceL2`: it is squared (map_helpers.cc:185). -/
noncomputable def squared (x y : V3) : ℝ := (x - y) ⬝ᵥ (x - y)

/-- The distances of a query to its `k + 1` nearest points, the nearest first (map_helpers.cc:190-193). -/
noncomputable def nearest (k : ℕ) (points : List V3) (x : V3) : List ℝ :=
  ((points.map (squared x)).mergeSort (fun a b => decide (a ≤ b))).take (k + 1)

/-- `avg_dists[i]` (map_helpers.cc:196-204): without the first. -/
noncomputable def neighborAverage (k : ℕ) (points : List V3) (x : V3) : ℝ :=
  let d := (nearest k points x).drop 1
  if 0 < d.length then d.sum / d.length else 0

/-- The landmarks to remove (map_helpers.cc:163-167, 211-224). -/
noncomputable def isolated (k : ℕ) (points : List (Id × V3)) : List Id :=
  if points.length ≤ k then []
  else
    let d := points.map (fun e => neighborAverage k (points.map (·.2)) e.2)
    (points.filter (fun e =>
      decide (average d + 5 / 4 * stdDev d < neighborAverage k (points.map (·.2)) e.2))).map (·.1)

/-- `RemoveIsolatedPoints` (map_helpers.cc:162-230). -/
noncomputable def removeIsolated (k : ℕ) (m : SMap Id A V3 K B P) : SMap Id A V3 K B P × Except MErr ℕ :=
  removeIds m (isolated k (m.landmarks.map (fun e => (e.1, e.2.pos)))) 0

end Verif.CloudFilters
