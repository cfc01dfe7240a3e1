import Verif.Model.SfmMap
import Mathlib.Algebra.Order.Ring.Defs
import Mathlib.Data.List.Dedup

/-!
# Outlier removal

`remove_outliers` and `get_actual_threshold` (`/repo/opensfm/reconstruction.py` 1240-1289) on the map
of `Model/SfmMap`. The reprojection errors stored in the landmarks (landmark.h:49) are passed as a
separate table landmark -> shot -> error (x, y).
-/
namespace Verif.SMap
variable {Id A X K B P F : Type} [DecidableEq Id] [CommRing F] [LinearOrder F]

/-- `config["bundle_outlier_filtering_type"]`. -/
inductive FilterType where
  | fixed
  | auto
  | other

/-- `get_actual_threshold` (reconstruction.py 1240-1250); `spread` is
`np.linalg.norm(mean + std)` of the error distribution. -/
def actualThreshold (t : FilterType) (fixedThr ratio spread : F) : F :=
  match t with
  | .fixed => fixedThr
  | .auto => ratio * spread
  | .other => 1

/-- The test of line 1273. -/
def isOutlier (thr : F) (e : F × F) : Bool := decide (thr ^ 2 < e.1 ^ 2 + e.2 ^ 2)

/-- The `outliers` list (1265-1274); `none`: `reconstruction.points[point_id]` raises. -/
def collectOutliers (m : SMap Id A X K B P) (errs : Dict Id (Dict Id (F × F))) (thr : F) :
    List Id → Option (List (Id × Id))
  | [] => some []
  | p :: rest =>
    if (m.landmarks.get? p).isNone then none
    else
      match collectOutliers m errs thr rest with
      | none => none
      | some out =>
        some (((((errs.get? p).getD []).filter (fun q => isOutlier thr q.2)).map
          (fun q => (p, q.1))) ++ out)

/-- The loop of 1277-1279: `remove_observation` for each outlier. -/
def removeAll : SMap Id A X K B P → List (Id × Id) → SMap Id A X K B P × Option MErr
  | m, [] => (m, none)
  | m, (l, s) :: rest =>
    match m.removeObservation s l with
    | (m', some e) => (m', some e)
    | (m', none) => removeAll m' rest

/-- The loop of 1281-1285 over the touched points. -/
def removeFew : SMap Id A X K B P → List Id → SMap Id A X K B P × Option MErr
  | m, [] => (m, none)
  | m, l :: rest =>
    match m.landmarks.get? l with
    | none => removeFew m rest
    | some lm =>
      if lm.obs.length < 2 then
        match m.removeLandmark l with
        | (m', some e) => (m', some e)
        | (m', none) => removeFew m' rest
      else removeFew m rest

/-- `remove_outliers` (1253-1289). `order` is the iteration order of the Python set `track_ids`.
The result is the new map and the returned count, or the exception. -/
def removeOutliers (m : SMap Id A X K B P) (errs : Dict Id (Dict Id (F × F))) (thr : F)
    (points : List Id) (order : List Id → List Id) : SMap Id A X K B P × Except MErr Nat :=
  match collectOutliers m errs thr points with
  | none => (m, .error .unknownLandmark)
  | some out =>
    match removeAll m out with
    | (m', some e) => (m', .error e)
    | (m', none) =>
      match removeFew m' (order (out.map Prod.fst).dedup) with
      | (m'', some e) => (m'', .error e)
      | (m'', none) => (m'', .ok out.length)

end Verif.SMap
