import Mathlib.Data.Real.Sqrt
import Mathlib.Data.List.Sort

/-!
# The automatic outlier threshold

`get_error_distribution` and the AUTO case of `get_actual_threshold`
(`/repo/opensfm/reconstruction.py` 1229-1247). Numbers are reals (doubles in the code); a reprojection
error is a pair (x, y): the 3-vectors of spherical cameras are left out. What the threshold is used for
is `Model/Outliers.lean`.
-/
noncomputable section
namespace Verif.AutoThreshold

/-- `np.median` of a list of numbers (1233, 1234): the middle of the sorted list, or the mean of the two
middle ones. Used on non-empty lists only (numpy gives nan for an empty one). -/
def median (l : List ℝ) : ℝ :=
  let s := l.insertionSort (· ≤ ·)
  if l.length % 2 = 1 then s.getD (l.length / 2) 0 else (s.getD (l.length / 2 - 1) 0 + s.getD (l.length / 2) 0) / 2

/-- `np.linalg.norm` of a pair. -/
def norm2 (e : ℝ × ℝ) : ℝ := √(e.1 ^ 2 + e.2 ^ 2)

/-- `robust_mean` (1233): the median of each coordinate (`axis=0`). -/
def robustMean (es : List (ℝ × ℝ)) : ℝ × ℝ := (median (es.map Prod.fst), median (es.map Prod.snd))

/-- `robust_std` (1234-1236). -/
def robustStd (es : List (ℝ × ℝ)) : ℝ :=
  1.486 * median (es.map fun e => norm2 (e.1 - (robustMean es).1, e.2 - (robustMean es).2))

/-- `all_errors` (1230-1232): the errors of each point, one after the other. -/
def allErrors (points : List (List (ℝ × ℝ))) : List (ℝ × ℝ) := points.foldl (fun acc es => acc ++ es) []

/-- `get_error_distribution` (1229-1237); `none`: without errors the array is one-dimensional and
`np.linalg.norm(..., axis=1)` raises. -/
def distribution (points : List (List (ℝ × ℝ))) : Option ((ℝ × ℝ) × ℝ) :=
  match allErrors points with
  | [] => none
  | e :: t => some (robustMean (e :: t), robustStd (e :: t))

/-- `get_actual_threshold` for AUTO (1246-1247): `mean + std` adds the number to both coordinates. -/
def autoThreshold (ratio : ℝ) (points : List (List (ℝ × ℝ))) : Option ℝ :=
  (distribution points).map fun d => ratio * norm2 (d.1.1 + d.2, d.1.2 + d.2)

/-- The errors that `remove_outliers` counts as outliers for a threshold (1270-1274). -/
def outliers (thr : ℝ) (points : List (List (ℝ × ℝ))) : List (ℝ × ℝ) :=
  (allErrors points).filter fun e => decide (thr ^ 2 < e.1 ^ 2 + e.2 ^ 2)

end Verif.AutoThreshold
