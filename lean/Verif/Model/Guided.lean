import Verif.Model.Matching
import Verif.Model.Triangulation
import Verif.Model.Pose

/-!
Model of guided matching (/repo/opensfm/matching.py): the pose of a pair (`match_unwrap_args`, 184-216), the mask of
`compute_inliers_bearing_epipolar` (850-868) and `_match_descriptors_guided_impl` (260-338). What follows (robust matching,
masks, least number of matches) is `Matching.matchPair`.

Simplifications: exact reals; the two nearest neighbours found by OpenCV are a parameter; descriptors are of an arbitrary
type `F` with a distance; the features are given after masking, as many bearings and descriptors as points.
-/
set_option linter.unusedSectionVars false
namespace Verif.Guided
open Verif.Depthmap Verif.Triangulation Verif.Matching Verif.Pose

variable {F Id : Type} [DecidableEq Id]

/-- The pose for guided matching (matching.py:206-212): nothing without poses, otherwise the pose of the second image
relative to the first; `none`: an image has no pose (`KeyError`). -/
noncomputable def guidedPose (poses : List (Id × Pose ℝ)) (im1 im2 : Id) : Option (Option (Pose ℝ)) :=
  if poses.isEmpty then some none
  else
    match poses.lookup im1, poses.lookup im2 with
    | some p1, some p2 => some (some (p2.relativeTo p1))
    | _, _ => none

/-- The error of two bearings (matching.py:861-866). -/
noncomputable def error (pose : Pose ℝ) (b1 b2 : V3) : ℝ := epipolarAngle b1 b2 pose.cwR pose.getOrigin

open Classical in
/-- An entry of `compute_inliers_bearing_epipolar` (matching.py:861-868). -/
noncomputable def allowed (pose : Pose ℝ) (threshold : ℝ) (b1 b2 : V3) : Bool := decide (error pose b1 b2 < threshold)

/-- What is read of an image (matching.py:282-315): the masked features, `none` when there are none; their descriptors,
`none` when not stored; the bearings of its camera. -/
structure Side (F : Type) where
  points : Option ℕ
  descriptors : Option (List F)
  bearings : Option (List V3)

/-- The rows of the mask for the features of the first image, or its columns for those of the second: for a bearing, the
indices of the bearings that are allowed (matching.py:317-322, 740, 774-775). -/
def candidates (ok : V3 → Bool) (bearings : List V3) : List ℕ :=
  (List.range bearings.length).filter (fun j => ok (bearings.getD j 0))

/-- The answers of `knnMatch` with a mask (matching.py:738-741): `knn d cands` is the answer for one query, `d` the
distances to the other features. -/
def answers (knn : (ℕ → ℝ) → List ℕ → List (ℕ × ℝ)) (dist : ℕ → ℕ → ℝ) (cands : ℕ → List ℕ) (n : ℕ) :
    List (List (ℕ × ℝ)) :=
  (List.range n).map (fun i => knn (dist i) (cands i))

/-- `match_brute_force_symmetric` with the mask (matching.py:316-323, 759-777). -/
noncomputable def guidedMatches (knn : (ℕ → ℝ) → List ℕ → List (ℕ × ℝ)) (dist : ℕ → ℕ → ℝ) (ratio threshold : ℝ)
    (pose : Pose ℝ) (b1 b2 : List V3) : List Match :=
  matchBruteForceSymmetric ratio
    (answers knn dist (fun i => candidates (fun b => allowed pose threshold (b1.getD i 0) b) b2) b1.length)
    (answers knn (fun j i => dist i j) (fun j => candidates (fun b => allowed pose threshold b (b2.getD j 0)) b1) b2.length)

/-- The distance of two descriptors by index. -/
def distOf (dist : F → F → ℝ) (d1 d2 : List F) (i j : ℕ) : ℝ :=
  match d1[i]?, d2[j]? with
  | some a, some b => dist a b
  | _, _ => 0

/-- The matches of `_match_descriptors_guided_impl` before the filters (matching.py:298-323). -/
noncomputable def guidedRaw (knn : (ℕ → ℝ) → List ℕ → List (ℕ × ℝ)) (dist : F → F → ℝ) (ratio threshold : ℝ)
    (pose : Pose ℝ) (s1 s2 : Side F) : List Match :=
  match s1.points, s1.bearings, s2.points, s2.bearings with
  | some n1, some b1, some n2, some b2 =>
    if n1 < 2 ∨ n2 < 2 then []
    else
      match s1.descriptors, s2.descriptors with
      | some d1, some d2 => guidedMatches knn (distOf dist d1 d2) ratio threshold pose b1 b2
      | _, _ => []
  | _, _, _, _ => []

/-- `match_unwrap_args` and `match` (matching.py:184-216, 560-634); `plain` are the descriptor matches without a pose. -/
noncomputable def matchWithPoses (e : Estimators) (a b : ImageInfo ℝ) (useFilters undistorted : Bool) (minMatch : Int)
    (masks : Option (List Bool × List Bool)) (knn : (ℕ → ℝ) → List ℕ → List (ℕ × ℝ)) (dist : F → F → ℝ) (ratio threshold : ℝ)
    (s1 s2 : Side F) (plain : List Match) (poses : List (Id × Pose ℝ)) (im1 im2 : Id) : Option (List Match) :=
  match guidedPose poses im1 im2 with
  | none => none
  | some none => matchPair e a b useFilters undistorted minMatch masks plain
  | some (some pose) =>
    matchPair e a b useFilters undistorted minMatch masks (guidedRaw knn dist ratio threshold pose s1 s2)

end Verif.Guided
