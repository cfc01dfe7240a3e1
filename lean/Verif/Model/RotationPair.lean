import Verif.Model.Superimpose
import Verif.Model.Depthmap
import Verif.Model.Triangulation

/-!
Model of the choice of the first pair of images: `RotationBetweenPoints` (/repo/opensfm/src/geometry/transform.h:8-40),
`RelativeRotation` (/repo/opensfm/src/robust/relative_rotation_model.h:8-35), `relative_pose_ransac_rotation_only`
(/repo/opensfm/multiview.py:522-538), `two_view_reconstruction_rotation_only`, `pairwise_reconstructability` and
`compute_image_pairs` (/repo/opensfm/reconstruction.py:193-245, 380-412).

Simplifications: exact reals; `Eigen::JacobiSVD`, the robust estimation and `np.argsort` are parameters; the images are given by
the bearings of their common tracks; `parallel_map` is taken to return the results in order.
-/
set_option linter.unusedSectionVars false
namespace Verif.RotationPair
open Verif.Depthmap Verif.Superimpose Matrix
open Verif.Triangulation (norm3)

/-- The matrix `M` of the centred pairs (transform.h:8-29). -/
noncomputable def moment (pairs : List (V3 × V3)) : M3 := ((centred pairs).map (fun p => vecMulVec p.1 p.2)).sum

/-- `RotationBetweenPoints` from its decomposition (transform.h:31-39). -/
noncomputable def rotationOf (d : Svd 3) : M3 := if (d.u * d.vh).det < 0 then (-1 : ℝ) • (d.u * d.vh) else d.u * d.vh

/-- `RotationBetweenPoints` (transform.h:21-40): from the second points to the first. -/
noncomputable def rotationBetween (svd : M3 → Svd 3) (pairs : List (V3 × V3)) : M3 := rotationOf (svd (moment pairs))

/-- `RelativeRotation::Estimate` and `EstimateNonMinimal` (relative_rotation_model.h:18-28): from the first bearings to the
second. -/
noncomputable def estimate (svd : M3 → Svd 3) (pairs : List (V3 × V3)) : M3 := (rotationBetween svd pairs)ᵀ

/-- `RelativeRotation::Evaluate` (relative_rotation_model.h:30-34). -/
def evaluate (model : M3) (q : V3 × V3) : ℝ := 1 - (model *ᵥ q.1) ⬝ᵥ q.2

/-- `ThresholdAdapter` (relative_rotation_model.h:15-17). -/
noncomputable def thresholdAdapter (angle : ℝ) : ℝ := 1 - Real.cos angle

open Classical in
/-- `_two_view_rotation_inliers` (reconstruction.py:380-387): indices; the rotation is from the second camera to the first. -/
noncomputable def rotationInliers (pairs : List (V3 × V3)) (R : M3) (threshold : ℝ) : List ℕ :=
  (pairs.zipIdx.filter (fun q => decide (norm3 (R *ᵥ q.1.2 - q.1.1) < threshold))).map (·.2)

/-- `two_view_reconstruction_rotation_only` (reconstruction.py:390-412) with `relative_pose_ransac_rotation_only`
(multiview.py:522-538): the rotation from the first camera to the second and the inliers; `ransac`: the model of the robust estimation. -/
noncomputable def rotationOnly (ransac : ℝ → List (V3 × V3) → M3) (pairs : List (V3 × V3)) (threshold : ℝ) : M3 × List ℕ :=
  let R := (ransac threshold pairs)ᵀ
  (Rᵀ, rotationInliers pairs R threshold)

/-- `pairwise_reconstructability` (reconstruction.py:193-200); `none`: division by zero. -/
def reconstructability (common inliers : ℕ) : Option ℤ :=
  let outliers : ℤ := common - inliers
  if common = 0 then none
  else if (3 / 10 : ℚ) ≤ outliers / common then some outliers else some 0

/-- `_compute_pair_reconstructability` for all pairs (reconstruction.py:213-217, 224-245); `threshold`:
`five_point_algo_threshold`. -/
noncomputable def scores {Im : Type} (ransac : ℝ → List (V3 × V3) → M3) (threshold : ℝ) (tracks : List ((Im × Im) × List (V3 × V3))) :
    Option (List ((Im × Im) × ℤ)) :=
  tracks.mapM (fun e =>
    (reconstructability e.2.length (rotationOnly ransac e.2 (4 * threshold)).2.length).map (fun r => (e.1, r)))

/-- The pairs with a positive score, in the order of `np.argsort` of the negated scores (reconstruction.py:218-221). -/
def sorted {Im : Type} (argsort : List ℤ → List ℕ) (result : List ((Im × Im) × ℤ)) : List (Im × Im) :=
  let pairs := (result.filter (fun e => 0 < e.2)).map (·.1)
  let score := (result.filter (fun e => 0 < e.2)).map (·.2)
  (argsort (score.map (fun r => -r))).filterMap (fun o => pairs[o]?)

/-- `compute_image_pairs` (reconstruction.py:208-221); `none`: an exception. -/
noncomputable def imagePairs {Im : Type} (ransac : ℝ → List (V3 × V3) → M3) (argsort : List ℤ → List ℕ) (threshold : ℝ)
    (tracks : List ((Im × Im) × List (V3 × V3))) : Option (List (Im × Im)) :=
  (scores ransac threshold tracks).map (sorted argsort)

end Verif.RotationPair
