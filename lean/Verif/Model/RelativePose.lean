import Verif.Model.Triangulation
import Verif.Model.Superimpose
import Verif.Model.GpsBias
import Mathlib.Algebra.Order.Floor.Ring
import Mathlib.Data.Real.Archimedean

/-!
Model of the relative pose of two views: `RelativePoseFromEssential`, `RelativePoseCost` and `RelativePoseRefinement`
(/repo/opensfm/src/geometry/relative_pose.h:13-181) and the error of a pair of bearings
(/repo/opensfm/src/robust/relative_pose_model.h:41-69).

Simplifications: numbers are exact reals; `Eigen::JacobiSVD` and `ceres::TinySolver` are parameters; a pair of bearings is
given by value; the random numbers of `RelativePoseCost` are given; the conversion of a score to `int` does not overflow.
Memory that the program has not written is `none`.
-/
set_option linter.unusedSectionVars false
namespace Verif.RelativePose
open Verif.Depthmap Verif.Triangulation Matrix
open Verif.Superimpose (Svd)

/-- The 3×4 matrix of a pose: `y = R x + t` from the first camera to the second (relative_pose.h:73-75). -/
@[ext] structure RT where
  R : M3
  t : V3

/-- The last column of `U` negated when the determinant is negative (relative_pose.h:21-24). -/
noncomputable def fixU (U : M3) : M3 := if U.det < 0 then Matrix.of (fun i j => if j = 2 then U i j * (-1) else U i j) else U

/-- The last row of `Vt` negated when the determinant is negative (relative_pose.h:25-28). -/
noncomputable def fixVt (V : M3) : M3 := if V.det < 0 then Matrix.of (fun i j => if i = 2 then V i j * (-1) else V i j) else V

/-- `W` (relative_pose.h:30-31). -/
def W : M3 := !![0, -1, 0; 1, 0, 0; 0, 0, 1]

/-- The two translations (relative_pose.h:40-46). -/
noncomputable def translations (d : Svd 3) : List V3 :=
  [normalized (fun i => fixU d.u i 2), normalized (-(fun i => fixU d.u i 2))]

/-- The two rotations (relative_pose.h:48-53). -/
noncomputable def rotations (d : Svd 3) : List M3 := [fixU d.u * W * fixVt d.vh, fixU d.u * Wᵀ * fixVt d.vh]

/-- The poses in the order in which the two loops try them (relative_pose.h:38-53). -/
noncomputable def candidates (d : Svd 3) : List RT :=
  (translations d).flatMap (fun t => (rotations d).map (fun R => ⟨R, t⟩))

/-- The point of two bearings, the first camera at the origin (relative_pose.h:56, 60-63; relative_pose_model.h:47-53). -/
noncomputable def point (p : RT) (x y : V3) : Option V3 := twoMidpoint ⟨0, x⟩ ⟨-(p.Rᵀ *ᵥ p.t), p.Rᵀ *ᵥ y⟩

/-- Mean of the cosines between the point and the two bearings (relative_pose.h:68-72). -/
noncomputable def agreement (p : RT) (x y X : V3) : ℝ :=
  (normalized X ⬝ᵥ x + normalized (p.R *ᵥ X + p.t) ⬝ᵥ y) * (1 / 2)

/-- What one pair of bearings adds to the score (relative_pose.h:60-72). -/
noncomputable def pairScore (p : RT) (q : V3 × V3) : ℝ :=
  match point p q.1 q.2 with
  | none => 0
  | some X => agreement p q.1 q.2 X

/-- The score of a pose (relative_pose.h:58-73). -/
noncomputable def score (p : RT) (pairs : List (V3 × V3)) : ℝ := pairs.foldl (fun s q => s + pairScore p q) 0

/-- The conversion of a `double` to an `int`: toward zero. `best_decomposition` is made by `std::make_pair(0, …)`, its first
member is an `int` (relative_pose.h:37, 80). -/
noncomputable def toInt (s : ℝ) : ℤ := if 0 ≤ s then ⌊s⌋ else ⌈s⌉

/-- One comparison (relative_pose.h:75-80). -/
noncomputable def keep (best : ℤ × Option RT) (c : ℝ × RT) : ℤ × Option RT :=
  if c.1 > (best.1 : ℝ) then (toInt c.1, some c.2) else best

/-- `RelativePoseFromEssential` (relative_pose.h:13-84); `none`: the matrix returned was never written. -/
noncomputable def fromEssential (svd : M3 → Svd 3) (E : M3) (pairs : List (V3 × V3)) : Option RT :=
  (((candidates (svd E)).map (fun p => (score p pairs, p))).foldl keep (0, none)).2

/-- `RelativePose::Evaluate` (relative_pose_model.h:41-69). -/
noncomputable def evaluate (p : RT) (q : V3 × V3) : ℝ :=
  match point p (normalized q.1) (normalized q.2) with
  | none => 1
  | some X => 1 - agreement p (normalized q.1) (normalized q.2) X

/-- `ThresholdAdapter` (relative_pose_model.h:17-19). -/
noncomputable def thresholdAdapter (angle : ℝ) : ℝ := 1 - Real.cos angle

/-! ### Refinement -/

/-- The parameters of the refinement: rotation vector of the camera, centre of the camera (relative_pose.h:106-107,
157-162). -/
structure Params where
  r : V3
  c : V3

/-- The draw of a pair (relative_pose.h:97-98): `(float(rand) / RAND_MAX) * count` converted to `int`. -/
def pick (randMax count rand : ℕ) : ℕ := rand * count / randMax

/-- `RelativePoseCost` for one pair (relative_pose.h:117-142). `ceres::AngleAxisRotatePoint` is the rotation of the vector. -/
noncomputable def pairResidual (p : Params) (q : V3 × V3) : ℝ :=
  match twoMidpoint ⟨0, q.1⟩ ⟨p.c, GpsBias.vecToMat (-p.r) *ᵥ q.2⟩ with
  | none => 1
  | some X => 1 - (normalized X ⬝ᵥ q.1 + normalized (GpsBias.vecToMat p.r *ᵥ (X - p.c)) ⬝ᵥ q.2) * (1 / 2)

/-- All residuals (relative_pose.h:104-146): the picked pairs, then the length of the translation. -/
noncomputable def residuals (picked : List (V3 × V3)) (p : Params) : List ℝ :=
  picked.map (pairResidual p) ++ [1 - norm3 p.c]

/-- `RelativePoseRefinement` (relative_pose.h:148-181); `toVec`: `ceres::RotationMatrixToAngleAxis`, `solve`: the solver. -/
noncomputable def refinement (toVec : M3 → V3) (solve : (Params → List ℝ) → Params → Params) (p : RT)
    (picked : List (V3 × V3)) : RT :=
  let q := solve (residuals picked) ⟨toVec p.R, -(p.Rᵀ *ᵥ p.t)⟩
  ⟨GpsBias.vecToMat q.r, -(GpsBias.vecToMat q.r *ᵥ q.c)⟩

end Verif.RelativePose
