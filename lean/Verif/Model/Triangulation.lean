import Verif.Model.Depthmap
import Mathlib.Analysis.SpecialFunctions.Trigonometric.Inverse

/-!
Model of the triangulation of points from rays (/repo/opensfm/src/geometry/triangulation.h and
src/triangulation.cc, /repo/opensfm/matching.py:805-845, /repo/opensfm/multiview.py:556-589 and
/repo/opensfm/src/sfm/src/ba_helpers.cc:314-347).

Simplifications: numbers are exact reals. Where the code computes NaN (the angle of a zero vector, the inverse of a
singular matrix) the model has the value Mathlib gives to a division by zero; the theorems assume what excludes it.
-/
namespace Verif.Triangulation
open Verif.Depthmap Matrix

/-- A ray: the centre of the camera and the bearing, in world coordinates. -/
structure Ray where
  c : V3
  b : V3

/-- `AngleBetweenVectors` (triangulation.cc:65-72). -/
noncomputable def angleBetween (u v : V3) : ℝ :=
  let c := (u ⬝ᵥ v) / Real.sqrt ((u ⬝ᵥ u) * (v ⬝ᵥ v))
  if |c| ≥ 1 then 0 else Real.arccos c

/-- The test of one pair of rays (triangulation.cc:88-90, 153-155). -/
def wide (minAngle : ℝ) (u v : V3) : Prop :=
  angleBetween u v ≥ minAngle ∧ angleBetween u v ≤ Real.pi - minAngle

/-- The double loop with early exit over the pairs of bearings (triangulation.cc:81-94, 149-157); `seen` are the bearings
before, the last one first. -/
def angleOk (minAngle : ℝ) : List V3 → List V3 → Prop
  | _, [] => False
  | seen, b :: rest => (∃ p ∈ seen, wide minAngle b p) ∨ angleOk minAngle (b :: seen) rest

/-- `TriangulateBearingsMidpointSolve` (triangulation.h:58-82). -/
noncomputable def midpointSolve (rays : List Ray) : V3 :=
  let n : ℝ := rays.length
  let BBt : M3 := (rays.map (fun r : Ray => vecMulVec r.b r.b)).sum
  let BBtA : V3 := (rays.map (fun r : Ray => vecMulVec r.b r.b *ᵥ r.c)).sum
  let A : V3 := (rays.map (fun r : Ray => r.c)).sum
  let Cinv : M3 := (n • (1 : M3) - BBt)⁻¹
  (1 / n) • (((1 : M3) + BBt * Cinv) *ᵥ A) - Cinv *ᵥ BBtA

/-- The test of the solution for one ray (triangulation.cc:165-173): direction from the centre, bearing, threshold. -/
def fits (minDepth : ℝ) (projected measured : V3) (threshold : ℝ) : Prop :=
  ¬ angleBetween projected measured > threshold ∧ ¬ projected ⬝ᵥ measured < minDepth

open Classical in
/-- `TriangulateBearingsMidpoint` (triangulation.cc:139-178). -/
noncomputable def midpoint (rays : List Ray) (thresholds : List ℝ) (minAngle minDepth : ℝ) : Option V3 :=
  if thresholds.length < rays.length then none
  else if ¬ angleOk minAngle [] (rays.map Ray.b) then none
  else
    let X := midpointSolve rays
    if ∀ p ∈ rays.zip thresholds, fits minDepth (X - p.1.c) p.1.b p.2 then some X else none

open Classical in
/-- `TriangulateTwoBearingsMidpointSolve` (triangulation.h:84-110). -/
noncomputable def twoMidpoint (r1 r2 : Ray) : Option V3 :=
  let translation := r2.c - r1.c
  let b : Fin 2 → ℝ := ![translation ⬝ᵥ r1.b, translation ⬝ᵥ r2.b]
  let A : Matrix (Fin 2) (Fin 2) ℝ := !![r1.b ⬝ᵥ r1.b, -(r1.b ⬝ᵥ r2.b); r1.b ⬝ᵥ r2.b, -(r2.b ⬝ᵥ r2.b)]
  let eps : ℝ := 1 / 10 ^ 10
  if -eps < A.det ∧ A.det < eps then none
  else
    let lambdas := A⁻¹ *ᵥ b
    let x1 := r1.c + lambdas 0 • r1.b
    let x2 := r2.c + lambdas 1 • r2.b
    some ((1 / 2 : ℝ) • (x1 + x2))

/-- `TriangulateTwoBearingsMidpointMany` for one pair of bearings (triangulation.cc:180-193): the first camera at the
origin, the second at `t` with rotation `R` from the second camera to the first. -/
noncomputable def twoMany (b1 b2 : V3) (R : M3) (t : V3) : Option V3 := twoMidpoint ⟨0, b1⟩ ⟨t, R *ᵥ b2⟩

/-- The Euclidean norm. -/
noncomputable def norm3 (v : V3) : ℝ := Real.sqrt (v ⬝ᵥ v)

/-- `v / np.linalg.norm(v)`. -/
noncomputable def normalized (v : V3) : V3 := (1 / norm3 v) • v

open Classical in
/-- `compute_inliers_bearings` for one pair of bearings (matching.py:805-845). -/
noncomputable def inlierBearings (b1 b2 : V3) (R : M3) (t : V3) (threshold : ℝ) : Bool :=
  match twoMany b1 b2 R t with
  | none => false
  | some X =>
    decide (norm3 (normalized X - b1) < threshold) && decide (norm3 (normalized (Rᵀ *ᵥ (X - t)) - b2) < threshold)

/-- A camera matrix `[R|t]`, world to camera (`Mat34d`). -/
structure Cam where
  R : M3
  t : V3

/-- `Rt * X` with a homogeneous point. -/
def Cam.apply (p : Cam) (w : V3) (s : ℝ) : V3 := p.R *ᵥ w + s • p.t

/-- A camera with the bearing of the observation in the camera frame. -/
structure Obs where
  cam : Cam
  b : V3

/-- The two rows of the system of one view applied to a homogeneous point (triangulation.cc:122-127). -/
def dltRows (o : Obs) (w : V3) (s : ℝ) : ℝ × ℝ :=
  let p := o.cam.apply w s
  (o.b 0 * p 2 - o.b 2 * p 0, o.b 1 * p 2 - o.b 2 * p 1)

/-- The squared norm of the system applied to a homogeneous point. -/
def dltCost (obs : List Obs) (v : V3 × ℝ) : ℝ :=
  (obs.map (fun o : Obs => (dltRows o v.1 v.2).1 ^ 2 + (dltRows o v.1 v.2).2 ^ 2)).sum

/-- What the singular value decomposition returns (triangulation.cc:129-134): the last right singular vector is a unit
vector for which the system is least. Simplification: which one of them is not modelled. -/
structure IsDLTSolve (obs : List Obs) (v : V3 × ℝ) : Prop where
  unit : v.1 ⬝ᵥ v.1 + v.2 ^ 2 = 1
  least : ∀ u : V3 × ℝ, u.1 ⬝ᵥ u.1 + u.2 ^ 2 = 1 → dltCost obs v ≤ dltCost obs u

open Classical in
/-- `TriangulateBearingsDLT` (triangulation.cc:73-114); `v` is the result of the decomposition. -/
noncomputable def dlt (v : V3 × ℝ) (obs : List Obs) (threshold minAngle minDepth : ℝ) : Option V3 :=
  if ¬ angleOk minAngle [] (obs.map (fun o : Obs => o.cam.Rᵀ *ᵥ o.b)) then none
  else
    let X := (1 / v.2) • v.1
    if ∀ o ∈ obs, fits minDepth (o.cam.apply X 1) o.b threshold then some X else none

/-- The cross product. -/
def cross (u v : V3) : V3 := ![u 1 * v 2 - u 2 * v 1, u 2 * v 0 - u 0 * v 2, u 0 * v 1 - u 1 * v 0]

/-- `EpipolarAngleTwoBearingsMany` for one pair of bearings (triangulation.cc:195-222). -/
noncomputable def epipolarAngle (b1 b2 : V3) (R : M3) (t : V3) : ℝ :=
  let tn := normalized t
  let w2 := R *ᵥ b2
  let epi1 := normalized (cross tn b1)
  let epi2 := normalized (cross tn w2)
  Real.pi / 2 - Real.arccos ((|epi1 ⬝ᵥ w2| + |b1 ⬝ᵥ epi2|) / 2)

/-- What the triangulation of a ground control point uses of a shot: centre, rotation from the world, and the bearing of a
pixel. -/
structure GShot where
  center : V3
  R : M3
  bearing : ℝ × ℝ → V3

/-- The rays of the observations in shots that exist (multiview.py:565-576, ba_helpers.cc:326-338). -/
def gcpRays {S : Type} (shots : S → Option GShot) (observations : List (S × (ℝ × ℝ))) : List Ray :=
  observations.filterMap (fun o => (shots o.1).map (fun s : GShot => (⟨s.center, s.Rᵀ *ᵥ s.bearing o.2⟩ : Ray)))

/-- `triangulate_gcp` (multiview.py:556-589) with the default parameters. -/
noncomputable def gcpPython {S : Type} (shots : S → Option GShot) (observations : List (S × (ℝ × ℝ))) : Option V3 :=
  let rays := gcpRays shots observations
  if rays.length ≥ 2 then midpoint rays (List.replicate rays.length (2 / 100)) (Real.pi / 180) (1 / 1000) else none

/-- `BAHelpers::TriangulateGCP` (ba_helpers.cc:314-347). -/
noncomputable def gcpCpp {S : Type} (shots : S → Option GShot) (observations : List (S × (ℝ × ℝ))) : Option V3 :=
  let rays := gcpRays shots observations
  if rays.length ≥ 2 then midpoint rays (List.replicate rays.length 1) (1 / 10 * Real.pi / 180) (1 / 1000) else none

end Verif.Triangulation
