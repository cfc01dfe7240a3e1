import Verif.Model.Align

/-!
Model of the compensation of the GPS bias: `set_gps_bias` (/repo/opensfm/align.py:306-360), `align_reconstruction` with
`bias_override` (align.py:18-40), the position prior of a rig instance in the bundle adjustment
(/repo/opensfm/src/bundle/src/bundle_adjuster.cc:744-780, data/bias.h:33-55, error/prior_error.h:24-90), the GPS errors of the
report (/repo/opensfm/stats.py:40-49), and how the bundle adjuster hands back a bias (data/bias.h:19-31).

Simplifications: exact reals; `cv2.Rodrigues` from a matrix to a vector is a parameter (contract `IsLog`); rotation matrices are
used where ceres rotates by a vector (C92 proves them equal); the reconstruction made of the shots of a camera has the rig
instances in the order of the whole one; its instance poses are recomputed from the shot poses and are the same (C39, C49).
-/
set_option linter.unusedSectionVars false
namespace Verif.GpsBias
open Matrix Verif.Superimpose Verif.Align
open Verif.Pose (Pose Recon Similarity applySimilarity M3 V3)
variable {Id : Type} [DecidableEq Id]

/-- A reconstruction with its biases and the camera of each shot. -/
structure BRec (Id : Type) where
  a : ARec Id
  camera : Id → Id
  biases : Dict Id (Similarity ℝ)

/-- `Eigen::AngleAxisd(angle, k).toRotationMatrix()`. -/
noncomputable def angleAxis (angle : ℝ) (k : Vec 3) : Mat 3 :=
  let c := Real.cos angle
  let s := Real.sin angle
  !![c + (1 - c) * (k 0 * k 0), (1 - c) * (k 0 * k 1) - s * k 2, (1 - c) * (k 0 * k 2) + s * k 1;
    (1 - c) * (k 1 * k 0) + s * k 2, c + (1 - c) * (k 1 * k 1), (1 - c) * (k 1 * k 2) - s * k 0;
    (1 - c) * (k 2 * k 0) - s * k 1, (1 - c) * (k 2 * k 1) + s * k 0, c + (1 - c) * (k 2 * k 2)]

open Classical in
/-- `VectorToRotationMatrix` (transformations_functions.h:307-315). -/
noncomputable def vecToMat (v : Vec 3) : Mat 3 :=
  let n := Real.sqrt (v ⬝ᵥ v)
  if n = 0 then angleAxis 0 v else angleAxis n ((1 / n) • v)

/-- The reconstruction made of the shots of a camera (align.py:339-342): `add_shot` brings the whole rig instance
(types.py:216-237, map.cc:344-379), with the shots of other cameras. -/
def ofCamera (r : BRec Id) (c : Id) : ARec Id :=
  let inst := (r.a.r.shots.filter (fun e => decide (r.camera e.1 = c))).map (fun e => e.2.1)
  { r.a with r :=
    { points := []
      rigInstances := r.a.r.rigInstances.filter (fun e => decide (e.1 ∈ inst))
      rigCameras := r.a.r.rigCameras
      shots := r.a.r.shots.filter (fun e => decide (e.2.1 ∈ inst)) } }

/-- The cameras of the shots (align.py:332-334). -/
def shotCameras (r : BRec Id) : List Id := (r.a.r.shots.map (fun e => r.camera e.1)).dedup

/-- The bias of a camera from its similarity (align.py:351-357). -/
noncomputable def biasOf (toVec : Mat 3 → Vec 3) (x : ℝ × Mat 3 × Vec 3) : Similarity ℝ :=
  .mk' (vecToMat (-(toVec x.2.1))) (-((1 / x.1) • (x.2.1ᵀ *ᵥ x.2.2))) (1 / x.1)

/-- `reconstruction.set_bias` in a loop (align.py:349-358). -/
def setAll (d : Dict Id (Similarity ℝ)) : List (Id × Similarity ℝ) → Dict Id (Similarity ℝ)
  | [] => d
  | (c, b) :: rest => setAll (d.set c b) rest

/-- `set_gps_bias` (align.py:306-360): what it returns, and the reconstruction afterwards. `prior` is the alignment with an
assumed camera orientation. -/
noncomputable def setGpsBias (svd : Mat 3 → Svd 3) (eig : Mat 3 → Vec 3) (toVec : Mat 3 → Vec 3)
    (prior : ARec Id → List (Vec 3 × Vec 3) → Bool → Option (ℝ × Mat 3 × Vec 3)) (cfg : Cfg) (r : BRec Id) (gcp : List GPoint)
    (scale : Bool) : Option (ℝ × Mat 3 × Vec 3) × BRec Id :=
  match similarity svd eig (prior r.a) cfg r.a gcp false scale with
  | none => (none, r)
  | some (s, A, b) =>
    let r1 : BRec Id := { r with a := { r.a with r := applySimilarity r.a.r s A b } }
    let fits := (shotCameras r1).map (fun c => (c, similarity svd eig (prior (ofCamera r1 c)) cfg (ofCamera r1 c) [] true scale))
    if fits.any (fun e => e.2.isNone) then (some (s, A, b), r1)
    else (some (s, A, b), { r1 with biases := setAll r1.biases (fits.filterMap (fun e => e.2.map (fun x => (e.1, biasOf toVec x)))) })

/-- `align_reconstruction` (align.py:18-40); `compensate` is `bundle_compensate_gps_bias`. -/
noncomputable def alignRec (svd : Mat 3 → Svd 3) (eig : Mat 3 → Vec 3) (toVec : Mat 3 → Vec 3)
    (prior : ARec Id → List (Vec 3 × Vec 3) → Bool → Option (ℝ × Mat 3 × Vec 3)) (cfg : Cfg) (compensate : Bool) (r : BRec Id)
    (gcp : List GPoint) (useGps biasOverride : Bool) : Option (ℝ × Mat 3 × Vec 3) × BRec Id :=
  if biasOverride && compensate then setGpsBias svd eig toVec prior cfg r gcp (useScale r.a)
  else
    match align svd eig (prior r.a) cfg r.a gcp useGps with
    | (res, a) => (res, { r with a := a })

/-- The residual of the position prior of a rig instance (bundle_adjuster.cc:744-780): `position`, `sd` are the prior, `group` the
standard deviation of its group, `bias` the one of the camera of its first shot. -/
noncomputable def priorResidual (p : Pose ℝ) (position : Vec 3) (sd group : ℝ) (bias : Similarity ℝ) : Vec 3 :=
  (1 / max sd (1 / 2 ^ 52) / group) • (p.getOrigin - bias.transform position)

/-- `_gps_errors` (stats.py:40-49), one shot. -/
noncomputable def gpsError (r : BRec Id) (s : Id) : Option (Vec 3) :=
  match r.a.gps s, r.a.r.shotPose s, r.biases.get? (r.camera s) with
  | some g, some p, some b => some (p.getOrigin - b.transform g)
  | _, _, _ => none

/-- The bias that the bundle adjuster returns: `DataToValue` on a copy of the bias it was given (data/bias.h:26-30, data.h:31-35). -/
noncomputable def dataToValue (old : Similarity ℝ) (rotation translation : Vec 3) (scale : ℝ) : Similarity ℝ :=
  ⟨(old.Rt.setTranslation translation).setRotationMatrix (vecToMat rotation), scale⟩

end Verif.GpsBias
