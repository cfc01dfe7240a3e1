import Verif.Model.GpsBias
import Mathlib.Analysis.SpecialFunctions.Log.Basic

/-!
# Model of the errors minimised by the alignment of submodels

`opensfm/src/bundle/reconstruction_alignment.h`, and the use of its result in `opensfm/large/tools.py` 108-113, 295-307.

Simplifications: exact reals; the minimiser is left out (only its cost and its bounds are modelled); a product of unit
quaternions is the product of their rotation matrices, and `QuaternionToAngleAxis` is a function `toVec` of the matrix;
shots and reconstructions are given with each constraint instead of by identifier.
-/
namespace Verif.AlignCost
open Matrix Verif.Superimpose Verif.GpsBias

variable {I J : Type}

/-- The parameters of a shot, or of its pose in a reconstruction (reconstruction_alignment.h:9-17, 30-47). -/
structure Shot where
  r : Vec 3
  t : Vec 3

/-- The parameters of a reconstruction (reconstruction_alignment.h:19-28, 49-68). -/
structure Recon where
  r : Vec 3
  t : Vec 3
  s : ℝ

/-- Six numbers from twice three (the layout of the residuals, reconstruction_alignment.h:147, 174-184). -/
def join6 (a b : Vec 3) : Vec 6 := ![a 0, a 1, a 2, b 0, b 1, b 2]

/-- The residual before weighting (reconstruction_alignment.h:149-184): `m` is the pose of the shot in the reconstruction. -/
noncomputable def motionRaw (toVec : Mat 3 → Vec 3) (m : Shot) (a : Recon) (i : Shot) : Vec 6 :=
  join6 (toVec (vecToMat m.r * (vecToMat a.r * vecToMat (-i.r))))
    (vecToMat (-m.r) *ᵥ m.t - a.s • (vecToMat a.r *ᵥ (vecToMat (-i.r) *ᵥ i.t)) + a.t)

/-- `RARelativeMotionError` (reconstruction_alignment.h:140-197). -/
noncomputable def motionError (toVec : Mat 3 → Vec 3) (scale : Matrix (Fin 6) (Fin 6) ℝ) (m : Shot) (a : Recon)
    (i : Shot) : Vec 6 := scale *ᵥ motionRaw toVec m a i

/-- `RAAbsolutePositionError` (reconstruction_alignment.h:199-222). -/
noncomputable def absoluteError (c : Vec 3) (sd : ℝ) (i : Shot) : Vec 3 :=
  (1 / sd) • (c + vecToMat (-i.r) *ᵥ i.t)

/-- `transform_point` (reconstruction_alignment.h:224-234). -/
noncomputable def transformPoint (a : Recon) (x : Vec 3) : Vec 3 :=
  vecToMat (-a.r) *ᵥ (fun k => (x k - a.t k) / a.s)

/-- `RARelativeAbsolutePositionError` (reconstruction_alignment.h:236-265). -/
noncomputable def relativeAbsoluteError (c : Vec 3) (m : Shot) (sd : ℝ) (a : Recon) : Vec 3 :=
  (1 / sd) • (c - transformPoint a (-(vecToMat (-m.r) *ᵥ m.t)))

/-- `RACommonPointError` (reconstruction_alignment.h:267-296). -/
noncomputable def pointError (pa pb : Vec 3) (sd : ℝ) (a b : Recon) : Vec 3 :=
  ((1 / sd) * (a.s + b.s)) • (transformPoint a pa - transformPoint b pb)

/-- `RACommonCameraError` (reconstruction_alignment.h:298-367). -/
noncomputable def cameraError (toVec : Mat 3 → Vec 3) (ma mb : Shot) (sdCenter sdRotation : ℝ) (a b : Recon) : Vec 6 :=
  join6 ((1 / sdRotation) • toVec (vecToMat ma.r * vecToMat a.r * vecToMat (-b.r) * vecToMat (-mb.r)))
    ((1 / sdCenter) • (transformPoint a (-(vecToMat (-ma.r) *ᵥ ma.t)) - transformPoint b (-(vecToMat (-mb.r) *ᵥ mb.t))))

/-- `CauchyLoss(1.0)` of a squared norm (reconstruction_alignment.h:498). -/
noncomputable def cauchy (q : ℝ) : ℝ := Real.log (1 + q)

/-- `SoftLOneLoss(1.0)` of a squared norm (reconstruction_alignment.h:520). -/
noncomputable def softLOne (q : ℝ) : ℝ := 2 * (Real.sqrt (1 + q) - 1)

/-- A constraint, with what it concerns by index (reconstruction_alignment.h:70-138). -/
inductive Constraint (I J : Type)
  | motion (scale : Matrix (Fin 6) (Fin 6) ℝ) (m : Shot) (a : I) (i : J)
  | absolute (c : Vec 3) (sd : ℝ) (i : J)
  | relativeAbsolute (c : Vec 3) (m : Shot) (sd : ℝ) (a : I)
  | camera (ma mb : Shot) (sdCenter sdRotation : ℝ) (a b : I)
  | point (pa pb : Vec 3) (sd : ℝ) (a b : I)

/-- One residual block with its loss (reconstruction_alignment.h:497-554): twice its cost. -/
noncomputable def term (toVec : Mat 3 → Vec 3) (recs : I → Recon) (shots : J → Shot) : Constraint I J → ℝ
  | .motion scale m a i =>
    let e := motionError toVec scale m (recs a) (shots i)
    cauchy (e ⬝ᵥ e)
  | .absolute c sd i =>
    let e := absoluteError c sd (shots i)
    e ⬝ᵥ e
  | .relativeAbsolute c m sd a =>
    let e := relativeAbsoluteError c m sd (recs a)
    softLOne (e ⬝ᵥ e)
  | .camera ma mb sc sr a b =>
    let e := cameraError toVec ma mb sc sr (recs a) (recs b)
    cauchy (e ⬝ᵥ e)
  | .point pa pb sd a b =>
    let e := pointError pa pb sd (recs a) (recs b)
    softLOne (e ⬝ᵥ e)

/-- The cost that `Run` minimises (reconstruction_alignment.h:472-563). -/
noncomputable def cost (toVec : Mat 3 → Vec 3) (cs : List (Constraint I J)) (recs : I → Recon) (shots : J → Shot) : ℝ :=
  1 / 2 * (cs.map (term toVec recs shots)).sum

/-- The bounds of the scale of a reconstruction that is not constant (reconstruction_alignment.h:483-495). -/
def Bounds (a : Recon) : Prop := 1 / 10 ≤ a.s

/-- `invert_similarity` (tools.py:108-113). -/
noncomputable def invertSimilarity (s : ℝ) (A : Mat 3) (b : Vec 3) : ℝ × Mat 3 × Vec 3 :=
  (1 / s, Aᵀ, (-(1 / s)) • (Aᵀ *ᵥ b))

/-- The transformation of a reconstruction (tools.py:300-307). -/
noncomputable def transformation (a : Recon) : ℝ × Mat 3 × Vec 3 := invertSimilarity a.s (vecToMat a.r) a.t

/-- The weights of the soft constraint on a camera (tools.py:94-104, 148-157): the inverse of the Cholesky factor of the
diagonal covariance. -/
noncomputable def softScale : Matrix (Fin 6) (Fin 6) ℝ :=
  Matrix.diagonal (fun i => 1 / Real.sqrt (if (i : ℕ) < 3 then 1 / 100000 else 1 / 100))

/-- What `add_camera_constraints_soft` adds for a shot in a reconstruction (tools.py:136-159): the prior of its position
the first time. -/
noncomputable def softConstraints (m : Shot) (c : Vec 3) (sd : ℝ) (a : I) (i : J) (first : Bool) : List (Constraint I J) :=
  (if first then [.absolute c sd i] else []) ++ [.motion softScale m a i]

end Verif.AlignCost
