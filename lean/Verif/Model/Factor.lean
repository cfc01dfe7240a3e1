import Mathlib.LinearAlgebra.Matrix.NonsingularInverse
import Mathlib.Analysis.SpecialFunctions.Pow.Real
import Mathlib.Analysis.SpecialFunctions.Trigonometric.Inverse
import Mathlib.Data.Fin.VecNotation
import Mathlib.Data.Sign.Basic
import Verif.Model.Superimpose

/-!
Model of the factorisations of multiview.py: `P_from_KRt`, `KRt_from_P`, `rq`, `vector_angle`
(/repo/opensfm/multiview.py:42-119), `focal_from_homography`, `R_from_homography` and `project_to_rotation_matrix`
(multiview.py:260-302).

Simplifications: exact reals; `numpy.linalg.qr`, `numpy.linalg.svd` (and the vector of the smallest singular value
that `nullspace`, multiview.py:11-17, takes of it) are parameters; a result that is `nan` is `none`.
-/
namespace Verif.Factor
open Matrix Verif.Superimpose

/-- A camera matrix. -/
abbrev Cam := Matrix (Fin 3) (Fin 4) ℝ

/-- `P[:, :3]` (multiview.py:45, 70). -/
def left (P : Cam) : Mat 3 := P.submatrix id (Fin.castSucc)

/-- `P[:, 3]` (multiview.py:46, 75). -/
def right (P : Cam) : Vec 3 := fun i => P i (Fin.last 3)

/-- `P_from_KRt` (multiview.py:42-47). -/
def pFromKRt (K R : Mat 3) (t : Vec 3) : Cam := fun i j => Fin.lastCases ((K *ᵥ t) i) (fun j => (K * R) i j) j

/-- `np.flipud` (multiview.py:101-102). -/
def flipud (A : Mat 3) : Mat 3 := A.submatrix Fin.rev id

/-- `rq` (multiview.py:83-104): the triangular and the orthogonal factor. -/
def rq (qr : Mat 3 → Mat 3 × Mat 3) (A : Mat 3) : Mat 3 × Mat 3 :=
  let d := qr (flipud A)ᵀ
  let R := flipud d.2ᵀ
  let Q := d.1ᵀ
  (R.submatrix id Fin.rev, Q.submatrix Fin.rev id)

/-- `np.diag(np.sign(np.diag(K)))` (multiview.py:72). -/
noncomputable def signs (K : Mat 3) : Mat 3 := diagonal (fun i => (SignType.sign (K i i) : ℝ))

/-- `np.linalg.solve` (multiview.py:75); `none`: `LinAlgError`. -/
noncomputable def solve (K : Mat 3) (b : Vec 3) : Option (Vec 3) := if K.det = 0 then none else some (K⁻¹ *ᵥ b)

/-- `KRt_from_P` (multiview.py:50-80); `none`: `LinAlgError`. -/
noncomputable def krtFromP (qr : Mat 3 → Mat 3 × Mat 3) (P : Cam) : Option (Mat 3 × Mat 3 × Vec 3) :=
  let d := rq qr (left P)
  let T := signs d.1
  let K := d.1 * T
  let R := T * d.2
  match solve K (right P) with
  | none => none
  | some t =>
    let Rt := if R.det < 0 then (-R, -t) else (R, t)
    some ((1 / K 2 2) • K, Rt.1, Rt.2)

/-- `vector_angle` (multiview.py:107-119); `none`: `nan`, the quotient of two zeros. -/
noncomputable def vectorAngle {n : ℕ} (u v : Vec n) : Option ℝ :=
  if (u ⬝ᵥ u) * (v ⬝ᵥ v) = 0 then none
  else some (Real.arccos (max (-1) (min 1 ((u ⬝ᵥ v) / Real.sqrt ((u ⬝ᵥ u) * (v ⬝ᵥ v))))))

/-- `H / np.linalg.det(H) ** (1.0 / 3.0)` (multiview.py:270); `none`: the root of a negative number and the
quotient by zero, `nan` from here on. -/
noncomputable def unitDet (H : Mat 3) : Option (Mat 3) :=
  if H.det ≤ 0 then none else some ((1 / H.det ^ ((1 : ℝ) / 3)) • H)

/-- The equations of the focal length (multiview.py:271-280). -/
def focalSystem (H : Mat 3) : Matrix (Fin 6) (Fin 2) ℝ :=
  ![![H 0 0 * H 0 0 + H 0 1 * H 0 1 - 1, H 0 2 * H 0 2],
    ![H 0 0 * H 1 0 + H 0 1 * H 1 1, H 0 2 * H 1 2],
    ![H 0 0 * H 2 0 + H 0 1 * H 2 1, H 0 2 * H 2 2],
    ![H 1 0 * H 1 0 + H 1 1 * H 1 1 - 1, H 1 2 * H 1 2],
    ![H 1 0 * H 2 0 + H 1 1 * H 2 1, H 1 2 * H 2 2],
    ![H 2 0 * H 2 0 + H 2 1 * H 2 1, H 2 2 * H 2 2 - 1]]

/-- `np.sqrt(a / b)` (multiview.py:282); `none`: not a finite number. -/
noncomputable def rootOf (v : Vec 2) : Option ℝ :=
  if v 1 = 0 ∨ v 0 / v 1 < 0 then none else some (Real.sqrt (v 0 / v 1))

/-- `focal_from_homography` (multiview.py:260-283); `smallest`: the vector of the smallest singular value. -/
noncomputable def focalFromHomography (smallest : Matrix (Fin 6) (Fin 2) ℝ → Vec 2) (H : Mat 3) : Option ℝ :=
  (unitDet H).bind (fun H => rootOf (smallest (focalSystem H)))

/-- `project_to_rotation_matrix` (multiview.py:297-302) when the decomposition succeeds. -/
def project (svd : Mat 3 → Svd 3) (A : Mat 3) : Mat 3 := (svd A).u * (svd A).vh

/-- `np.diag([f, f, 1])` (multiview.py:288-290), also `K_from_camera` (multiview.py:255-257). -/
def calib (f : ℝ) : Mat 3 := diagonal ![f, f, 1]

/-- `R_from_homography` (multiview.py:286-294); `none`: `LinAlgError` of `inv`. -/
noncomputable def rFromHomography (svd : Mat 3 → Svd 3) (H : Mat 3) (f1 f2 : ℝ) : Option (Mat 3) :=
  if (calib f2).det = 0 then none else some (project svd ((calib f2)⁻¹ * H * calib f1))

end Verif.Factor
