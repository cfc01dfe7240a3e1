import Verif.Spec.ExportColmap
import Verif.Model.ExportColmap
import Verif.Model.Angles
import Verif.Lemmas.TracksManager
import Verif.Props.ExportText
import Mathlib.Tactic.Linarith
import Mathlib.Tactic.NormNum
import Mathlib.Tactic.FieldSimp
import Mathlib.Tactic.FinCases
import Mathlib.Tactic.LinearCombination
import Mathlib.Analysis.SpecialFunctions.Complex.Arg
import Mathlib.Analysis.SpecialFunctions.Complex.Arctan

/-!
# C115 — COLMAP files
-/
set_option linter.unusedSectionVars false
set_option linter.unusedSimpArgs false
set_option linter.unusedVariables false
namespace Verif.ExportColmap

variable {Id T C : Type} [DecidableEq Id] [DecidableEq T] [DecidableEq C]

/-! ### Pairs of images -/

/-- C115: the identifier of a pair gives the two images back, the smaller one first, as long as the identifiers are below `2^31 - 1`. -/
theorem C115_pair_id (i j : ℕ) (hi : i < 2 ^ 31 - 1) (hj : j < 2 ^ 31 - 1) : imageIds (pairId i j) = (min i j, max i j) := by
  unfold imageIds pairId
  have key : ∀ a b : ℕ, b < maxImageId → ((a * maxImageId + b - (a * maxImageId + b) % maxImageId) / maxImageId, (a * maxImageId + b) % maxImageId) = (a, b) := by
    intro a b hb
    have h1 : (a * maxImageId + b) % maxImageId = b := by
      rw [Nat.add_comm, Nat.add_mul_mod_self_right, Nat.mod_eq_of_lt hb]
    rw [h1, Nat.add_sub_cancel, Nat.mul_div_cancel _ (by unfold maxImageId; norm_num)]
  split
  · rw [key _ _ hi, min_eq_right (by omega), max_eq_left (by omega)]
  · rw [key _ _ hj, min_eq_left (by omega), max_eq_right (by omega)]

/-- The largest identifiers allowed by the table of images. -/
example : imageIds (pairId 2147483646 7) = (7, 2147483646) := by
  rw [C115_pair_id _ _ (by norm_num) (by norm_num)]; rfl

/-- One more and the pair is lost. -/
example : imageIds (pairId 2147483647 7) = (8, 0) := by unfold imageIds pairId maxImageId; norm_num

/-! ### Cameras -/

/-- What a COLMAP camera says about a point is what OpenSfM says, in pixels from the corner of the image. -/
def SameProjection (c : Cam) (row : CameraRow) (x : Fin 3 → ℝ) : Prop :=
  Spec.project row.model row.params x =
    some (max (c.width : ℝ) c.height * Camera.project c.kind c.values x 0 + c.width / 2, max (c.width : ℝ) c.height * Camera.project c.kind c.values x 1 + c.height / 2)

/-- C115: a perspective camera is exported as a camera with the same projection. -/
theorem C115_perspective (c : Cam) (i : ℕ) (row : CameraRow) (hk : c.kind = .perspective) (h : cameraRow i c = some row) (x : Fin 3 → ℝ) :
    SameProjection c row x ∧ row.id = i ∧ row.width = c.width ∧ row.height = c.height := by
  unfold cameraRow params at h
  rw [hk] at h
  obtain rfl := Option.some.inj h
  refine ⟨?_, rfl, rfl, rfl⟩
  unfold SameProjection
  rw [hk]
  simp only [Spec.project, Option.some.injEq, Spec.radial, Nat.cast_max]
  have hproj : ∀ k, Camera.project .perspective c.values x k =
      (![c.values 2 * ((x 0 / x 2) * (1 + ((x 0 / x 2) * (x 0 / x 2) + (x 1 / x 2) * (x 1 / x 2)) * (c.values 0 + c.values 1 * ((x 0 / x 2) * (x 0 / x 2) + (x 1 / x 2) * (x 1 / x 2))))),
        c.values 2 * ((x 1 / x 2) * (1 + ((x 0 / x 2) * (x 0 / x 2) + (x 1 / x 2) * (x 1 / x 2)) * (c.values 0 + c.values 1 * ((x 0 / x 2) * (x 0 / x 2) + (x 1 / x 2) * (x 1 / x 2)))))] : Fin 2 → ℝ) k := by
    intro k
    fin_cases k <;>
      simp [Camera.project, Camera.camera, Camera.generic, Camera.compose, Camera.perspective, Camera.disto24, Camera.uniformScale, Camera.disto24Dist,
        Camera.sqNorm, Camera.Ptr.shift]
  rw [hproj, hproj]
  generalize x 0 / x 2 = u
  generalize x 1 / x 2 = v
  refine Prod.ext ?_ ?_
  · simp; ring
  · simp; ring

/-- C115: a brown camera is exported as a camera with the same projection. -/
theorem C115_brown (c : Cam) (i : ℕ) (row : CameraRow) (hk : c.kind = .brown) (h : cameraRow i c = some row) (x : Fin 3 → ℝ) :
    SameProjection c row x ∧ row.id = i ∧ row.width = c.width ∧ row.height = c.height := by
  unfold cameraRow params at h
  rw [hk] at h
  obtain rfl := Option.some.inj h
  refine ⟨?_, rfl, rfl, rfl⟩
  unfold SameProjection
  rw [hk]
  simp only [Spec.project, Option.some.injEq, Spec.fullOpencv, Nat.cast_max]
  have hproj : ∀ k, Camera.project .brown c.values x k =
      (![c.values 5 * Camera.brownFwd ![x 0 / x 2, x 1 / x 2] c.values 0 + c.values 7,
        c.values 5 * c.values 6 * Camera.brownFwd ![x 0 / x 2, x 1 / x 2] c.values 1 + c.values 8] : Fin 2 → ℝ) k := by
    intro k
    fin_cases k <;>
      simp [Camera.project, Camera.camera, Camera.generic, Camera.compose, Camera.perspective, Camera.brown, Camera.affine, Camera.Ptr.shift, Camera.brownFwd]
  rw [hproj, hproj]
  generalize x 0 / x 2 = u
  generalize x 1 / x 2 = v
  refine Prod.ext ?_ ?_
  · simp [Camera.brownFwd, Camera.radial3, Camera.tangential, Camera.sqNorm]; ring
  · simp [Camera.brownFwd, Camera.radial3, Camera.tangential, Camera.sqNorm]; ring

/-- The angle between the axis and a point in front of the camera. -/
theorem atan2_div (r z : ℝ) (hz : 0 < z) : Camera.atan2 r z = Real.arctan (r / z) := by
  unfold Camera.atan2
  rw [Complex.arg_of_re_nonneg (by exact hz.le), Real.arctan_eq_arcsin]
  congr 1
  show r / ‖(⟨z, r⟩ : ℂ)‖ = _
  rw [Complex.norm_eq_sqrt_sq_add_sq]
  show r / Real.sqrt (z ^ 2 + r ^ 2) = _
  have h1 : Real.sqrt (1 + (r / z) ^ 2) = Real.sqrt (z ^ 2 + r ^ 2) / z := by
    rw [show 1 + (r / z) ^ 2 = (z ^ 2 + r ^ 2) / z ^ 2 by field_simp, Real.sqrt_div (by positivity), Real.sqrt_sq hz.le]
  rw [h1]
  have : Real.sqrt (z ^ 2 + r ^ 2) ≠ 0 := (Real.sqrt_pos.2 (by positivity)).ne'
  field_simp

/-- The fisheye of OpenSfM for a point in front of the camera, away from the axis. -/
theorem fisheye_eq (x : Fin 3 → ℝ) (hz : 0 < x 2) (ha : 1 / 100000000 ≤ Real.sqrt (x 0 * x 0 + x 1 * x 1)) (k : Camera.Ptr) :
    Camera.fisheye.fwd x k = ![(Spec.fisheye (x 0 / x 2) (x 1 / x 2)).1, (Spec.fisheye (x 0 / x 2) (x 1 / x 2)).2] := by
  have hr : Real.sqrt ((x 0 / x 2) ^ 2 + (x 1 / x 2) ^ 2) = Real.sqrt (x 0 * x 0 + x 1 * x 1) / x 2 := by
    rw [show (x 0 / x 2) ^ 2 + (x 1 / x 2) ^ 2 = (x 0 * x 0 + x 1 * x 1) / x 2 ^ 2 by field_simp, Real.sqrt_div (add_nonneg (mul_self_nonneg _) (mul_self_nonneg _)), Real.sqrt_sq hz.le]
  have hp : 0 < Real.sqrt (x 0 * x 0 + x 1 * x 1) := lt_of_lt_of_le (by norm_num) ha
  unfold Spec.fisheye
  simp only [hr]
  rw [if_neg (div_pos hp hz).ne']
  have hs : Camera.sqNorm x = x 0 * x 0 + x 1 * x 1 := rfl
  show (if Real.sqrt (Camera.sqNorm x) < Camera.tiny then ![x 0 / x 2, x 1 / x 2]
    else ![Camera.atan2 (Real.sqrt (Camera.sqNorm x)) (x 2) / Real.sqrt (Camera.sqNorm x) * x 0,
      Camera.atan2 (Real.sqrt (Camera.sqNorm x)) (x 2) / Real.sqrt (Camera.sqNorm x) * x 1]) = _
  rw [hs, if_neg (by unfold Camera.tiny; linarith), atan2_div _ _ hz]
  congr 1
  · field_simp
  · congr 1; field_simp

/-- C115: a fisheye camera is exported as a camera with the same projection, for points in front of the camera and away from its axis (the code uses the
perspective projection within `10^-8` of the axis). -/
theorem C115_fisheye (c : Cam) (i : ℕ) (row : CameraRow) (hk : c.kind = .fisheye) (h : cameraRow i c = some row) (x : Fin 3 → ℝ) (hz : 0 < x 2)
    (ha : 1 / 100000000 ≤ Real.sqrt (x 0 * x 0 + x 1 * x 1)) :
    SameProjection c row x ∧ row.id = i ∧ row.width = c.width ∧ row.height = c.height := by
  unfold cameraRow params at h
  rw [hk] at h
  obtain rfl := Option.some.inj h
  refine ⟨?_, rfl, rfl, rfl⟩
  unfold SameProjection
  rw [hk]
  simp only [Spec.project, Option.some.injEq, Spec.radial, Nat.cast_max]
  have hproj : ∀ k, Camera.project .fisheye c.values x k =
      (![c.values 2 * (Camera.disto24.fwd (Camera.fisheye.fwd x c.values) c.values 0), c.values 2 * (Camera.disto24.fwd (Camera.fisheye.fwd x c.values) c.values 1)] : Fin 2 → ℝ) k := by
    intro k
    fin_cases k <;>
      simp [Camera.project, Camera.camera, Camera.generic, Camera.compose, Camera.disto24, Camera.uniformScale, Camera.Ptr.shift, Camera.fisheye]
  rw [hproj, hproj, fisheye_eq x hz ha]
  generalize Spec.fisheye (x 0 / x 2) (x 1 / x 2) = p
  refine Prod.ext ?_ ?_
  · simp [Camera.disto24, Camera.disto24Dist, Camera.sqNorm]; ring
  · simp [Camera.disto24, Camera.disto24Dist, Camera.sqNorm]; ring

/-- C115: an OpenCV fisheye camera is exported as a camera with the same projection exactly when its principal point is in the middle (or the image has one pixel):
the offset of the principal point is not multiplied with the size of the image. -/
theorem C115_fisheye_opencv (c : Cam) (i : ℕ) (row : CameraRow) (hk : c.kind = .fisheyeOpencv) (h : cameraRow i c = some row) (x : Fin 3 → ℝ) (hz : 0 < x 2)
    (ha : 1 / 100000000 ≤ Real.sqrt (x 0 * x 0 + x 1 * x 1)) :
    SameProjection c row x ↔ (c.values 6 = 0 ∧ c.values 7 = 0) ∨ max c.width c.height = 1 := by
  unfold cameraRow params at h
  rw [hk] at h
  obtain rfl := Option.some.inj h
  unfold SameProjection
  rw [hk]
  simp only [Spec.project, Option.some.injEq, Spec.opencvFisheye, Nat.cast_max]
  have hproj : ∀ k, Camera.project .fisheyeOpencv c.values x k =
      (![c.values 4 * (Camera.disto2468.fwd (Camera.fisheye.fwd x c.values) c.values 0) + c.values 6,
        c.values 4 * c.values 5 * (Camera.disto2468.fwd (Camera.fisheye.fwd x c.values) c.values 1) + c.values 7] : Fin 2 → ℝ) k := by
    intro k
    fin_cases k <;>
      simp [Camera.project, Camera.camera, Camera.generic, Camera.compose, Camera.disto2468, Camera.affine, Camera.Ptr.shift, Camera.fisheye]
  rw [hproj, hproj, fisheye_eq x hz ha]
  generalize Spec.fisheye (x 0 / x 2) (x 1 / x 2) = p
  obtain ⟨M, hM⟩ : ∃ M : ℝ, M = max (c.width : ℝ) c.height := ⟨_, rfl⟩
  have hM1 : max c.width c.height = 1 ↔ M = 1 := by rw [hM, ← Nat.cast_max]; exact_mod_cast Iff.rfl
  rw [← hM, hM1, Prod.mk.injEq]
  have e0 : (c.values 4 * M * (p.1 + p.1 * (c.values 0 * (p.1 ^ 2 + p.2 ^ 2) + c.values 1 * (p.1 ^ 2 + p.2 ^ 2) ^ 2 + c.values 2 * (p.1 ^ 2 + p.2 ^ 2) ^ 3 + c.values 3 * (p.1 ^ 2 + p.2 ^ 2) ^ 4)) +
      (c.width * (1 / 2) + c.values 6) = M * (![c.values 4 * (Camera.disto2468.fwd ![p.1, p.2] c.values 0) + c.values 6,
        c.values 4 * c.values 5 * (Camera.disto2468.fwd ![p.1, p.2] c.values 1) + c.values 7] : Fin 2 → ℝ) 0 + c.width / 2) ↔ (M - 1) * c.values 6 = 0 := by
    simp only [Camera.disto2468, Camera.disto2468Dist, Camera.sqNorm, Matrix.cons_val_zero, Matrix.cons_val_one]
    constructor
    · intro g; linear_combination -g
    · intro g; linear_combination -g
  have e1 : (c.values 4 * M * c.values 5 * (p.2 + p.2 * (c.values 0 * (p.1 ^ 2 + p.2 ^ 2) + c.values 1 * (p.1 ^ 2 + p.2 ^ 2) ^ 2 + c.values 2 * (p.1 ^ 2 + p.2 ^ 2) ^ 3 + c.values 3 * (p.1 ^ 2 + p.2 ^ 2) ^ 4)) +
      (c.height * (1 / 2) + c.values 7) = M * (![c.values 4 * (Camera.disto2468.fwd ![p.1, p.2] c.values 0) + c.values 6,
        c.values 4 * c.values 5 * (Camera.disto2468.fwd ![p.1, p.2] c.values 1) + c.values 7] : Fin 2 → ℝ) 1 + c.height / 2) ↔ (M - 1) * c.values 7 = 0 := by
    simp only [Camera.disto2468, Camera.disto2468Dist, Camera.sqNorm, Matrix.cons_val_zero, Matrix.cons_val_one]
    constructor
    · intro g; linear_combination -g
    · intro g; linear_combination -g
  rw [e0, e1, mul_eq_zero, mul_eq_zero, sub_eq_zero]
  tauto

/-- C115: the other cameras are not exported. -/
theorem C115_unsupported (c : Cam) (i : ℕ) : cameraRow i c = none ↔ c.kind ≠ .perspective ∧ c.kind ≠ .brown ∧ c.kind ≠ .fisheye ∧ c.kind ≠ .fisheyeOpencv := by
  unfold cameraRow params modelId
  cases c.kind <;> simp

/-! ### Rotations -/

/-- C115: the quaternion of a rotation vector of length between 0 (excluded) and a full turn is a unit quaternion of the same rotation. -/
theorem C115_quaternion (v : Fin 3 → ℝ) (h0 : v ≠ 0) (h1 : Real.sqrt (v 0 * v 0 + v 1 * v 1 + v 2 * v 2) ≤ 2 * Real.pi) :
    ∃ w x y z, quaternion v = ![some w, some x, some y, some z] ∧ w ^ 2 + x ^ 2 + y ^ 2 + z ^ 2 = 1 ∧
      ∀ p : Fin 3 → ℝ, Spec.rotate w x y z p = Matrix.mulVec (Angles.rodrigues v) p := by
  have hsum : 0 < v 0 * v 0 + v 1 * v 1 + v 2 * v 2 := by
    by_contra hc
    apply h0
    have g0 := mul_self_nonneg (v 0)
    have g1 := mul_self_nonneg (v 1)
    have g2 := mul_self_nonneg (v 2)
    funext i
    fin_cases i
    · exact mul_self_eq_zero.1 (show v 0 * v 0 = 0 by linarith)
    · exact mul_self_eq_zero.1 (show v 1 * v 1 = 0 by linarith)
    · exact mul_self_eq_zero.1 (show v 2 * v 2 = 0 by linarith)
  obtain ⟨a, ha⟩ : ∃ a, a = Real.sqrt (v 0 * v 0 + v 1 * v 1 + v 2 * v 2) := ⟨_, rfl⟩
  have hapos : 0 < a := by rw [ha]; exact Real.sqrt_pos.2 hsum
  have hasq : a ^ 2 = v 0 * v 0 + v 1 * v 1 + v 2 * v 2 := by rw [ha]; exact Real.sq_sqrt hsum.le
  have hn : AlignPrior.norm v = a := by
    rw [ha]
    unfold AlignPrior.norm
    congr 1
    simp [dotProduct, Fin.sum_univ_three]
  have hs : Real.sqrt (1 - Real.cos (a / 2) * Real.cos (a / 2)) = Real.sin (a / 2) := by
    rw [show 1 - Real.cos (a / 2) * Real.cos (a / 2) = Real.sin (a / 2) ^ 2 by rw [Real.sin_sq]; ring]
    exact Real.sqrt_sq (Real.sin_nonneg_of_nonneg_of_le_pi (by linarith) (by rw [← ha] at h1; linarith))
  have hcs := Real.sin_sq_add_cos_sq (a / 2)
  have hcos : Real.cos a = 1 - 2 * Real.sin (a / 2) ^ 2 := by
    have := Real.cos_two_mul (a / 2)
    rw [show 2 * (a / 2) = a by ring] at this
    linarith
  have hsin : Real.sin a = 2 * Real.sin (a / 2) * Real.cos (a / 2) := by
    have := Real.sin_two_mul (a / 2)
    rw [show 2 * (a / 2) = a by ring] at this
    exact this
  obtain ⟨S, hS⟩ : ∃ S, S = Real.sin (a / 2) := ⟨_, rfl⟩
  obtain ⟨W, hW⟩ : ∃ W, W = Real.cos (a / 2) := ⟨_, rfl⟩
  obtain ⟨k0, hk0⟩ : ∃ k, k = v 0 / a := ⟨_, rfl⟩
  obtain ⟨k1, hk1⟩ : ∃ k, k = v 1 / a := ⟨_, rfl⟩
  obtain ⟨k2, hk2⟩ : ∃ k, k = v 2 / a := ⟨_, rfl⟩
  have hk : k0 ^ 2 + k1 ^ 2 + k2 ^ 2 = 1 := by
    rw [hk0, hk1, hk2, div_pow, div_pow, div_pow, ← add_div, ← add_div, div_eq_one_iff_eq (by positivity), hasq]; ring
  rw [← hS, ← hW] at hcs
  refine ⟨W, k0 * S, k1 * S, k2 * S, ?_, ?_, ?_⟩
  · unfold quaternion
    simp only [← ha, hs, if_neg hapos.ne']
    rw [← hS, ← hW, ← hk0, ← hk1, ← hk2]
  · linear_combination hcs + S ^ 2 * hk
  · intro p
    unfold Angles.rodrigues
    simp only [hn]
    rw [if_neg hapos.ne', hcos, hsin, ← hS, ← hW]
    have e0 : 1 / a * v 0 = k0 := by rw [hk0]; ring
    have e1 : 1 / a * v 1 = k1 := by rw [hk1]; ring
    have e2 : 1 / a * v 2 = k2 := by rw [hk2]; ring
    have c0 : Spec.rotate W (k0 * S) (k1 * S) (k2 * S) p 0 = Matrix.mulVec (Matrix.diagonal (fun _ => 1 - 2 * S ^ 2) + (1 - (1 - 2 * S ^ 2)) • Matrix.vecMulVec ((1 / a) • v) ((1 / a) • v) +
        (2 * S * W) • !![0, -((1 / a) • v) 2, ((1 / a) • v) 1; ((1 / a) • v) 2, 0, -((1 / a) • v) 0; -((1 / a) • v) 1, ((1 / a) • v) 0, 0]) p 0 := by
      simp only [Spec.rotate, Matrix.mulVec, dotProduct, Fin.sum_univ_three, Matrix.add_apply, Matrix.smul_apply, Matrix.vecMulVec_apply, Pi.smul_apply, smul_eq_mul, e0, e1, e2]
      simp [Matrix.diagonal]
      linear_combination (-2 * S ^ 2 * p 0) * hk
    have c1 : Spec.rotate W (k0 * S) (k1 * S) (k2 * S) p 1 = Matrix.mulVec (Matrix.diagonal (fun _ => 1 - 2 * S ^ 2) + (1 - (1 - 2 * S ^ 2)) • Matrix.vecMulVec ((1 / a) • v) ((1 / a) • v) +
        (2 * S * W) • !![0, -((1 / a) • v) 2, ((1 / a) • v) 1; ((1 / a) • v) 2, 0, -((1 / a) • v) 0; -((1 / a) • v) 1, ((1 / a) • v) 0, 0]) p 1 := by
      simp only [Spec.rotate, Matrix.mulVec, dotProduct, Fin.sum_univ_three, Matrix.add_apply, Matrix.smul_apply, Matrix.vecMulVec_apply, Pi.smul_apply, smul_eq_mul, e0, e1, e2]
      simp [Matrix.diagonal]
      linear_combination (-2 * S ^ 2 * p 1) * hk
    have c2 : Spec.rotate W (k0 * S) (k1 * S) (k2 * S) p 2 = Matrix.mulVec (Matrix.diagonal (fun _ => 1 - 2 * S ^ 2) + (1 - (1 - 2 * S ^ 2)) • Matrix.vecMulVec ((1 / a) • v) ((1 / a) • v) +
        (2 * S * W) • !![0, -((1 / a) • v) 2, ((1 / a) • v) 1; ((1 / a) • v) 2, 0, -((1 / a) • v) 0; -((1 / a) • v) 1, ((1 / a) • v) 0, 0]) p 2 := by
      simp only [Spec.rotate, Matrix.mulVec, dotProduct, Fin.sum_univ_three, Matrix.add_apply, Matrix.smul_apply, Matrix.vecMulVec_apply, Pi.smul_apply, smul_eq_mul, e0, e1, e2]
      simp [Matrix.diagonal]
      linear_combination (-2 * S ^ 2 * p 2) * hk
    funext i
    fin_cases i
    · exact c0
    · exact c1
    · exact c2

/-- C115: the quaternion of no rotation is not a number. -/
theorem C115_quaternion_zero : quaternion 0 = ![some 1, none, none, none] := by
  unfold quaternion
  simp

/-! ### Loops -/

theorem foldlM_inv {α β : Type} (g : β → α → Option β) (Inv : List α → β → Prop) (step : ∀ D a x b, Inv D a → g a x = some b → Inv (D ++ [x]) b) (L : List α) :
    ∀ D a b, Inv D a → L.foldlM g a = some b → Inv (D ++ L) b := by
  induction L with
  | nil =>
    intro D a b h hb
    have : a = b := by simpa using hb
    subst this
    simpa using h
  | cons x t ih =>
    intro D a b h hb
    rw [List.foldlM_cons] at hb
    cases hx : g a x with
    | none => rw [hx] at hb; exact absurd hb (by simp)
    | some c =>
      rw [hx] at hb
      have := ih _ c b (step D a x c h hx) hb
      rwa [List.append_assoc] at this

theorem foldlM_flat {α β γ : Type} (L : α → List β) (g : α → γ → β → Option γ) (recs : List α) : ∀ a : γ,
    recs.foldlM (fun acc r => (L r).foldlM (g r) acc) a = (recs.flatMap fun r => (L r).map fun x => (r, x)).foldlM (fun acc e => g e.1 acc e.2) a := by
  induction recs with
  | nil => intro a; rfl
  | cons r t ih =>
    intro a
    rw [List.foldlM_cons, List.flatMap_cons, List.foldlM_append, List.foldlM_map]
    refine bind_congr fun b => ?_
    exact ih b

/-! ### Images -/

/-- What the loop over the images has done. -/
structure ImageInv (camera : Id → C) (cameraMap : Dict C ℕ) (D : List Id) (a : List (ℕ × Id × ℕ) × Dict Id ℕ) : Prop where
  rows : List.Forall₂ (fun i (row : ℕ × Id × ℕ) => row.2.1 = i ∧ cameraMap.get? (camera i) = some row.2.2) D a.1
  ids : a.1.map Prod.fst = List.range' 1 D.length
  index : ∀ i n, a.2.get? i = some n ↔ 1 ≤ n ∧ D[n - 1]? = some i
  nodup : D.Nodup

theorem image_step (camera : Id → C) (cameraMap : Dict C ℕ) (D : List Id) (a : List (ℕ × Id × ℕ) × Dict Id ℕ) (x : Id) (b : List (ℕ × Id × ℕ) × Dict Id ℕ)
    (h : ImageInv camera cameraMap D a) (hb : addImage camera cameraMap a x = some b) : ImageInv camera cameraMap (D ++ [x]) b := by
  unfold addImage at hb
  cases hc : cameraMap.get? (camera x) with
  | none => rw [hc] at hb; exact absurd hb (by simp)
  | some c =>
    rw [hc] at hb
    simp only at hb
    by_cases hx : a.2.has x = true
    · rw [if_pos hx] at hb; exact absurd hb (by simp)
    · rw [if_neg hx] at hb
      obtain rfl := Option.some.inj hb
      have hlen : D.length = a.1.length := h.rows.length_eq
      have hxD : x ∉ D := by
        intro hm
        obtain ⟨k, hk⟩ := List.getElem?_of_mem hm
        have := (h.index x (k + 1)).2 ⟨by omega, by simpa using hk⟩
        exact hx (by unfold Dict.has; rw [this]; rfl)
      refine ⟨List.rel_append h.rows (List.Forall₂.cons ⟨rfl, hc⟩ List.Forall₂.nil), ?_, ?_, ?_⟩
      · rw [List.map_append, h.ids, List.length_append, List.length_singleton, List.range'_append_1.symm, hlen]
        simp [Nat.add_comm]
      · intro i n
        simp only [Dict.get?_set]
        by_cases hxi : x = i
        · rw [if_pos hxi]
          subst hxi
          constructor
          · intro g
            obtain rfl := Option.some.inj g
            exact ⟨by omega, by rw [Nat.add_sub_cancel, ← hlen]; simp⟩
          · rintro ⟨g1, g2⟩
            have : n - 1 = D.length := by
              by_contra hne
              rcases lt_or_gt_of_ne hne with hl | hl
              · rw [List.getElem?_append_left hl] at g2
                exact hxD (List.mem_of_getElem? g2)
              · rw [List.getElem?_eq_none (by simp; omega)] at g2
                exact absurd g2 (by simp)
            rw [← hlen, ← this]; congr 1; omega
        · rw [if_neg hxi, h.index]
          refine and_congr_right fun g1 => ?_
          rcases lt_trichotomy (n - 1) D.length with hl | hl | hl
          · rw [List.getElem?_append_left hl]
          · rw [List.getElem?_eq_none (by omega), hl]
            simp [hxi]
          · rw [List.getElem?_eq_none (by omega), List.getElem?_eq_none (by simp; omega)]
      · exact List.nodup_append.2 ⟨h.nodup, by simp, by simpa using fun a ha (he : a = x) => hxD (he ▸ ha)⟩

/-- C115: the images get the identifiers 1, 2, ... in their order, and the identifier of their camera. -/
theorem C115_image_table (camera : Id → C) (cameraMap : Dict C ℕ) (images : List Id) (rows : List (ℕ × Id × ℕ)) (m : Dict Id ℕ)
    (h : imageTable camera cameraMap images = some (rows, m)) :
    List.Forall₂ (fun i (row : ℕ × Id × ℕ) => row.2.1 = i ∧ cameraMap.get? (camera i) = some row.2.2) images rows ∧
    rows.map Prod.fst = List.range' 1 images.length ∧ ∀ i n, m.get? i = some n ↔ 1 ≤ n ∧ images[n - 1]? = some i := by
  have := foldlM_inv _ (ImageInv camera cameraMap) (image_step camera cameraMap) images [] ([], []) (rows, m)
    ⟨List.Forall₂.nil, rfl, fun i n => by simp, List.nodup_nil⟩ h
  rw [List.nil_append] at this
  exact ⟨this.rows, this.ids, this.index⟩

/-- C115: the cameras get the identifiers 1, 2, ... in their order, with the overrides of the user. -/
theorem C115_camera_table (overrides : Option (Dict C Cam)) (models : Dict C Cam) (hm : models.Wf) (rows : List CameraRow) (m : Dict C ℕ)
    (h : cameraTable overrides models = some (rows, m)) :
    List.Forall₂ (fun e (row : CameraRow) => cameraRow row.id (((overrides.bind fun o => o.get? e.1)).getD e.2) = some row) models rows ∧
    rows.map CameraRow.id = List.range' 1 models.length ∧ ∀ c n, m.get? c = some n ↔ 1 ≤ n ∧ (models[n - 1]?).map Prod.fst = some c := by
  have hrow : ∀ i c row, cameraRow i c = some row → row.id = i := by
    intro i c row hr
    unfold cameraRow at hr
    cases hp : params c with
    | none => rw [hp] at hr; exact absurd hr (by simp)
    | some p =>
      cases hk : modelId c.kind with
      | none => rw [hp, hk] at hr; exact absurd hr (by simp)
      | some k =>
        rw [hp, hk] at hr
        obtain rfl := Option.some.inj hr
        rfl
  have hov : ∀ e : C × Cam, overridden overrides e = ((overrides.bind fun o => o.get? e.1)).getD e.2 := by
    intro e
    unfold overridden
    cases overrides <;> rfl
  have key := foldlM_inv (addCamera overrides) (fun D a => (List.map Prod.fst D).Nodup →
      List.Forall₂ (fun (e : C × Cam) (row : CameraRow) => cameraRow row.id (((overrides.bind fun o => o.get? e.1)).getD e.2) = some row) D a.1 ∧
      a.1.map CameraRow.id = List.range' 1 D.length ∧ ∀ c n, a.2.get? c = some n ↔ 1 ≤ n ∧ (D[n - 1]?).map Prod.fst = some c) ?_ models [] ([], []) (rows, m)
    (fun _ => ⟨List.Forall₂.nil, rfl, fun i n => by simp⟩) h
  · rw [List.nil_append] at key
    exact key hm
  · intro D a x b hD hb hnd
    rw [List.map_append] at hnd
    obtain ⟨h1, h2, h3⟩ := hD (List.nodup_append.1 hnd).1
    unfold addCamera at hb
    obtain ⟨row, hr, rfl⟩ := Option.map_eq_some_iff.1 hb
    have hid := hrow _ _ _ hr
    rw [hov] at hr
    have hlen : D.length = a.1.length := h1.length_eq
    have hxD : x.1 ∉ D.map Prod.fst := fun hc => (List.nodup_append.1 hnd).2.2 _ hc _ (by simp) rfl
    refine ⟨List.rel_append h1 (List.Forall₂.cons (by rw [hid]; exact hr) List.Forall₂.nil), ?_, ?_⟩
    · rw [List.map_append, h2, List.length_append, List.length_singleton, List.range'_append_1.symm, hlen]
      simp [hid, Nat.add_comm]
    · intro c n
      simp only [Dict.get?_set]
      by_cases hxi : x.1 = c
      · rw [if_pos hxi]
        subst hxi
        constructor
        · intro g
          obtain rfl := Option.some.inj g
          exact ⟨by omega, by rw [Nat.add_sub_cancel, ← hlen]; simp⟩
        · rintro ⟨g1, g2⟩
          have : n - 1 = D.length := by
            by_contra hne
            rcases lt_or_gt_of_ne hne with hl | hl
            · rw [List.getElem?_append_left hl] at g2
              obtain ⟨y, hy, hyx⟩ := Option.map_eq_some_iff.1 g2
              exact hxD (List.mem_map.2 ⟨y, List.mem_of_getElem? hy, hyx⟩)
            · rw [List.getElem?_eq_none (by simp; omega)] at g2
              exact absurd g2 (by simp)
          rw [← hlen, ← this]; congr 1; omega
      · rw [if_neg hxi, h3]
        refine and_congr_right fun g1 => ?_
        rcases lt_trichotomy (n - 1) D.length with hl | hl | hl
        · rw [List.getElem?_append_left hl]
        · rw [List.getElem?_eq_none (by omega), hl]
          simp [hxi]
        · rw [List.getElem?_eq_none (by omega), List.getElem?_eq_none (by simp; omega)]

/-! ### Features and matches -/

/-- C115: the keypoints of an image are its features in pixels, with the centre of the first pixel at zero. -/
theorem C115_features (size : Id → ℕ × ℕ) (feats : Id → Option (List (ℝ × ℝ))) (imageMap : Dict Id ℕ) (images : List Id) (rows : List (ℕ × List (ℝ × ℝ)))
    (m : Dict Id (List (ℝ × ℝ))) (h : featureTable size feats imageMap images = some (rows, m)) :
    (∀ i, m.get? i = if i ∈ images then (feats i).map fun f => f.map fun p => (p.1 * max ((size i).1 : ℝ) (size i).2 - 1 / 2 + (size i).1 / 2,
      p.2 * max ((size i).1 : ℝ) (size i).2 - 1 / 2 + (size i).2 / 2) else none) ∧
    List.Forall₂ (fun i (row : ℕ × List (ℝ × ℝ)) => imageMap.get? i = some row.1 ∧ m.get? i = some row.2) (images.filter fun i => (feats i).isSome) rows := by
  have hden : ∀ (w h : ℕ), denormalized w h = fun p => (p.1 * max (w : ℝ) h - 1 / 2 + w / 2, p.2 * max (w : ℝ) h - 1 / 2 + h / 2) := by
    intro w h; funext p; unfold denormalized; rw [Nat.cast_max]
  have key := foldlM_inv (addFeatures size feats imageMap) (fun D a =>
      (∀ i, a.2.get? i = if i ∈ D then (feats i).map fun f => f.map (denormalized (size i).1 (size i).2) else none) ∧
      List.Forall₂ (fun i (row : ℕ × List (ℝ × ℝ)) => imageMap.get? i = some row.1 ∧ (feats i).map (fun f => f.map (denormalized (size i).1 (size i).2)) = some row.2)
        (D.filter fun i => (feats i).isSome) a.1) ?_ images [] ([], []) (rows, m) ⟨fun i => by simp, List.Forall₂.nil⟩ h
  · rw [List.nil_append] at key
    obtain ⟨k1, k2⟩ := key
    refine ⟨fun i => by rw [k1]; simp only [hden], ?_⟩
    have : ∀ (l : List Id) (rs : List (ℕ × List (ℝ × ℝ))), (∀ i ∈ l, i ∈ images) → List.Forall₂ (fun i (row : ℕ × List (ℝ × ℝ)) => imageMap.get? i = some row.1 ∧ (feats i).map (fun f => f.map (denormalized (size i).1 (size i).2)) = some row.2) l rs →
        List.Forall₂ (fun i (row : ℕ × List (ℝ × ℝ)) => imageMap.get? i = some row.1 ∧ m.get? i = some row.2) l rs := by
      intro l rs hl hr
      induction hr with
      | nil => exact List.Forall₂.nil
      | cons ha _ ih =>
        refine List.Forall₂.cons ⟨ha.1, ?_⟩ (ih fun i hi => hl i (List.mem_cons_of_mem _ hi))
        rw [k1, if_pos (hl _ List.mem_cons_self)]; exact ha.2
    exact this _ _ (fun i hi => (List.mem_filter.1 hi).1) k2
  · rintro D a x b ⟨h1, h2⟩ hb
    unfold addFeatures at hb
    cases hf : feats x with
    | none =>
      rw [hf] at hb
      obtain rfl := Option.some.inj hb
      refine ⟨?_, ?_⟩
      · intro i
        rw [h1]
        by_cases hi : i ∈ D
        · rw [if_pos hi, if_pos (by simp [hi])]
        · rw [if_neg hi]
          by_cases hx : i = x
          · subst hx; simp [hf]
          · rw [if_neg (by simp [hi, hx])]
      · rw [List.filter_append, List.filter_cons_of_neg (by simp [hf])]
        simpa using h2
    | some f =>
      rw [hf] at hb
      cases hi : imageMap.get? x with
      | none => rw [hi] at hb; exact absurd hb (by simp)
      | some n =>
        rw [hi] at hb
        obtain rfl := Option.some.inj hb
        refine ⟨?_, ?_⟩
        · intro i
          simp only [Dict.get?_set]
          by_cases hx : x = i
          · subst hx
            rw [if_pos rfl, if_pos (by simp), hf]; rfl
          · rw [if_neg hx, h1]
            have : i ∈ D ++ [x] ↔ i ∈ D := by simp [Ne.symm hx]
            simp only [this]
        · rw [List.filter_append, List.filter_cons_of_pos (by simp [hf])]
          exact List.rel_append h2 (List.Forall₂.cons ⟨hi, by rw [hf]; rfl⟩ List.Forall₂.nil)

/-- A match with the feature of the smaller name first. -/
def oriented (lt : Id → Id → Bool) (a b : Id) (m : ℕ × ℕ) : ℕ × ℕ := if lt a b then m else m.swap

theorem mem_addMatches (lt : Id → Id → Bool) (a b : Id) (ms : List (ℕ × ℕ)) : ∀ (d : Dict (ℕ × ℕ) Bool) (x : ℕ × ℕ),
    x ∈ Dict.keys (ms.foldl (addMatch lt a b) d) ↔ x ∈ d.keys ∨ ∃ m ∈ ms, x = oriented lt a b m := by
  induction ms with
  | nil => intro d x; simp
  | cons m t ih =>
    intro d x
    rw [List.foldl_cons, ih]
    have : x ∈ (addMatch lt a b d m).keys ↔ x = oriented lt a b m ∨ x ∈ d.keys := by
      unfold addMatch oriented
      split
      · rw [Dict.mem_keys_set]
      · rw [Dict.mem_keys_set]; rfl
    rw [this]
    simp only [List.mem_cons, exists_eq_or_imp]
    tauto

theorem mem_addPairs (lt : Id → Id → Bool) (a : Id) (es : List (Id × List (ℕ × ℕ))) : ∀ (acc : Dict (Id × Id) (Dict (ℕ × ℕ) Bool)) (k : Id × Id) (x : ℕ × ℕ),
    x ∈ Dict.keys ((Dict.get? (es.foldl (addPair lt a) acc) k).getD []) ↔
      x ∈ Dict.keys ((acc.get? k).getD []) ∨ ∃ e ∈ es, pairKey lt a e.1 = k ∧ ∃ m ∈ e.2, x = oriented lt a e.1 m := by
  induction es with
  | nil => intro acc k x; simp
  | cons e t ih =>
    intro acc k x
    rw [List.foldl_cons, ih]
    have : x ∈ Dict.keys (((addPair lt a acc e).get? k).getD []) ↔ x ∈ Dict.keys ((acc.get? k).getD []) ∨ (pairKey lt a e.1 = k ∧ ∃ m ∈ e.2, x = oriented lt a e.1 m) := by
      unfold addPair
      rw [Dict.get?_set]
      by_cases hk : pairKey lt a e.1 = k
      · rw [if_pos hk, Option.getD_some, mem_addMatches, hk]; simp
      · rw [if_neg hk]; simp [hk]
    rw [this]
    simp only [List.mem_cons, exists_eq_or_imp]
    exact or_assoc

theorem mem_perPair (lt : Id → Id → Bool) (found : Id → List (Id × List (ℕ × ℕ))) (images : List Id) : ∀ (acc : Dict (Id × Id) (Dict (ℕ × ℕ) Bool)) (k : Id × Id) (x : ℕ × ℕ),
    x ∈ Dict.keys ((Dict.get? (images.foldl (fun acc a => (found a).foldl (addPair lt a) acc) acc) k).getD []) ↔
      x ∈ Dict.keys ((acc.get? k).getD []) ∨ ∃ a ∈ images, ∃ e ∈ found a, pairKey lt a e.1 = k ∧ ∃ m ∈ e.2, x = oriented lt a e.1 m := by
  induction images with
  | nil => intro acc k x; simp
  | cons a t ih =>
    intro acc k x
    rw [List.foldl_cons, ih, mem_addPairs]
    simp only [List.mem_cons, exists_eq_or_imp]
    exact or_assoc

/-- C115: the matches of a pair are those found from the first image to the second and those found from the second to the first, turned around. -/
theorem C115_match_sets (lt : Id → Id → Bool) (hlt : ∀ a b, lt a b = true → lt b a = false) (htot : ∀ a b, a ≠ b → lt a b = true ∨ lt b a = true)
    (images : List Id) (found : Id → List (Id × List (ℕ × ℕ))) (a b : Id) (hab : lt a b = true) (x y : ℕ) :
    (x, y) ∈ Dict.keys (((matchesPerPair lt images found).get? (a, b)).getD []) ↔
      (a ∈ images ∧ ∃ e ∈ found a, e.1 = b ∧ (x, y) ∈ e.2) ∨ (b ∈ images ∧ ∃ e ∈ found b, e.1 = a ∧ (y, x) ∈ e.2) := by
  have hba := hlt a b hab
  have hne : a ≠ b := by rintro rfl; rw [hab] at hba; exact absurd hba (by simp)
  unfold matchesPerPair
  rw [mem_perPair]
  have hk : ∀ c d : Id, pairKey lt c d = (a, b) ↔ (c = a ∧ d = b) ∨ (c = b ∧ d = a) := by
    intro c d
    unfold pairKey
    by_cases hcd : c = d
    · subst hcd
      have hcc : lt c c = false := by
        cases hc : lt c c with
        | false => rfl
        | true => exact (hlt c c hc).symm.trans hc ▸ hc |> fun _ => absurd ((hlt c c hc).symm.trans hc) (by simp)
      rw [hcc, if_neg (by simp), Prod.mk.injEq]
      constructor
      · rintro ⟨rfl, h2⟩; exact absurd h2 hne
      · rintro (⟨rfl, h2⟩ | ⟨rfl, h2⟩)
        · exact absurd h2 hne
        · exact absurd h2.symm hne
    · rcases htot c d hcd with h | h
      · rw [hlt c d h, h, if_neg (by simp), if_pos rfl, Prod.mk.injEq]
        constructor
        · exact Or.inl
        · rintro (h' | ⟨rfl, rfl⟩)
          · exact h'
          · rw [h] at hba; exact absurd hba (by simp)
      · rw [hlt d c h, h, if_pos rfl, if_neg (by simp), Prod.mk.injEq]
        constructor
        · rintro ⟨h1, h2⟩; exact Or.inr ⟨h2, h1⟩
        · rintro (⟨rfl, rfl⟩ | h')
          · rw [h] at hba; exact absurd hba (by simp)
          · exact ⟨h'.2, h'.1⟩
  simp only [hk, Dict.get?_nil, Option.getD_none, Dict.keys_nil, List.not_mem_nil, false_or]
  constructor
  · rintro ⟨c, hc, e, he, (⟨rfl, h2⟩ | ⟨rfl, h2⟩), m, hm, hx⟩
    · left
      unfold oriented at hx
      rw [h2, if_pos hab] at hx
      exact ⟨hc, e, he, h2, hx ▸ hm⟩
    · right
      unfold oriented at hx
      rw [h2, if_neg (by simp [hba])] at hx
      refine ⟨hc, e, he, h2, ?_⟩
      have : m = (y, x) := by
        obtain ⟨m1, m2⟩ := m
        rw [Prod.swap_prod_mk, Prod.mk.injEq] at hx
        rw [hx.1, hx.2]
      rw [← this]; exact hm
  · rintro (⟨ha, e, he, h2, hm⟩ | ⟨hb, e, he, h2, hm⟩)
    · exact ⟨a, ha, e, he, Or.inl ⟨rfl, h2⟩, (x, y), hm, by unfold oriented; rw [h2, if_pos hab]⟩
    · exact ⟨b, hb, e, he, Or.inr ⟨rfl, h2⟩, (y, x), hm, by unfold oriented; rw [h2, if_neg (by simp [hba])]; rfl⟩

/-- The rows of a pair. -/
def geometryRows {F : Type} (robust : List (ℝ × ℝ) → List (ℝ × ℝ) → List (ℕ × ℕ) → F × List (ℕ × ℕ)) (feats : Dict Id (List (ℝ × ℝ))) (images : Dict Id ℕ)
    (e : (Id × Id) × Dict (ℕ × ℕ) Bool) : Option (List (GeometryRow F)) :=
  if e.2.keys.length < 10 then some []
  else
    match feats.get? e.1.1, feats.get? e.1.2 with
    | some p, some q =>
      if (robust p q e.2.keys).2.length > 10 then
        match images.get? e.1.1, images.get? e.1.2 with
        | some i, some j => some [geometryRow i j (robust p q e.2.keys).2 (robust p q e.2.keys).1]
        | _, _ => none
      else some []
    | _, _ => none

theorem addGeometry_eq {F : Type} (robust : List (ℝ × ℝ) → List (ℝ × ℝ) → List (ℕ × ℕ) → F × List (ℕ × ℕ)) (feats : Dict Id (List (ℝ × ℝ))) (images : Dict Id ℕ)
    (acc : List (GeometryRow F)) (e : (Id × Id) × Dict (ℕ × ℕ) Bool) :
    addGeometry robust feats images acc e = (geometryRows robust feats images e).map fun l => acc ++ l := by
  unfold addGeometry geometryRows
  split
  · simp
  · cases feats.get? e.1.1 with
    | none => simp
    | some p =>
      cases feats.get? e.1.2 with
      | none => simp
      | some q =>
        simp only
        split
        · cases images.get? e.1.1 <;> cases images.get? e.1.2 <;> simp
        · simp

/-- C115: the rows of the geometries are those of the pairs with at least ten matches and more than ten inliers, the matches with the feature of the image with the
smaller identifier first. -/
theorem C115_geometry {F : Type} (lt : Id → Id → Bool) (robust : List (ℝ × ℝ) → List (ℝ × ℝ) → List (ℕ × ℕ) → F × List (ℕ × ℕ)) (feats : Dict Id (List (ℝ × ℝ)))
    (imageMap : Dict Id ℕ) (images : List Id) (found : Id → List (Id × List (ℕ × ℕ))) (rows : List (GeometryRow F))
    (h : geometryTable lt robust feats imageMap images found = some rows) (row : GeometryRow F) : row ∈ rows ↔
    ∃ a b d p q i j, ((a, b), d) ∈ matchesPerPair lt images found ∧ 10 ≤ d.keys.length ∧ feats.get? a = some p ∧ feats.get? b = some q ∧
      imageMap.get? a = some i ∧ imageMap.get? b = some j ∧ 10 < (robust p q d.keys).2.length ∧ row.F = (robust p q d.keys).1 ∧ row.pair = pairId i j ∧
      row.pairs = if i ≤ j then (robust p q d.keys).2 else (robust p q d.keys).2.map Prod.swap := by
  unfold geometryTable at h
  obtain ⟨ls, h1, h2⟩ := (ExportText.fold_append _ _ (addGeometry_eq robust feats imageMap) (matchesPerPair lt images found) []).2 rows h
  rw [List.nil_append] at h2
  subst h2
  rw [List.mem_flatten]
  have hone : ∀ (e : (Id × Id) × Dict (ℕ × ℕ) Bool) (l : List (GeometryRow F)), geometryRows robust feats imageMap e = some l → (row ∈ l ↔
      ∃ p q i j, 10 ≤ e.2.keys.length ∧ feats.get? e.1.1 = some p ∧ feats.get? e.1.2 = some q ∧
      imageMap.get? e.1.1 = some i ∧ imageMap.get? e.1.2 = some j ∧ 10 < (robust p q e.2.keys).2.length ∧ row.F = (robust p q e.2.keys).1 ∧ row.pair = pairId i j ∧
      row.pairs = if i ≤ j then (robust p q e.2.keys).2 else (robust p q e.2.keys).2.map Prod.swap) := by
    intro e l he
    unfold geometryRows at he
    by_cases h10 : e.2.keys.length < 10
    · rw [if_pos h10] at he
      obtain rfl := Option.some.inj he
      constructor
      · intro hm; exact absurd hm (by simp)
      · rintro ⟨p, q, i, j, g, _⟩; omega
    · rw [if_neg h10] at he
      cases hp : feats.get? e.1.1 with
      | none => rw [hp] at he; exact absurd he (by simp)
      | some p =>
        cases hq : feats.get? e.1.2 with
        | none => rw [hp, hq] at he; exact absurd he (by simp)
        | some q =>
          rw [hp, hq] at he
          simp only at he
          by_cases hin : (robust p q e.2.keys).2.length > 10
          · rw [if_pos hin] at he
            cases hi : imageMap.get? e.1.1 with
            | none => rw [hi] at he; exact absurd he (by simp)
            | some i =>
              cases hj : imageMap.get? e.1.2 with
              | none => rw [hi, hj] at he; exact absurd he (by simp)
              | some j =>
                rw [hi, hj] at he
                obtain rfl := Option.some.inj he
                rw [List.mem_singleton]
                have hsw : (if i > j then (robust p q e.2.keys).2.map Prod.swap else (robust p q e.2.keys).2) =
                    if i ≤ j then (robust p q e.2.keys).2 else (robust p q e.2.keys).2.map Prod.swap := by
                  by_cases hij : i ≤ j
                  · rw [if_pos hij, if_neg (by omega)]
                  · rw [if_neg hij, if_pos (by omega)]
                constructor
                · rintro rfl
                  exact ⟨p, q, i, j, by omega, rfl, rfl, rfl, rfl, hin, rfl, rfl, hsw⟩
                · rintro ⟨p', q', i', j', _, g1, g2, g3, g4, _, g5, g6, g7⟩
                  obtain rfl := Option.some.inj g1
                  obtain rfl := Option.some.inj g2
                  obtain rfl := Option.some.inj g3
                  obtain rfl := Option.some.inj g4
                  obtain ⟨r1, r2, r3⟩ := row
                  simp only at g5 g6 g7
                  unfold geometryRow
                  rw [g5, g6, g7, hsw]
          · rw [if_neg hin] at he
            obtain rfl := Option.some.inj he
            constructor
            · intro hm; exact absurd hm (by simp)
            · rintro ⟨p', q', i, j, _, g1, g2, _, _, g, _⟩
              obtain rfl := Option.some.inj g1
              obtain rfl := Option.some.inj g2
              omega
  clear h
  obtain ⟨M, hM⟩ : ∃ M, M = matchesPerPair lt images found := ⟨_, rfl⟩
  rw [← hM] at h1 ⊢
  have hmem : (∃ l ∈ ls, row ∈ l) ↔ ∃ e ∈ M, ∃ p q i j, 10 ≤ e.2.keys.length ∧ feats.get? e.1.1 = some p ∧ feats.get? e.1.2 = some q ∧
      imageMap.get? e.1.1 = some i ∧ imageMap.get? e.1.2 = some j ∧ 10 < (robust p q e.2.keys).2.length ∧ row.F = (robust p q e.2.keys).1 ∧ row.pair = pairId i j ∧
      row.pairs = if i ≤ j then (robust p q e.2.keys).2 else (robust p q e.2.keys).2.map Prod.swap := by
    clear hM
    induction h1 with
    | nil => simp
    | cons ha _ ih =>
      simp only [List.mem_cons, exists_eq_or_imp]
      rw [hone _ _ ha, ih]
  rw [hmem]
  constructor
  · rintro ⟨⟨⟨a, b⟩, d⟩, hm, p, q, i, j, g⟩
    exact ⟨a, b, d, p, q, i, j, hm, g⟩
  · rintro ⟨a, b, d, p, q, i, j, hm, g⟩
    exact ⟨((a, b), d), hm, p, q, i, j, g⟩

/-- C115: the fundamental matrix of a row is that of the images in the order of their names: when the identifiers are in the other order, the matrix is that of the
images of the row exchanged. `Epi F u v` stands for the epipolar equation with `u` in the first and `v` in the second image. -/
theorem C115_epipolar {F : Type} (Epi : F → ℝ × ℝ → ℝ × ℝ → Prop) (lt : Id → Id → Bool) (robust : List (ℝ × ℝ) → List (ℝ × ℝ) → List (ℕ × ℕ) → F × List (ℕ × ℕ))
    (hrob : ∀ p q ms x y, (x, y) ∈ (robust p q ms).2 → ∀ u v, p[x]? = some u → q[y]? = some v → Epi (robust p q ms).1 u v)
    (feats : Dict Id (List (ℝ × ℝ))) (imageMap : Dict Id ℕ) (images : List Id) (found : Id → List (Id × List (ℕ × ℕ))) (rows : List (GeometryRow F))
    (h : geometryTable lt robust feats imageMap images found = some rows) (row : GeometryRow F) (hr : row ∈ rows) :
    ∃ a b i j p q, imageMap.get? a = some i ∧ imageMap.get? b = some j ∧ feats.get? a = some p ∧ feats.get? b = some q ∧ row.pair = pairId i j ∧
      ∀ x y, (x, y) ∈ row.pairs → ∀ u v, (i ≤ j → p[x]? = some u → q[y]? = some v → Epi row.F u v) ∧ (j < i → q[x]? = some u → p[y]? = some v → Epi row.F v u) := by
  obtain ⟨a, b, d, p, q, i, j, _, _, h1, h2, h3, h4, _, h5, h6, h7⟩ := (C115_geometry lt robust feats imageMap images found rows h row).1 hr
  refine ⟨a, b, i, j, p, q, h3, h4, h1, h2, h6, ?_⟩
  intro x y hxy u v
  rw [h7] at hxy
  rw [h5]
  constructor
  · intro hij hu hv
    rw [if_pos hij] at hxy
    exact hrob _ _ _ x y hxy u v hu hv
  · intro hij hu hv
    rw [if_neg (by omega)] at hxy
    obtain ⟨⟨m1, m2⟩, hm, hs⟩ := List.mem_map.1 hxy
    rw [Prod.swap_prod_mk, Prod.mk.injEq] at hs
    obtain ⟨rfl, rfl⟩ := hs
    exact hrob _ _ _ m1 m2 hm v u hv hu

/-! ### Points and images -/

/-- The points of the reconstructions in the order of the file, each with its reconstruction. -/
def allPoints (recs : List (Rec Id T C)) : List (Rec Id T C × T × Point) := recs.flatMap fun r => r.points.map fun p => (r, p)

/-- The shots of the reconstructions in the order of the file. -/
def allShots (recs : List (Rec Id T C)) : List (Rec Id T C × Id × Shot C) := recs.flatMap fun r => r.shots.map fun s => (r, s)

/-- A point of a reconstruction and its row: the track has the observations by the shots of the reconstruction, as identifier of the image and index of the feature. -/
def IsPointRow (tm : TM Id T ℕ) (images : Dict Id ℕ) (e : Rec Id T C × T × Point) (row : PointRow) : Prop :=
  row.coords = e.2.2.coords ∧ row.color = e.2.2.color ∧ ∃ d, tm.getTrackObservations e.2.1 = .ok d ∧
    List.Forall₂ (fun (o : Id × ℕ) (t : ℕ × ℕ) => images.get? o.1 = some t.1 ∧ t.2 = o.2) (d.filter fun o => (e.1.shots.get? o.1).isSome) row.track

theorem track_rows (r : Rec Id T C) (images : Dict Id ℕ) (d : List (Id × ℕ)) (out : List (ℕ × ℕ)) (h : d.foldlM (trackElement r images) [] = some out) :
    List.Forall₂ (fun (o : Id × ℕ) (t : ℕ × ℕ) => images.get? o.1 = some t.1 ∧ t.2 = o.2) (d.filter fun o => (r.shots.get? o.1).isSome) out := by
  have key := foldlM_inv (trackElement r images) (fun D a =>
    List.Forall₂ (fun (o : Id × ℕ) (t : ℕ × ℕ) => images.get? o.1 = some t.1 ∧ t.2 = o.2) (D.filter fun o => (r.shots.get? o.1).isSome) a) ?_ d [] [] out List.Forall₂.nil h
  · simpa using key
  · intro D a x b hD hb
    unfold trackElement at hb
    rw [List.filter_append]
    cases hs : r.shots.has x.1 with
    | false =>
      rw [hs, if_neg (by simp)] at hb
      obtain rfl := Option.some.inj hb
      rw [List.filter_cons_of_neg (by unfold Dict.has at hs; simp [hs])]
      simpa using hD
    | true =>
      rw [hs, if_pos rfl] at hb
      cases hi : images.get? x.1 with
      | none => rw [hi] at hb; exact absurd hb (by simp)
      | some i =>
        rw [hi] at hb
        obtain rfl := Option.some.inj hb
        rw [List.filter_cons_of_pos (by unfold Dict.has at hs; simp [hs])]
        exact List.rel_append hD (List.Forall₂.cons ⟨hi, rfl⟩ List.Forall₂.nil)

/-- C115: the points of all the reconstructions are exported in order, with the identifiers 0, 1, ...; the identifier known for a track is that of the last point with
this track. -/
theorem C115_points (binary : Bool) (tm : TM Id T ℕ) (images : Dict Id ℕ) (recs : List (Rec Id T C)) (rows : List PointRow) (m : Dict T ℕ)
    (h : exportPoints binary tm images recs = some (rows, m)) :
    List.Forall₂ (IsPointRow tm images) (allPoints recs) rows ∧ rows.map PointRow.id = List.range rows.length ∧
    ∀ t n, m.get? t = some n ↔ ((allPoints recs)[n]?).map (fun e => e.2.1) = some t ∧ ∀ n', n < n' → ((allPoints recs)[n']?).map (fun e => e.2.1) ≠ some t := by
  unfold exportPoints at h
  rw [foldlM_flat (fun r : Rec Id T C => r.points) (fun r => addPoint binary tm images r)] at h
  have key := foldlM_inv (fun acc (e : Rec Id T C × T × Point) => addPoint binary tm images e.1 acc e.2) (fun D a =>
    List.Forall₂ (IsPointRow tm images) D a.1 ∧ a.1.map PointRow.id = List.range a.1.length ∧
    ∀ t n, a.2.get? t = some n ↔ (D[n]?).map (fun e : Rec Id T C × T × Point => e.2.1) = some t ∧
      ∀ n', n < n' → (D[n']?).map (fun e : Rec Id T C × T × Point => e.2.1) ≠ some t) ?_ _ [] ([], []) (rows, m)
    ⟨List.Forall₂.nil, rfl, fun t n => by simp⟩ h
  · rw [List.nil_append] at key
    exact key
  · rintro D a x b ⟨h1, h2, h3⟩ hb
    unfold addPoint at hb
    by_cases hbin : (binary = true ∧ ¬ ∀ i, 0 ≤ x.2.2.color i ∧ x.2.2.color i < 256)
    · rw [if_pos hbin] at hb; exact absurd hb (by simp)
    · rw [if_neg hbin] at hb
      cases hd : tm.getTrackObservations x.2.1 with
      | error e => rw [hd] at hb; exact absurd hb (by simp)
      | ok d =>
        rw [hd] at hb
        simp only at hb
        cases ht : d.foldlM (trackElement x.1 images) [] with
        | none => rw [ht] at hb; exact absurd hb (by simp)
        | some track =>
          rw [ht] at hb
          obtain rfl := Option.some.inj hb
          have hlen : D.length = a.1.length := h1.length_eq
          refine ⟨List.rel_append h1 (List.Forall₂.cons ⟨rfl, rfl, d, hd, track_rows _ _ _ _ ht⟩ List.Forall₂.nil), ?_, ?_⟩
          · rw [List.map_append, h2, List.length_append, List.length_singleton, List.range_succ]; rfl
          · intro t n
            simp only [Dict.get?_set]
            by_cases hx : x.2.1 = t
            · rw [if_pos hx, ← hlen]
              constructor
              · intro g
                obtain rfl := Option.some.inj g
                refine ⟨by simp [hx], fun n' hn => ?_⟩
                rw [List.getElem?_eq_none (by simp; omega)]; simp
              · rintro ⟨g1, g2⟩
                have hn : n ≤ D.length := by
                  by_contra hc
                  rw [List.getElem?_eq_none (by simp; omega)] at g1
                  exact absurd g1 (by simp)
                rcases Nat.lt_or_eq_of_le hn with hl | hl
                · exact absurd (by simp [hx]) (g2 D.length hl)
                · rw [hl]
            · rw [if_neg hx, h3]
              have hall : ∀ k : ℕ, ((D ++ [x])[k]?).map (fun e : Rec Id T C × T × Point => e.2.1) = some t ↔ (D[k]?).map (fun e : Rec Id T C × T × Point => e.2.1) = some t := by
                intro k
                rcases lt_trichotomy k D.length with hl | hl | hl
                · rw [List.getElem?_append_left hl]
                · rw [List.getElem?_eq_none (l := D) (by omega), hl]; simp [hx]
                · rw [List.getElem?_eq_none (by simp; omega), List.getElem?_eq_none (by omega)]
              simp only [Ne, hall]

/-- The track of a feature of a shot with the observations `d`: the last one, if several have the feature. -/
def trackOf (d : Dict T ℕ) (f : ℕ) : Option T := (d.reverse.find? fun e => decide (e.2 = f)).map Prod.fst

/-- The point in the file of a feature. -/
def pointOf (d : Dict T ℕ) (points : Dict T ℕ) (f : ℕ) : Option ℕ := (trackOf d f).bind fun t => points.get? t

theorem perFeat_get? (d : Dict T ℕ) (f : ℕ) : (pointPerFeat d).get? f = trackOf d f := by
  unfold pointPerFeat trackOf
  have : ∀ (l : List (T × ℕ)) (acc : Dict ℕ T), Dict.get? (l.foldl (fun acc e => acc.set e.2 e.1) acc) f =
      ((l.reverse.find? fun e => decide (e.2 = f)).map Prod.fst).or (acc.get? f) := by
    intro l
    induction l with
    | nil => intro acc; simp
    | cons e t ih =>
      intro acc
      rw [List.foldl_cons, ih, Dict.get?_set, List.reverse_cons, List.find?_append]
      cases hf : t.reverse.find? fun e => decide (e.2 = f) with
      | some y => simp
      | none =>
        by_cases he : e.2 = f
        · simp [he]
        · simp [he]
  rw [this]; simp

theorem addFeature_eq (feat : List (ℝ × ℝ)) (d points : Dict T ℕ) (acc : List (ℝ × ℝ × ℕ)) (f : ℕ) (x : ℝ × ℝ) (hx : feat[f]? = some x) :
    addFeature feat (pointPerFeat d) points acc f = acc ++ ((pointOf d points f).map fun n => (x.1, x.2, n)).toList := by
  unfold addFeature pointOf
  rw [perFeat_get?]
  cases trackOf d f with
  | none => simp
  | some t =>
    simp only [Option.bind_some]
    cases points.get? t with
    | none => simp
    | some n => rw [hx]; simp

theorem features_rows (feat : List (ℝ × ℝ)) (d points : Dict T ℕ) (L : List ℕ) (hL : ∀ f ∈ L, f < feat.length) : ∀ acc : List (ℝ × ℝ × ℕ),
    ∃ out, L.foldl (addFeature feat (pointPerFeat d) points) acc = acc ++ out ∧
      List.Forall₂ (fun k (e : ℝ × ℝ × ℕ) => feat[k]? = some (e.1, e.2.1) ∧ pointOf d points k = some e.2.2) (L.filter fun k => (pointOf d points k).isSome) out := by
  induction L with
  | nil => intro acc; exact ⟨[], by simp, List.Forall₂.nil⟩
  | cons f t ih =>
    intro acc
    rw [List.foldl_cons]
    obtain ⟨x, hx⟩ : ∃ x, feat[f]? = some x := ⟨_, List.getElem?_eq_getElem (hL f List.mem_cons_self)⟩
    rw [addFeature_eq feat d points acc f x hx]
    obtain ⟨out, h1, h2⟩ := ih (fun g hg => hL g (List.mem_cons_of_mem _ hg)) (acc ++ ((pointOf d points f).map fun n => (x.1, x.2, n)).toList)
    cases hp : pointOf d points f with
    | none =>
      refine ⟨out, ?_, ?_⟩
      · rw [hp] at h1; rw [h1]; simp
      · rw [List.filter_cons_of_neg (by simp [hp])]; exact h2
    | some n =>
      refine ⟨(x.1, x.2, n) :: out, ?_, ?_⟩
      · rw [hp] at h1; rw [h1]; simp
      · rw [List.filter_cons_of_pos (by simp [hp])]
        exact List.Forall₂.cons ⟨hx, hp⟩ h2

/-- A shot of a reconstruction and its row. The features with a point are written, and no others. -/
def IsImageRow (tm : TM Id T ℕ) (cameras : Dict C ℕ) (images : Dict Id ℕ) (feats : Dict Id (List (ℝ × ℝ))) (points : Dict T ℕ) (e : Rec Id T C × Id × Shot C)
    (row : ImageRow Id) : Prop :=
  row.name = e.2.1 ∧ images.get? e.2.1 = some row.id ∧ cameras.get? e.2.2.camera = some row.camera ∧ row.t = e.2.2.translation ∧ row.q = quaternion e.2.2.rotation ∧
  ∃ d f, tm.getShotObservations e.2.1 = .ok d ∧ feats.get? e.2.1 = some f ∧
    List.Forall₂ (fun k (x : ℝ × ℝ × ℕ) => f[k]? = some (x.1, x.2.1) ∧ pointOf d points k = some x.2.2) ((List.range f.length).filter fun k => (pointOf d points k).isSome) row.points

/-- C115: the shots of all the reconstructions are exported in order, with their identifiers, their poses and their features with points. -/
theorem C115_images (binary : Bool) (ascii : Id → Bool) (tm : TM Id T ℕ) (cameras : Dict C ℕ) (images : Dict Id ℕ) (feats : Dict Id (List (ℝ × ℝ)))
    (points : Dict T ℕ) (recs : List (Rec Id T C)) (rows : List (ImageRow Id)) (h : exportImages binary ascii tm cameras images feats points recs = some rows) :
    List.Forall₂ (IsImageRow tm cameras images feats points) (allShots recs) rows := by
  unfold exportImages at h
  rw [foldlM_flat (fun r : Rec Id T C => r.shots) (fun _ => addShot binary ascii tm cameras images feats points)] at h
  have key := foldlM_inv (fun acc (e : Rec Id T C × Id × Shot C) => addShot binary ascii tm cameras images feats points acc e.2)
    (fun D a => List.Forall₂ (IsImageRow tm cameras images feats points) D a) ?_ _ [] [] rows List.Forall₂.nil h
  · rw [List.nil_append] at key
    exact key
  · intro D a x b h1 hb
    unfold addShot at hb
    by_cases hbin : (binary = true ∧ ascii x.2.1 = false)
    · rw [if_pos hbin] at hb; exact absurd hb (by simp)
    · rw [if_neg hbin] at hb
      cases hc : cameras.get? x.2.2.camera with
      | none => rw [hc] at hb; exact absurd hb (by simp)
      | some c =>
        cases hi : images.get? x.2.1 with
        | none => rw [hc, hi] at hb; exact absurd hb (by simp)
        | some i =>
          cases hd : tm.getShotObservations x.2.1 with
          | error e => rw [hc, hi, hd] at hb; exact absurd hb (by simp)
          | ok d =>
            cases hf : feats.get? x.2.1 with
            | none => rw [hc, hi, hd, hf] at hb; exact absurd hb (by simp)
            | some f =>
              rw [hc, hi, hd, hf] at hb
              obtain rfl := Option.some.inj hb
              obtain ⟨out, o1, o2⟩ := features_rows f d points (List.range f.length) (by simp) []
              refine List.rel_append h1 (List.Forall₂.cons ⟨rfl, hi, hc, rfl, rfl, d, f, hd, hf, ?_⟩ List.Forall₂.nil)
              simp only
              rw [o1]
              exact o2

/-- C115: a track of `points3D` refers to the feature by its index among all the features; this is its place in `images` exactly when all the features before it have
points too. -/
theorem C115_index (d points : Dict T ℕ) (n f : ℕ) (hf : f < n) :
    ((List.range n).filter fun k => (pointOf d points k).isSome)[f]? = some f ↔ ∀ g ≤ f, (pointOf d points g).isSome := by
  generalize hp : (fun k => (pointOf d points k).isSome) = p
  have hp' : ∀ g, (pointOf d points g).isSome = p g := fun g => congrFun hp g
  simp only [hp']
  clear hp hp'
  have hsplit : ∀ m ≤ n, (List.range n).filter p = (List.range m).filter p ++ ((List.range' m (n - m)).filter p) := by
    intro m hm
    rw [← List.filter_append]
    congr 1
    rw [List.range_eq_range', List.range_eq_range']
    have := List.range'_append_1 (s := 0) (m := m) (n := n - m)
    rw [Nat.zero_add] at this
    rw [this]
    congr 1; omega
  have hlen : ∀ m, ((List.range m).filter p).length ≤ m := fun m => (List.length_filter_le _ _).trans (by simp)
  have hfull : ∀ m, (∀ g < m, p g = true) → ((List.range m).filter p) = List.range m := by
    intro m hm
    rw [List.filter_eq_self]
    intro g hg; exact hm g (List.mem_range.1 hg)
  constructor
  · intro h
    by_contra hc
    push Not at hc
    obtain ⟨g, hg, hpg⟩ := hc
    have hlt : ((List.range (f + 1)).filter p).length ≤ f := by
      have h1 : ((List.range (f + 1)).filter p).length ≠ (List.range (f + 1)).length := by
        intro he
        have := List.length_filter_eq_length_iff.1 he g (List.mem_range.2 (by omega))
        exact hpg this
      have h2 := hlen (f + 1)
      rw [List.length_range] at h1
      omega
    rw [hsplit (f + 1) (by omega), List.getElem?_append_right hlt] at h
    have hm := List.mem_of_getElem? h
    have := (List.mem_filter.1 hm).1
    rw [List.mem_range'_1] at this
    omega
  · intro h
    rw [hsplit (f + 1) (by omega), hfull (f + 1) (fun g hg => h g (by omega)), List.getElem?_append_left (by simp)]
    simp

/-- C115: with one reconstruction, points and images refer to each other: the track of a point has a feature of a shot exactly when the feature of the image has the
point. Each feature is in at most one track. -/
theorem C115_mutual (binary : Bool) (tm : TM Id T ℕ) (htm : TM.Reachable tm) (images : Dict Id ℕ) (hinj : ∀ a b n, images.get? a = some n → images.get? b = some n → a = b)
    (r : Rec Id T C) (hpts : r.points.Wf) (rows : List PointRow) (m : Dict T ℕ) (h : exportPoints binary tm images [r] = some (rows, m))
    (s : Id) (hs : (r.shots.get? s).isSome) (i : ℕ) (hi : images.get? s = some i) (d : Dict T ℕ) (hd : tm.getShotObservations s = .ok d)
    (hone : ∀ t t' f, (t, f) ∈ d → (t', f) ∈ d → t = t') (n : ℕ) (row : PointRow) (hrow : rows[n]? = some row) (f : ℕ) :
    (i, f) ∈ row.track ↔ pointOf d m f = some n := by
  obtain ⟨h1, h2, h3⟩ := C115_points binary tm images [r] rows m h
  have hall : allPoints [r] = r.points.map fun p => (r, p) := by unfold allPoints; simp
  rw [hall] at h1 h3
  have hlen := h1.length_eq
  have hn : n < rows.length := (List.getElem?_eq_some_iff.1 hrow).1
  rw [List.length_map] at hlen
  obtain ⟨⟨t, p⟩, htp⟩ : ∃ e, r.points[n]? = some e := ⟨_, List.getElem?_eq_getElem (by omega)⟩
  have hrel : IsPointRow tm images (r, (t, p)) row := by
    have := (List.forall₂_iff_get.1 h1).2 n (by simp; omega) hn
    obtain ⟨_, e1⟩ := List.getElem?_eq_some_iff.1 hrow
    obtain ⟨_, e2⟩ := List.getElem?_eq_some_iff.1 htp
    simpa [e1, e2] using this
  obtain ⟨_, _, dt, hdt, htr⟩ := hrel
  have inv := TM.inv_of_reachable htm
  have htrack : (i, f) ∈ row.track ↔ (s, f) ∈ dt := by
    have gen : ∀ (l : List (Id × ℕ)) (tr : List (ℕ × ℕ)), List.Forall₂ (fun (o : Id × ℕ) (t : ℕ × ℕ) => images.get? o.1 = some t.1 ∧ t.2 = o.2) l tr →
        ((i, f) ∈ tr ↔ (s, f) ∈ l) := by
      intro l tr hl
      induction hl with
      | nil => simp
      | @cons o t l tr ha _ ih =>
        rw [List.mem_cons, List.mem_cons, ih]
        refine or_congr ?_ Iff.rfl
        constructor
        · rintro rfl
          exact Prod.ext (hinj s o.1 _ hi ha.1) ha.2
        · rintro rfl
          rw [hi] at ha
          exact Prod.ext (Option.some.inj ha.1) ha.2.symm
    rw [gen _ _ htr, List.mem_filter]
    simp [hs]
  have hobs : (s, f) ∈ dt ↔ (t, f) ∈ d := by
    have a1 := TM.getTrackObservations_mem inv s t f
    have a2 := TM.getShotObservations_mem inv s t f
    rw [hdt] at a1
    rw [hd] at a2
    simp only [Except.ok.injEq, exists_eq_left'] at a1 a2
    exact a1.trans a2.symm
  have htof : trackOf d f = some t ↔ (t, f) ∈ d := by
    unfold trackOf
    constructor
    · intro g
      obtain ⟨e, he, het⟩ := Option.map_eq_some_iff.1 g
      have := List.find?_some he
      have hm := List.mem_of_find?_eq_some he
      rw [List.mem_reverse] at hm
      have hef : e = (t, f) := Prod.ext het (by simpa using this)
      rw [← hef]; exact hm
    · intro g
      cases hfd : d.reverse.find? fun e => decide (e.2 = f) with
      | none =>
        rw [List.find?_eq_none] at hfd
        exact absurd (by simp) (hfd (t, f) (List.mem_reverse.2 g))
      | some e =>
        have := List.find?_some hfd
        have hm := List.mem_of_find?_eq_some hfd
        rw [List.mem_reverse] at hm
        have hef : e.2 = f := by simpa using this
        rw [Option.map_some]
        congr 1
        exact hone e.1 t f (by rw [← hef]; exact hm) g
  have huniq : ∀ t', m.get? t' = some n ↔ t' = t := by
    intro t'
    rw [h3]
    have hget : ∀ k : ℕ, ((r.points.map fun p => (r, p))[k]?).map (fun e : Rec Id T C × T × Point => e.2.1) = (r.points[k]?).map Prod.fst := by
      intro k; rw [List.getElem?_map, Option.map_map]; rfl
    simp only [hget]
    rw [htp]
    constructor
    · rintro ⟨g, _⟩; exact (Option.some.inj g).symm
    · rintro rfl
      refine ⟨rfl, fun k hk hc => ?_⟩
      have nd : (r.points.map Prod.fst).Nodup := hpts
      obtain ⟨e, he, het⟩ := Option.map_eq_some_iff.1 hc
      have hk' : k < r.points.length := (List.getElem?_eq_some_iff.1 he).1
      have := (List.Nodup.getElem_inj_iff nd (i := n) (j := k) (hi := by simp; omega) (hj := by simpa using hk')).1 (by
        obtain ⟨_, e1⟩ := List.getElem?_eq_some_iff.1 htp
        obtain ⟨_, e2⟩ := List.getElem?_eq_some_iff.1 he
        simp [e1, e2, het])
      omega
  rw [htrack, hobs, ← htof]
  unfold pointOf
  constructor
  · intro g
    rw [g, Option.bind_some]
    exact (huniq t).2 rfl
  · intro g
    obtain ⟨t', ht', hm⟩ := Option.bind_eq_some_iff.1 g
    rw [ht', (huniq t').1 hm]

/-- C115: with several reconstructions a feature of an image of the first one refers to a point of another one when its track is also there. -/
theorem C115_shared (binary : Bool) (tm : TM Id T ℕ) (images : Dict Id ℕ) (r : Rec Id T C) (rest : List (Rec Id T C)) (rows : List PointRow) (m : Dict T ℕ)
    (h : exportPoints binary tm images (r :: rest) = some (rows, m)) (t : T) (r' : Rec Id T C) (hr' : r' ∈ rest) (ht : t ∈ r'.points.keys)
    (d : Dict T ℕ) (f n : ℕ) (hf : trackOf d f = some t) (hn : pointOf d m f = some n) : r.points.length ≤ n := by
  obtain ⟨_, _, h3⟩ := C115_points binary tm images (r :: rest) rows m h
  unfold pointOf at hn
  rw [hf, Option.bind_some] at hn
  obtain ⟨_, g⟩ := (h3 t n).1 hn
  by_contra hc
  obtain ⟨p, hp, hpt⟩ := List.mem_map.1 ht
  have hm : (r', p) ∈ allPoints rest := List.mem_flatMap.2 ⟨r', hr', List.mem_map.2 ⟨p, hp, rfl⟩⟩
  obtain ⟨k, hk⟩ := List.getElem?_of_mem hm
  have hsplit : allPoints (r :: rest) = (r.points.map fun p => (r, p)) ++ allPoints rest := by unfold allPoints; rw [List.flatMap_cons]
  refine g (r.points.length + k) (by omega) ?_
  rw [hsplit, List.getElem?_append_right (by simp), List.length_map, Nat.add_sub_cancel_left, hk, ← hpt]; rfl

/-- C115: the keypoint of a feature that is exactly at the projection of a point is half a pixel up and left of where the exported camera sees the point. -/
theorem C115_half_pixel (c : Cam) (row : CameraRow) (x : Fin 3 → ℝ) (hc : SameProjection c row x) (size : Id → ℕ × ℕ) (feats : Id → Option (List (ℝ × ℝ)))
    (imageMap : Dict Id ℕ) (images : List Id) (rows : List (ℕ × List (ℝ × ℝ))) (m : Dict Id (List (ℝ × ℝ))) (h : featureTable size feats imageMap images = some (rows, m))
    (i : Id) (hi : i ∈ images) (hs : size i = (c.width, c.height)) (f kp : List (ℝ × ℝ)) (hf : feats i = some f) (hkp : m.get? i = some kp) (k : ℕ)
    (hk : f[k]? = some (Camera.project c.kind c.values x 0, Camera.project c.kind c.values x 1)) :
    ∃ u v, kp[k]? = some (u, v) ∧ Spec.project row.model row.params x = some (u + 1 / 2, v + 1 / 2) := by
  have := (C115_features size feats imageMap images rows m h).1 i
  rw [hkp, if_pos hi, hf, Option.map_some] at this
  obtain rfl := Option.some.inj this
  rw [List.getElem?_map, hk, Option.map_some, hs]
  refine ⟨_, _, rfl, ?_⟩
  rw [hc]
  congr 2
  · ring
  · ring

/-! ### Examples -/

/-- A brown camera of 4 x 3 pixels. -/
private noncomputable def exBrown : Cam := ⟨.brown, 4, 3, fun i => i / 10⟩

example : ∃ row, cameraRow 7 exBrown = some row ∧ SameProjection exBrown row ![1, 2, 3] ∧ row.id = 7 :=
  ⟨_, rfl, (C115_brown exBrown 7 _ rfl rfl _).1, rfl⟩

/-- A fisheye with the principal point a tenth of the width to the right. -/
private noncomputable def exFisheye : Cam := ⟨.fisheyeOpencv, 4, 3, fun i => if i = 6 then 1 / 10 else 1⟩

example : ∃ row, cameraRow 7 exFisheye = some row ∧ ¬ SameProjection exFisheye row ![3, 4, 5] := by
  refine ⟨_, rfl, ?_⟩
  rw [C115_fisheye_opencv exFisheye 7 _ rfl rfl ![3, 4, 5] (by simp) (by
    simp only [Matrix.cons_val_zero, Matrix.cons_val_one]
    rw [show (3 : ℝ) * 3 + 4 * 4 = 5 ^ 2 by norm_num, Real.sqrt_sq (by norm_num)]; norm_num)]
  simp [exFisheye]

/-- A quarter of a turn. -/
example : ∃ w x y z, quaternion ![Real.pi / 2, 0, 0] = ![some w, some x, some y, some z] ∧ w ^ 2 + x ^ 2 + y ^ 2 + z ^ 2 = 1 := by
  have hp := Real.pi_pos
  obtain ⟨w, x, y, z, h1, h2, _⟩ := C115_quaternion ![Real.pi / 2, 0, 0] (by
    intro h
    have := congrFun h 0
    simp at this) (by
      simp only [Matrix.cons_val_zero, Matrix.cons_val_one, Matrix.cons_val, mul_zero, add_zero]
      rw [Real.sqrt_mul_self (by linarith)]; linarith)
  exact ⟨w, x, y, z, h1, h2⟩

/-- Two images, the second name first, and eleven matches. -/
example : geometryTable (fun a b : ℕ => decide (a < b)) (fun _ _ ms => ((), ms)) [(1, []), (0, [])] [(1, 1), (0, 2)] [1, 0]
    (fun a => if a = 0 then [(1, (List.range 11).map fun k => (k, k + 1))] else [(0, [(1, 0), (2, 2)])]) =
    some [⟨2147483649, [(1, 0), (2, 2), (2, 1), (3, 2), (4, 3), (5, 4), (6, 5), (7, 6), (8, 7), (9, 8), (10, 9), (11, 10)], ()⟩] := rfl

/-- Two shots, three features each; the middle feature has no point. -/
private def exTM : TM ℕ ℕ ℕ :=
  (((TM.empty.addObservation 1 10 0).addObservation 1 11 2).addObservation 2 10 1).addObservation 2 11 2

/-- The reconstruction of the two points. -/
private noncomputable def exRec : Rec ℕ ℕ ℕ := ⟨[], [(1, ⟨0, 0, 0⟩), (2, ⟨0, 0, 0⟩)], [(10, ⟨0, 0⟩), (11, ⟨0, 0⟩)]⟩

example : exportPoints false exTM [(1, 1), (2, 2)] [exRec] = some ([⟨0, 0, 0, [(1, 0), (2, 1)]⟩, ⟨1, 0, 0, [(1, 2), (2, 2)]⟩], [(10, 0), (11, 1)]) := by
  unfold exportPoints exRec
  simp [addPoint, exTM, TM.addObservation, TM.set2, TM.empty, TM.getTrackObservations, Dict.get?, Dict.set, trackElement, Dict.has]

/-- The image has two points; the track of the second one says that it is the third. -/
example : ∃ rows, exportImages false (fun _ => true) exTM [(0, 1)] [(1, 1), (2, 2)] [(1, [(0, 0), (1, 0), (2, 0)]), (2, [(0, 0), (1, 0), (2, 0)])] [(10, 0), (11, 1)] [exRec] =
    some rows ∧ rows.map ImageRow.points = [[(0, 0, 0), (2, 0, 1)], [(1, 0, 0), (2, 0, 1)]] := ⟨_, rfl, rfl⟩

example : ¬ ∀ g ≤ 2, (pointOf [(10, 0), (11, 2)] [(10, 0), (11, 1)] g).isSome := by decide

/-- Two reconstructions with the same track: the first shot refers to the point of the second reconstruction. -/
example : ∃ rows m, exportPoints false exTM [(1, 1), (2, 2)] [exRec, { exRec with shots := [] }] = some (rows, m) ∧ pointOf [(10, 0), (11, 2)] m 0 = some 2 ∧
    rows.map PointRow.track = [[(1, 0), (2, 1)], [(1, 2), (2, 2)], [], []] := by
  refine ⟨[⟨0, 0, 0, [(1, 0), (2, 1)]⟩, ⟨1, 0, 0, [(1, 2), (2, 2)]⟩, ⟨2, 0, 0, []⟩, ⟨3, 0, 0, []⟩], [(10, 2), (11, 3)], ?_, rfl, rfl⟩
  unfold exportPoints exRec
  simp [addPoint, exTM, TM.addObservation, TM.set2, TM.empty, TM.getTrackObservations, Dict.get?, Dict.set, trackElement, Dict.has]

/-! ### The cameras of the text files -/

theorem foldl_set_last {V : Type} (l : List (C × V)) (m : Dict C V) (k : C) :
    (l.foldl (fun a e => Dict.set a e.1 e.2) m).get? k =
      ((l.reverse.find? (fun e => decide (e.1 = k))).map (·.2)).or (m.get? k) := by
  induction l generalizing m with
  | nil => rfl
  | cons e l ih =>
    rw [List.foldl_cons, ih, List.reverse_cons, List.find?_append, Dict.get?_set]
    by_cases h : e.1 = k
    · cases hf : l.reverse.find? (fun e => decide (e.1 = k)) <;> simp [h]
    · cases hf : l.reverse.find? (fun e => decide (e.1 = k)) <;> simp [h]

theorem foldl_set_wf {V : Type} (l : List (C × V)) (m : Dict C V) (hm : Dict.Wf m) :
    Dict.Wf (l.foldl (fun a e => Dict.set a e.1 e.2) m) := by
  induction l generalizing m with
  | nil => exact hm
  | cons e l ih => exact ih _ (Dict.wf_set hm _ _)

/-- The camera of an identifier: the one of the last reconstruction that has it. -/
def lastCamera (recs : List (Rec Id T C)) (k : C) : Option Cam :=
  (((recs.map (·.cameras)).flatten.reverse).find? (fun e => decide (e.1 = k))).map (·.2)

theorem allCameras_get (recs : List (Rec Id T C)) :
    Dict.Wf (allCameras recs) ∧ ∀ k, (allCameras recs).get? k = lastCamera recs k := by
  have e : allCameras recs = ((recs.map (·.cameras)).flatten).foldl (fun a e => Dict.set a e.1 e.2) [] := by
    unfold allCameras
    rw [List.foldl_flatten, List.foldl_map]
  rw [e]
  refine ⟨foldl_set_wf _ _ (by unfold Dict.Wf Dict.keys; exact List.nodup_nil), fun k => ?_⟩
  rw [foldl_set_last]
  unfold lastCamera
  cases (((recs.map (·.cameras)).flatten.reverse).find? (fun e => decide (e.1 = k))).map (·.2) <;> rfl

theorem mapM_some {α β : Type} (f : α → Option β) (l : List α) :
    (∀ rows, l.mapM f = some rows → ∀ row, row ∈ rows ↔ ∃ x ∈ l, f x = some row) ∧
    ((l.mapM f).isSome ↔ ∀ x ∈ l, (f x).isSome) := by
  induction l with
  | nil =>
    refine ⟨?_, ?_⟩
    · intro rows h row
      cases h
      simp
    · simp
  | cons x l ih =>
    rw [List.mapM_cons]
    cases hx : f x with
    | none =>
      refine ⟨fun rows h => (by cases h), ?_⟩
      simp [hx]
    | some y =>
      cases hl : l.mapM f with
      | none =>
        rw [hl] at ih
        refine ⟨fun rows h => (by cases h), ?_⟩
        have := ih.2
        simp only [Option.isSome_none, Bool.false_eq_true, false_iff] at this
        constructor
        · intro h; cases h
        · intro h
          exact absurd (fun z hz => h z (List.mem_cons_of_mem _ hz)) this
      | some ys =>
        rw [hl] at ih
        refine ⟨?_, ?_⟩
        · intro rows h row
          cases h
          rw [List.mem_cons, ih.1 ys rfl]
          simp only [List.mem_cons, exists_eq_or_imp, hx, Option.some.injEq]
          rw [eq_comm]
        · have := ih.2.1 rfl
          refine ⟨fun _ z hz => ?_, fun _ => rfl⟩
          rcases List.mem_cons.1 hz with rfl | hz
          · rw [hx]; rfl
          · exact this z hz

/-- C115: `cameras.txt` has exactly the cameras of the reconstructions, of cameras with one identifier the last, each
with its number in the database; it is written exactly when every camera has a number and a COLMAP model. -/
theorem C115_camera_file (cameraMap : Dict C ℕ) (recs : List (Rec Id T C)) :
    (∀ rows, exportCameras cameraMap recs = some rows → ∀ row, row ∈ rows ↔
      ∃ k c i, lastCamera recs k = some c ∧ cameraMap.get? k = some i ∧ cameraRow i c = some row) ∧
    ((exportCameras cameraMap recs).isSome ↔
      ∀ k c, lastCamera recs k = some c → ∃ i, cameraMap.get? k = some i ∧ (cameraRow i c).isSome) := by
  obtain ⟨hw, hg⟩ := allCameras_get recs
  have hf : ∀ e : C × Cam, ∀ row, (match cameraMap.get? e.1 with
      | none => none
      | some i => cameraRow i e.2) = some row ↔ ∃ i, cameraMap.get? e.1 = some i ∧ cameraRow i e.2 = some row := by
    intro e row
    cases cameraMap.get? e.1 <;> simp
  obtain ⟨m1, m2⟩ := mapM_some (fun e : C × Cam => match cameraMap.get? e.1 with
      | none => none
      | some i => cameraRow i e.2) (allCameras recs)
  refine ⟨fun rows h row => ?_, ?_⟩
  · rw [m1 rows h row]
    constructor
    · rintro ⟨e, he, hr⟩
      obtain ⟨i, h1, h2⟩ := (hf e row).1 hr
      exact ⟨e.1, e.2, i, by rw [← hg]; exact Dict.get?_of_mem hw he, h1, h2⟩
    · rintro ⟨k, c, i, h1, h2, h3⟩
      rw [← hg] at h1
      exact ⟨(k, c), Dict.mem_of_get? h1, (hf (k, c) row).2 ⟨i, h2, h3⟩⟩
  · refine Iff.trans m2 ⟨fun h k c hk => ?_, fun h e he => ?_⟩
    · rw [← hg] at hk
      obtain ⟨row, hr⟩ := Option.isSome_iff_exists.1 (h (k, c) (Dict.mem_of_get? hk))
      obtain ⟨i, h1, h2⟩ := (hf (k, c) row).1 hr
      exact ⟨i, h1, by rw [h2]; rfl⟩
    · obtain ⟨i, h1, h2⟩ := h e.1 e.2 (by rw [← hg]; exact Dict.get?_of_mem hw he)
      obtain ⟨row, hr⟩ := Option.isSome_iff_exists.1 h2
      exact Option.isSome_iff_exists.2 ⟨row, (hf e row).2 ⟨i, h1, hr⟩⟩

end Verif.ExportColmap
