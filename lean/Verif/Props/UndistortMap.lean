import Verif.Model.UndistortMap
import Verif.Props.UndistortPano
import Verif.Props.Calibration

/-!
# C78: the image of an undistorted shot
-/
set_option linter.unusedSectionVars false
set_option linter.unusedSimpArgs false
namespace Verif.UndistortMap
open Verif.Camera Verif.Calibration

/-! ### Specification -/

/-- The camera types that are undistorted to one image. -/
def Planar (t : ProjType) : Prop :=
  t = .perspective ∨ t = .brown ∨ t = .fisheye ∨ t = .fisheyeOpencv ∨ t = .fisheye62

/-- For a fisheye camera: the point is on the axis, or its distance to the axis is at least `1e-8` and `1e-8` times
its distance to the camera. (Closer to the axis the projection uses another formula.) -/
def OffAxis (t : ProjType) (X : Fin 3 → ℝ) : Prop :=
  t = .perspective ∨ t = .brown ∨ (X 0 = 0 ∧ X 1 = 0) ∨
    (1 / 100000000 ≤ Real.sqrt (X 0 ^ 2 + X 1 ^ 2) ∧
      1 / 100000000 * Real.sqrt (X 0 ^ 2 + X 1 ^ 2 + X 2 ^ 2) ≤ Real.sqrt (X 0 ^ 2 + X 1 ^ 2))

/-! ### Lemmas -/

theorem plain_project (f : ℝ) (X : Fin 3 → ℝ) :
    project .perspective (plain f) X = ![f * (X 0 / X 2), f * (X 1 / X 2)] := by
  simp only [project, camera, generic, compose, Camera.perspective, disto24, uniformScale, Ptr.shift, plain]
  funext i
  fin_cases i <;> simp [Camera.row, disto24Dist]

theorem plain_bearing (f : ℝ) (q : Fin 2 → ℝ) :
    bearing .perspective (plain f) q = Camera.perspective.bwd ![q 0 / f, q 1 / f] (fun _ => 0) := by
  have hz : ∀ k : Ptr, k 0 = 0 → k 1 = 0 → ∀ q, disto24.bwd q k = q := by
    intro k h0 h1 q
    simp only [disto24, h0, h1]
    have : disto24Dist 0 0 = fun _ => 1 := by funext x; simp [disto24Dist]
    rw [this]; exact radial_zero _ _
  simp only [bearing, camera]
  rw [generic_bwd bl_perspective bl_disto24 bl_scale, hz _ (by simp [plain, Camera.row, Ptr.shift])
    (by simp [plain, Camera.row, Ptr.shift])]
  have : uniformScale.bwd q ((plain f).shift (0 + 2)) = ![q 0 / f, q 1 / f] := by
    funext i
    fin_cases i <;> simp [uniformScale, plain, Camera.row, Ptr.shift]
  rw [this]
  rfl

/-- The bearing of the projection of a point in front of the undistorted camera is the point divided by its
distance. -/
theorem plain_bearing_project (f : ℝ) (hf : f ≠ 0) (X : Fin 3 → ℝ) (hz : 0 < X 2) :
    bearing .perspective (plain f) (project .perspective (plain f) X) =
      (1 / Real.sqrt (X 0 ^ 2 + X 1 ^ 2 + X 2 ^ 2)) • X := by
  rw [plain_bearing, plain_project]
  have e2 : (![(![f * (X 0 / X 2), f * (X 1 / X 2)] : Fin 2 → ℝ) 0 / f,
      (![f * (X 0 / X 2), f * (X 1 / X 2)] : Fin 2 → ℝ) 1 / f] : Fin 2 → ℝ) = ![X 0 / X 2, X 1 / X 2] := by
    funext i; fin_cases i <;> simp <;> field_simp
  rw [e2]
  have e : Real.sqrt (sqNorm (![X 0 / X 2, X 1 / X 2] : Fin 2 → ℝ) + 1) =
      Real.sqrt (X 0 ^ 2 + X 1 ^ 2 + X 2 ^ 2) / X 2 := by
    have : sqNorm (![X 0 / X 2, X 1 / X 2] : Fin 2 → ℝ) + 1 = (X 0 ^ 2 + X 1 ^ 2 + X 2 ^ 2) / X 2 ^ 2 := by
      simp only [sqNorm, Matrix.cons_val_zero, Matrix.cons_val_one]
      field_simp
    rw [this, Real.sqrt_div' _ (sq_nonneg _), Real.sqrt_sq hz.le]
  have hs : 0 < Real.sqrt (X 0 ^ 2 + X 1 ^ 2 + X 2 ^ 2) :=
    Real.sqrt_pos.2 (by positivity)
  simp only [Camera.perspective]
  rw [e]
  funext i
  fin_cases i <;> simp <;> field_simp

theorem atan2_scale (k : ℝ) (hk : 0 < k) (y x : ℝ) : atan2 (k * y) (k * x) = atan2 y x := by
  unfold atan2
  have : (⟨k * x, k * y⟩ : ℂ) = (k : ℂ) * ⟨x, y⟩ := by
    apply Complex.ext <;> simp
  rw [this, Complex.arg_real_mul _ hk]

theorem perspective_scale (k : ℝ) (hk : 0 < k) (X : Fin 3 → ℝ) (p : Ptr) :
    Camera.perspective.fwd (k • X) p = Camera.perspective.fwd X p := by
  simp only [Camera.perspective, Pi.smul_apply, smul_eq_mul]
  rw [mul_div_mul_left _ _ hk.ne', mul_div_mul_left _ _ hk.ne']

theorem fisheye_scale (k : ℝ) (hk : 0 < k) (X : Fin 3 → ℝ) (p : Ptr)
    (h : (X 0 = 0 ∧ X 1 = 0) ∨ (tiny ≤ Real.sqrt (sqNorm X) ∧ tiny ≤ k * Real.sqrt (sqNorm X))) :
    Camera.fisheye.fwd (k • X) p = Camera.fisheye.fwd X p := by
  have hs : Real.sqrt (sqNorm (k • X)) = k * Real.sqrt (sqNorm X) := by
    have : sqNorm (k • X) = k * k * sqNorm X := by
      simp only [sqNorm, Pi.smul_apply, smul_eq_mul]; ring
    rw [this, Real.sqrt_mul (mul_self_nonneg k), Real.sqrt_mul_self hk.le]
  have ht : 0 < tiny := by unfold tiny; norm_num
  simp only [Camera.fisheye]
  rw [hs]
  rcases h with ⟨h0, h1⟩ | ⟨h0, h1⟩
  · have z : Real.sqrt (sqNorm X) = 0 := by simp [sqNorm, h0, h1]
    rw [z, mul_zero, if_pos ht, if_pos ht]
    simp [h0, h1]
  · rw [if_neg (not_lt.2 h1), if_neg (not_lt.2 h0)]
    have hr : Real.sqrt (sqNorm X) ≠ 0 := (lt_of_lt_of_le ht h0).ne'
    simp only [Pi.smul_apply, smul_eq_mul]
    rw [atan2_scale k hk]
    generalize atan2 _ _ = a
    have hk' := hk.ne'
    funext i
    fin_cases i <;> simp <;> field_simp

theorem project_congr (t : ProjType) (ht : Planar t) (vf : Ptr) (X Y : Fin 3 → ℝ)
    (h1 : ∀ p, Camera.perspective.fwd X p = Camera.perspective.fwd Y p)
    (h2 : (t = .perspective ∨ t = .brown) ∨ ∀ p, Camera.fisheye.fwd X p = Camera.fisheye.fwd Y p) :
    project t vf X = project t vf Y := by
  rcases ht with rfl | rfl | rfl | rfl | rfl
  · simp only [project, camera, generic, compose]; rw [h1]
  · simp only [project, camera, generic, compose]; rw [h1]
  all_goals
    rcases h2 with h2 | h2
    · exact absurd h2 (by decide)
    · simp only [project, camera, generic, compose]; rw [h2]

/-! ### Theorems -/

/-- C78. Where the undistorted image shows a point: if a point in front of the camera is projected by the undistorted
camera on pixel `(u, v)` of the undistorted image, that pixel is sampled in the original image at the projection of
the point by the original camera. (Positions are relative to the centre of the image, divided by its longest side.) -/
theorem C78_shows (t : ProjType) (ht : Planar t) (vf : Ptr) (f : ℝ) (hf : f ≠ 0) (w h u v : ℕ) (X : Fin 3 → ℝ)
    (hz : 0 < X 2) (ho : OffAxis t X)
    (hu : project .perspective (plain f) X =
      ![((u : ℝ) - w / 2) / (max w h : ℕ), ((v : ℝ) - h / 2) / (max w h : ℕ)]) :
    mapping t vf .perspective (plain f) w h u v =
      ![(max w h : ℕ) * project t vf X 0 + w / 2, (max w h : ℕ) * project t vf X 1 + h / 2] := by
  have hs : 0 < Real.sqrt (X 0 ^ 2 + X 1 ^ 2 + X 2 ^ 2) := Real.sqrt_pos.2 (by positivity)
  have hb : project t vf (bearing .perspective (plain f)
      ![((u : ℝ) - w / 2) / (max w h : ℕ), ((v : ℝ) - h / 2) / (max w h : ℕ)]) = project t vf X := by
    rw [← hu, plain_bearing_project f hf X hz]
    have hk : 0 < 1 / Real.sqrt (X 0 ^ 2 + X 1 ^ 2 + X 2 ^ 2) := by positivity
    refine project_congr t ht vf _ _ (perspective_scale _ hk X) ?_
    have hsq : sqNorm X = X 0 ^ 2 + X 1 ^ 2 := by simp only [sqNorm]; ring
    rcases ho with h | h | h | ⟨h, h'⟩
    · exact Or.inl (Or.inl h)
    · exact Or.inl (Or.inr h)
    · exact Or.inr (fun p => fisheye_scale _ hk X p (Or.inl h))
    · refine Or.inr (fun p => fisheye_scale _ hk X p (Or.inr ?_))
      rw [hsq]
      refine ⟨h, ?_⟩
      rw [one_div, inv_mul_eq_div, le_div_iff₀ hs]
      exact h'
  have he : (![1 / (max (w : ℝ) h) * ((u : ℝ) - w * (1 / 2)), 1 / (max (w : ℝ) h) * ((v : ℝ) - h * (1 / 2))] : Fin 2 → ℝ)
      = ![((u : ℝ) - w / 2) / (max w h : ℕ), ((v : ℝ) - h / 2) / (max w h : ℕ)] := by
    push_cast
    funext i
    fin_cases i <;> simp <;> ring
  unfold mapping
  simp only
  rw [he, hb]
  push_cast
  funext i
  fin_cases i <;> simp <;> ring

/-- C78. A photo without distortion is not changed: every pixel is sampled where it is. -/
theorem C78_identity (f : ℝ) (hf : f ≠ 0) (w h u v : ℕ) (hw : 0 < w) :
    mapping .perspective (plain f) .perspective (plain f) w h u v = ![(u : ℝ), (v : ℝ)] := by
  have hn : (0 : ℝ) < max (w : ℝ) h := lt_max_of_lt_left (by exact_mod_cast hw)
  unfold mapping
  simp only
  have hr : ∀ p, project .perspective (plain f) (bearing .perspective (plain f) p) = p := by
    intro p
    refine C41_project_bearing_undistorted .perspective (plain f) p ?_ ?_ trivial
    · intro _
      refine ⟨?_, fun h => absurd h (by decide)⟩
      simpa [plain, Camera.row, ProjType.focalIdx] using hf
    · intro i hi
      simp only [ProjType.focalIdx] at hi
      interval_cases i <;> simp [plain, Camera.row]
  rw [hr]
  funext i
  fin_cases i <;> simp <;> field_simp <;> ring

/-- A Brown camera without distortion: focal length `f`, aspect ratio `a`, principal point `(cx, cy)`. -/
noncomputable def affineCamera (f a cx cy : ℝ) : Ptr := Camera.row [0, 0, 0, 0, 0, f, a, cx, cy]

theorem affine_project (f a cx cy : ℝ) (X : Fin 3 → ℝ) :
    project .brown (affineCamera f a cx cy) X = ![f * (X 0 / X 2) + cx, f * a * (X 1 / X 2) + cy] := by
  simp only [project, camera, generic, compose, Camera.perspective, brown, brownFwd, affine, Ptr.shift, affineCamera]
  funext i
  fin_cases i <;> simp [Camera.row, radial3, tangential]

/-- C78. Half-pixel disagreement. Features put the centre of pixel `u` at `(u + 1/2 - w/2) / max`, the mapping at
`(u - w/2) / max`. So where the undistorted image shows, at the centre of a pixel, a point of the world, the original
image is not sampled at the pixel position that features give to the point there, unless the aspect ratio is 1: the
distance is `(a - 1) / (2 (a + 1))` pixels to the right and as much up. -/
theorem C78_half_pixel (f a cx cy : ℝ) (hf : f ≠ 0) (ha : 0 < a) (w h u v : ℕ) (hw : 0 < w) (X : Fin 3 → ℝ)
    (hz : 0 < X 2)
    (hu : project .perspective (plain (f * (1 + a) / 2)) X = Undistort.normalized w h ![(u : ℝ), (v : ℝ)]) :
    mapping .brown (affineCamera f a cx cy) .perspective (plain (f * (1 + a) / 2)) w h u v -
        Undistort.denormalized w h (project .brown (affineCamera f a cx cy) X) =
      ![(a - 1) / (2 * (a + 1)), -((a - 1) / (2 * (a + 1)))] := by
  have hn : (0 : ℝ) < max (w : ℝ) h := lt_max_of_lt_left (by exact_mod_cast hw)
  have hX2 := hz.ne'
  have h1a : (1 + a) ≠ 0 := by positivity
  -- the point shown at the corner of the pixel
  have hsamp := C78_shows .brown (Or.inr (Or.inl rfl)) (affineCamera f a cx cy) (f * (1 + a) / 2) (by positivity) w h u v
    ![2 / (f * (1 + a)) * (((u : ℝ) - w / 2) / (max w h : ℕ)), 2 / (f * (1 + a)) * (((v : ℝ) - h / 2) / (max w h : ℕ)), 1]
    (by simp) (Or.inr (Or.inl rfl)) (by
      rw [plain_project]
      funext i
      fin_cases i <;> simp <;> field_simp)
  rw [hsamp, affine_project, affine_project]
  rw [plain_project] at hu
  have h0 := congrFun hu 0
  have h1 := congrFun hu 1
  simp [Undistort.normalized] at h0 h1
  have e0 : f * (X 0 / X 2) = 2 / (1 + a) * (((u : ℝ) + 1 / 2 - w / 2) / max (w : ℝ) h) := by
    rw [one_div, ← h0]; field_simp
  have e1 : f * a * (X 1 / X 2) = 2 * a / (1 + a) * (((v : ℝ) + 1 / 2 - h / 2) / max (w : ℝ) h) := by
    rw [one_div, ← h1]; field_simp
  rw [e0, e1]
  unfold Undistort.denormalized
  funext i
  fin_cases i
  · simp; field_simp; ring
  · simp; field_simp; ring

/-- C78. The tracks of an undistorted photo keep the coordinates of the distorted one (C77). For a perspective camera
with distortion coefficients `k1, k2` they differ from where the undistorted camera sees the point by
`f (k1 r² + k2 r⁴)` times the point; for a Brown camera without distortion and with aspect ratio 1 by the principal
point. -/
theorem C78_tracks_distorted (X : Fin 3 → ℝ) (k1 k2 f cx cy : ℝ) :
    (∀ r2, r2 = (X 0 / X 2) ^ 2 + (X 1 / X 2) ^ 2 →
      project .perspective (Camera.row [k1, k2, f]) X - project .perspective (plain f) X =
        ![f * (k1 * r2 + k2 * r2 ^ 2) * (X 0 / X 2), f * (k1 * r2 + k2 * r2 ^ 2) * (X 1 / X 2)]) ∧
    project .brown (affineCamera f 1 cx cy) X - project .perspective (plain (f * (1 + 1) / 2)) X = ![cx, cy] := by
  constructor
  · rintro r2 rfl
    rw [plain_project]
    have hp : project .perspective (Camera.row [k1, k2, f]) X =
        ![f * (X 0 / X 2 * disto24Dist k1 k2 ((X 0 / X 2) * (X 0 / X 2) + (X 1 / X 2) * (X 1 / X 2))),
          f * (X 1 / X 2 * disto24Dist k1 k2 ((X 0 / X 2) * (X 0 / X 2) + (X 1 / X 2) * (X 1 / X 2)))] := by
      simp only [project, camera, generic, compose, Camera.perspective, disto24, uniformScale, Ptr.shift]
      funext i
      fin_cases i <;> simp [Camera.row, sqNorm]
    rw [hp]
    generalize X 0 / X 2 = x
    generalize X 1 / X 2 = y
    unfold disto24Dist
    funext i
    fin_cases i <;> simp <;> ring
  · rw [affine_project, plain_project]
    funext i
    fin_cases i <;> simp <;> ring

theorem round_nat (n : ℕ) : pyRound (n : ℚ) = n := by
  obtain ⟨h, -⟩ := C66_round (n : ℚ)
  rw [abs_le] at h
  have h1 : (n : ℤ) < pyRound (n : ℚ) + 1 := by
    have : ((n : ℤ) : ℚ) < ((pyRound (n : ℚ) + 1 : ℤ) : ℚ) := by push_cast; linarith
    exact_mod_cast this
  have h2 : pyRound (n : ℚ) < (n : ℤ) + 1 := by
    have : ((pyRound (n : ℚ) : ℤ) : ℚ) < (((n : ℤ) + 1 : ℤ) : ℚ) := by push_cast; linarith
    exact_mod_cast this
  omega

theorem round_nonneg (q : ℚ) (hq : 0 ≤ q) : 0 ≤ pyRound q := by
  obtain ⟨h, -⟩ := C66_round q
  rw [abs_le] at h
  by_contra hc
  have : pyRound q ≤ -1 := by omega
  have : (pyRound q : ℚ) ≤ -1 := by exact_mod_cast this
  linarith

theorem round_zero (q : ℚ) (hq : 0 ≤ q) : (pyRound q).toNat = 0 ↔ q ≤ 1 / 2 := by
  have hn := round_nonneg q hq
  obtain ⟨h, he⟩ := C66_round q
  rw [show (pyRound q).toNat = 0 ↔ pyRound q = 0 by omega]
  constructor
  · intro h0
    rw [h0, Int.cast_zero, sub_zero, abs_of_nonneg hq] at h
    exact h
  · intro hle
    rw [abs_le] at h
    have h1 : (pyRound q : ℚ) ≤ 1 := by linarith
    have h2 : pyRound q ≤ 1 := by exact_mod_cast h1
    rcases (by omega : pyRound q = 0 ∨ pyRound q = 1) with h3 | h3
    · exact h3
    · rw [h3] at h he
      have : q = 1 / 2 := by push_cast at h; linarith
      exact absurd (he (by rw [this]; norm_num)) (by decide)

/-- C78. The final resize. An image whose longest side is at most `undistorted_image_max_size` is left alone; a larger
one gets exactly that longest side, and the other side is the one that keeps the shape, up to half a pixel. It fails
exactly if the other side would be half a pixel or less. -/
theorem C78_resize (w h m : ℕ) (hw : 0 < w) (hh : 0 < h) (hm : 0 < m) :
    (max w h ≤ m → scaleImage w h m = some (w, h)) ∧
    (m < max w h → (scaleImage w h m = none ↔ 2 * (min w h * m) ≤ max w h)) ∧
    ∀ w' h', m < max w h → scaleImage w h m = some (w', h') → max w' h' = m ∧
      |(w' : ℚ) - w * m / (max w h : ℕ)| ≤ 1 / 2 ∧ |(h' : ℚ) - h * m / (max w h : ℕ)| ≤ 1 / 2 := by
  have hM : (0 : ℚ) < (max w h : ℕ) := by exact_mod_cast (lt_max_of_lt_left hw)
  have hcast : max h w = max w h := max_comm _ _
  have hsmall : max w h ≤ m → scaleImage w h m = some (w, h) := by
    intro hle
    unfold scaleImage
    simp only
    rw [if_pos]
    rw [hcast, ge_iff_le, le_div_iff₀ hM, one_mul]
    exact_mod_cast hle
  have hbig : m < max w h → scaleImage w h m =
      if (pyRound (w * m / (max w h : ℕ))).toNat = 0 ∨ (pyRound (h * m / (max w h : ℕ))).toNat = 0 then none
      else some ((pyRound (w * m / (max w h : ℕ))).toNat, (pyRound (h * m / (max w h : ℕ))).toNat) := by
    intro hlt
    unfold scaleImage
    simp only
    rw [if_neg]
    · rw [hcast, mul_div_assoc, mul_div_assoc]
    · rw [hcast, ge_iff_le, le_div_iff₀ hM, one_mul, not_le]
      exact_mod_cast hlt
  have hz : ∀ x : ℕ, (pyRound ((x : ℚ) * m / (max w h : ℕ))).toNat = 0 ↔ 2 * (x * m) ≤ max w h := by
    intro x
    rw [round_zero _ (by positivity), div_le_iff₀ hM]
    constructor
    · intro hx
      have : ((2 * (x * m) : ℕ) : ℚ) ≤ ((max w h : ℕ) : ℚ) := by push_cast at hx ⊢; linarith
      exact_mod_cast this
    · intro hx
      have : ((2 * (x * m) : ℕ) : ℚ) ≤ ((max w h : ℕ) : ℚ) := by exact_mod_cast hx
      push_cast at this ⊢; linarith
  have hlong : ∀ x : ℕ, x = max w h → (pyRound ((x : ℚ) * m / (max w h : ℕ))).toNat = m := by
    rintro x rfl
    rw [mul_comm, mul_div_assoc, div_self hM.ne', mul_one, round_nat]; rfl
  refine ⟨hsmall, ?_, ?_⟩
  · intro hlt
    rw [hbig hlt]
    rw [show (if (pyRound ((w : ℚ) * m / (max w h : ℕ))).toNat = 0 ∨ (pyRound ((h : ℚ) * m / (max w h : ℕ))).toNat = 0
      then none else some ((pyRound ((w : ℚ) * m / (max w h : ℕ))).toNat, (pyRound ((h : ℚ) * m / (max w h : ℕ))).toNat)) = none
      ↔ ((pyRound ((w : ℚ) * m / (max w h : ℕ))).toNat = 0 ∨ (pyRound ((h : ℚ) * m / (max w h : ℕ))).toNat = 0) by
        exact ⟨fun h => by_contra (fun hc => by rw [if_neg hc] at h; cases h), fun h => if_pos h⟩]
    rw [hz, hz]
    rcases le_total w h with hle | hle
    · rw [min_eq_left hle, max_eq_right hle]
      constructor
      · rintro (h1 | h1)
        · exact h1
        · exact le_trans (Nat.mul_le_mul_left 2 (Nat.mul_le_mul_right m hle)) h1
      · exact Or.inl
    · rw [min_eq_right hle, max_eq_left hle]
      constructor
      · rintro (h1 | h1)
        · exact le_trans (Nat.mul_le_mul_left 2 (Nat.mul_le_mul_right m hle)) h1
        · exact h1
      · exact Or.inr
  · intro w' h' hlt hs
    rw [hbig hlt] at hs
    split_ifs at hs with hc
    simp only [Option.some.injEq, Prod.mk.injEq] at hs
    obtain ⟨rfl, rfl⟩ := hs
    have near : ∀ x : ℕ, |(((pyRound ((x : ℚ) * m / (max w h : ℕ))).toNat : ℕ) : ℚ) - x * m / (max w h : ℕ)| ≤ 1 / 2 := by
      intro x
      have h1 := (C66_round ((x : ℚ) * m / (max w h : ℕ))).1
      have h2 := round_nonneg ((x : ℚ) * m / (max w h : ℕ)) (by positivity)
      rw [abs_sub_comm]
      have h3 : (((pyRound ((x : ℚ) * m / (max w h : ℕ))).toNat : ℕ) : ℚ) = (pyRound ((x : ℚ) * m / (max w h : ℕ)) : ℤ) := by
        exact_mod_cast congrArg (fun z : ℤ => (z : ℚ)) (Int.toNat_of_nonneg h2)
      rw [h3]; exact h1
    refine ⟨?_, near w, near h⟩
    have upper : ∀ x : ℕ, x ≤ max w h → (pyRound ((x : ℚ) * m / (max w h : ℕ))).toNat ≤ m := by
      intro x hx
      have h1 := near x
      rw [abs_le] at h1
      have h2 : (x : ℚ) * m / (max w h : ℕ) ≤ m := by
        rw [div_le_iff₀ hM, mul_comm]
        have : (x : ℚ) ≤ (max w h : ℕ) := by exact_mod_cast hx
        exact mul_le_mul_of_nonneg_left this (by positivity)
      have h3 : (((pyRound ((x : ℚ) * m / (max w h : ℕ))).toNat : ℕ) : ℚ) < ((m + 1 : ℕ) : ℚ) := by rw [Nat.cast_add, Nat.cast_one]; linarith [h1.2]
      have : (pyRound ((x : ℚ) * m / (max w h : ℕ))).toNat < m + 1 := by exact_mod_cast h3
      omega
    rcases le_total w h with hle | hle
    · have h2 := hlong h (max_eq_right hle).symm
      rw [h2]
      exact max_eq_right (upper w (le_max_left _ _))
    · have h2 := hlong w (max_eq_left hle).symm
      rw [h2]
      exact max_eq_left (upper h (le_max_right _ _))

/-- A 1000 by 3 image and maximum size 100: no height is left. A 4000 by 3000 one is halved. -/
example : scaleImage 1000 3 100 = none ∧ scaleImage 4000 3000 2000 = some (2000, 1500) := by
  decide +kernel

/-- A point in front of a fisheye camera that satisfies the hypotheses of `C78_shows`. -/
example : (0 : ℝ) < (![1, 0, 2] : Fin 3 → ℝ) 2 ∧ OffAxis .fisheye ![1, 0, 2] ∧
    project .perspective (plain 1) ![1, 0, 2] =
      ![(((4 : ℕ) : ℝ) - (4 : ℕ) / 2) / (max 4 2 : ℕ), (((1 : ℕ) : ℝ) - (2 : ℕ) / 2) / (max 4 2 : ℕ)] := by
  refine ⟨by simp, ?_, ?_⟩
  · refine Or.inr (Or.inr (Or.inr ?_))
    have h1 : Real.sqrt ((![1, 0, 2] : Fin 3 → ℝ) 0 ^ 2 + (![1, 0, 2] : Fin 3 → ℝ) 1 ^ 2) = 1 := by simp
    rw [h1]
    refine ⟨by norm_num, ?_⟩
    have h2 : Real.sqrt ((![1, 0, 2] : Fin 3 → ℝ) 0 ^ 2 + (![1, 0, 2] : Fin 3 → ℝ) 1 ^ 2 +
        (![1, 0, 2] : Fin 3 → ℝ) 2 ^ 2) ≤ 3 := by
      rw [Real.sqrt_le_left (by norm_num)]; simp; norm_num
    nlinarith
  · rw [plain_project]
    funext i
    fin_cases i <;> simp <;> norm_num

/-- A pixel and a point that satisfy the hypotheses of `C78_half_pixel`, for aspect ratio 2 and focal length 2/3. -/
example : project .perspective (plain (2 / 3 * (1 + 2) / 2)) ![1, 1, 8] =
    Undistort.normalized 4 4 ![((2 : ℕ) : ℝ), ((2 : ℕ) : ℝ)] := by
  rw [plain_project]
  unfold Undistort.normalized
  funext i
  fin_cases i <;> simp <;> norm_num

end Verif.UndistortMap
