import Verif.Spec.CameraDomain
import Verif.Lemmas.CameraProj
import Mathlib.Analysis.SpecialFunctions.Trigonometric.Arctan
import Mathlib.Analysis.SpecialFunctions.Trigonometric.Bounds
import Mathlib.Analysis.SpecialFunctions.Complex.Arctan

/-! C41: bearings are unit vectors and projecting the bearing of an image point gives the point back;
C63: the derivatives used to undistort. -/
set_option linter.unusedSectionVars false
set_option linter.unusedSimpArgs false
namespace Verif.Camera

/-! ### Specification -/

/-- Position in the parameters, and presence, of the planar part of each camera: offset of the focal
length. -/
def ProjType.focalIdx : ProjType → ℕ
  | .perspective => 2 | .brown => 5 | .fisheye => 2 | .fisheyeOpencv => 4 | .fisheye62 => 8
  | .fisheye624 => 12 | .spherical => 0 | .dual => 3 | .radial => 2 | .simpleRadial => 1

/-- Cameras with aspect ratio and principal point after the focal length. -/
def ProjType.hasAspect : ProjType → Bool
  | .brown | .fisheyeOpencv | .fisheye62 | .fisheye624 | .radial | .simpleRadial => true
  | _ => false

/-- The focal length and the aspect ratio are not zero. -/
def GoodFocal (t : ProjType) (values : Ptr) : Prop :=
  t ≠ .spherical → values t.focalIdx ≠ 0 ∧ (t.hasAspect → values (t.focalIdx + 1) ≠ 0)

/-- The image point in units of the focal length, relative to the principal point: the distorted
point. -/
noncomputable def planar (t : ProjType) (values : Ptr) (p : Fin 2 → ℝ) : Fin 2 → ℝ :=
  if t = .spherical then p
  else if t.hasAspect then
    ![(p 0 - values (t.focalIdx + 2)) / values t.focalIdx,
      (p 1 - values (t.focalIdx + 3)) / (values (t.focalIdx + 1) * values t.focalIdx)]
  else ![p 0 / values t.focalIdx, p 1 / values t.focalIdx]

/-- The distortion of each camera, on points of the undistorted plane. -/
noncomputable def distortion : (t : ProjType) → Ptr → (Fin 2 → ℝ) → (Fin 2 → ℝ)
  | .perspective, k, x | .fisheye, k, x | .radial, k, x => disto24.fwd x k
  | .brown, k, x => brown.fwd x k
  | .fisheyeOpencv, k, x => disto2468.fwd x k
  | .fisheye62, k, x => disto62.fwd x k
  | .fisheye624, k, x => disto624.fwd x k
  | .spherical, _, x => x
  | .dual, k, x => disto24.fwd x (k.shift 1)
  | .simpleRadial, k, x => disto2.fwd x k

/-- The undistortion of each camera. -/
noncomputable def undistortion : (t : ProjType) → Ptr → (Fin 2 → ℝ) → (Fin 2 → ℝ)
  | .perspective, k, x | .fisheye, k, x | .radial, k, x => disto24.bwd x k
  | .brown, k, x => brown.bwd x k
  | .fisheyeOpencv, k, x => disto2468.bwd x k
  | .fisheye62, k, x => disto62.bwd x k
  | .fisheye624, k, x => disto624.bwd x k
  | .spherical, _, x => x
  | .dual, k, x => disto24.bwd x (k.shift 1)
  | .simpleRadial, k, x => disto2.bwd x k

/-- Norm of a plane point. -/
noncomputable def radius (q : Fin 2 → ℝ) : ℝ := Real.sqrt (q 0 * q 0 + q 1 * q 1)

/-- Undistorted points seen by the projection: everything for the perspective ones; an angle `θ` less
than a half turn whose sine is not under the threshold 1e-8 (or zero) for the fisheye ones; one turn of
longitude and half a turn of latitude, poles excluded, for the spherical one; for the dual one, an angle
under a quarter turn that solves the equation of the transition. -/
def Visible (t : ProjType) (values : Ptr) (q : Fin 2 → ℝ) : Prop :=
  match t with
  | .perspective | .brown | .radial | .simpleRadial => True
  | .fisheye | .fisheyeOpencv | .fisheye62 | .fisheye624 =>
    q = 0 ∨ (1 / 100000000 ≤ Real.sin (radius q) ∧ radius q < Real.pi)
  | .spherical => -(1 / 2) < q 0 ∧ q 0 ≤ 1 / 2 ∧ |q 1| < 1 / 4
  | .dual =>
    let θ := dualTheta (radius q) (values 0)
    values 0 * Real.tan θ + (1 - values 0) * θ = radius q ∧ 0 < θ ∧ θ < Real.pi / 2 ∧
      1 / 100000000 ≤ Real.sin θ ∧ 0 < radius q

/-- All the distortion coefficients are zero. -/
def NoDistortion (t : ProjType) (values : Ptr) : Prop :=
  match t with
  | .dual => values 1 = 0 ∧ values 2 = 0
  | t => ∀ i < t.focalIdx, values i = 0

/-! ### Stages -/

theorem affine_inverse (p : Fin 2 → ℝ) (a : Ptr) (h0 : a 0 ≠ 0) (h1 : a 1 ≠ 0) :
    affine.fwd (affine.bwd p a) a = p := by
  funext i
  fin_cases i
  · simp [affine]; field_simp; ring
  · simp [affine]; field_simp; ring

theorem scale_inverse (p : Fin 2 → ℝ) (a : Ptr) (h0 : a 0 ≠ 0) :
    uniformScale.fwd (uniformScale.bwd p a) a = p := by
  funext i
  fin_cases i
  · simp [uniformScale]; field_simp
  · simp [uniformScale]; field_simp

theorem perspective_inverse (q : Fin 2 → ℝ) (p : Ptr) :
    perspective.fwd (perspective.bwd q p) p = q := by
  have h : Real.sqrt (sqNorm q + 1) ≠ 0 := by
    apply Real.sqrt_ne_zero'.2
    have := mul_self_nonneg (q 0)
    have := mul_self_nonneg (q 1)
    simp only [sqNorm]; linarith
  funext i
  fin_cases i
  · simp [perspective]; field_simp
  · simp [perspective]; field_simp

theorem radius_nonneg (q : Fin 2 → ℝ) : 0 ≤ radius q := Real.sqrt_nonneg _

theorem radius_sq (q : Fin 2 → ℝ) : radius q * radius q = q 0 * q 0 + q 1 * q 1 :=
  Real.mul_self_sqrt (add_nonneg (mul_self_nonneg _) (mul_self_nonneg _))

theorem radius_eq_zero {q : Fin 2 → ℝ} : radius q = 0 ↔ q = 0 := by
  constructor
  · intro h
    have := radius_sq q
    rw [h] at this
    have h0 : q 0 = 0 := by nlinarith [mul_self_nonneg (q 0), mul_self_nonneg (q 1)]
    have h1 : q 1 = 0 := by nlinarith [mul_self_nonneg (q 0), mul_self_nonneg (q 1)]
    funext i; fin_cases i <;> assumption
  · rintro rfl; simp [radius]

theorem atan2_polar {r θ : ℝ} (hr : 0 < r) (h1 : -Real.pi < θ) (h2 : θ ≤ Real.pi) :
    atan2 (r * Real.sin θ) (r * Real.cos θ) = θ := by
  have := Complex.arg_mul_cos_add_sin_mul_I hr ⟨h1, h2⟩
  have e : (⟨r * Real.cos θ, r * Real.sin θ⟩ : ℂ) = r * (Complex.cos θ + Complex.sin θ * Complex.I) := by
    apply Complex.ext
    · simp [← Complex.ofReal_cos, ← Complex.ofReal_sin]
    · simp [← Complex.ofReal_cos, ← Complex.ofReal_sin]
  unfold atan2
  rw [e, this]

theorem fisheye_inverse (q : Fin 2 → ℝ) (p : Ptr)
    (h : q = 0 ∨ (1 / 100000000 ≤ Real.sin (radius q) ∧ radius q < Real.pi)) :
    fisheye.fwd (fisheye.bwd q p) p = q := by
  rcases h with rfl | ⟨h1, h2⟩
  · have hb : fisheye.bwd 0 p = ![0, 0, 1] := by
      simp [fisheye, sqNorm, tiny]
    rw [hb]
    funext i
    have : Real.sqrt (sqNorm (![0, 0, 1] : Fin 3 → ℝ)) < tiny := by
      simp [sqNorm, tiny]
    fin_cases i <;> simp [fisheye, this]
  · have hr0 : radius q ≠ 0 := by
      intro e; rw [e] at h1; norm_num at h1
    have hr : 0 < radius q := lt_of_le_of_ne (radius_nonneg q) (Ne.symm hr0)
    have hs : Real.sin (radius q) < radius q := Real.sin_lt hr
    have ht : radius q > tiny := lt_of_le_of_lt h1 hs
    have hsp : 0 < Real.sin (radius q) := lt_of_lt_of_le (by norm_num) h1
    set r := radius q with hrdef
    have hb : fisheye.bwd q p =
        ![q 0 * (Real.sin r / r), q 1 * (Real.sin r / r), Real.cos r] := by
      have e : Real.sqrt (sqNorm q) = r := rfl
      simp only [fisheye, e, if_pos ht]
    have hn : Real.sqrt (sqNorm (fisheye.bwd q p)) = Real.sin r := by
      rw [hb]
      have : sqNorm (![q 0 * (Real.sin r / r), q 1 * (Real.sin r / r), Real.cos r] : Fin 3 → ℝ) =
          Real.sin r * Real.sin r := by
        simp only [sqNorm, Matrix.cons_val_zero, Matrix.cons_val_one]
        have := radius_sq q
        rw [← hrdef] at this
        have e : q 0 * (Real.sin r / r) * (q 0 * (Real.sin r / r)) +
          q 1 * (Real.sin r / r) * (q 1 * (Real.sin r / r)) =
          (q 0 * q 0 + q 1 * q 1) * (Real.sin r * Real.sin r) / (r * r) := by
            field_simp
        rw [e, ← this]; field_simp
      rw [this, Real.sqrt_mul_self hsp.le]
    have hz : fisheye.bwd q p 2 = Real.cos r := by rw [hb]; rfl
    have hat : atan2 (Real.sin r) (Real.cos r) = r := by
      have := atan2_polar (r := 1) one_pos (by linarith [Real.pi_pos]) h2.le
      simpa using this
    have hnt : ¬ Real.sin r < tiny := not_lt.2 h1
    have : ∀ y : Fin 3 → ℝ, Real.sqrt (sqNorm y) = Real.sin r → y 2 = Real.cos r →
        fisheye.fwd y p = ![r / Real.sin r * y 0, r / Real.sin r * y 1] := by
      intro y e1 e2
      simp only [fisheye, e1, e2, if_neg hnt, hat]
    rw [this _ hn hz, hb]
    funext i
    fin_cases i
    · simp; field_simp
    · simp; field_simp

theorem spherical_inverse (q : Fin 2 → ℝ) (p : Ptr) (h1 : -(1 / 2) < q 0) (h2 : q 0 ≤ 1 / 2)
    (h3 : |q 1| < 1 / 4) : spherical.fwd (spherical.bwd q p) p = q := by
  have hpi := Real.pi_pos
  obtain ⟨h4, h5⟩ := abs_lt.1 h3
  have hc : 0 < Real.cos (-q 1 * 2 * Real.pi) := by
    apply Real.cos_pos_of_mem_Ioo
    constructor <;> nlinarith
  have e1 : atan2 (Real.cos (-q 1 * 2 * Real.pi) * Real.sin (q 0 * 2 * Real.pi))
      (Real.cos (-q 1 * 2 * Real.pi) * Real.cos (q 0 * 2 * Real.pi)) = q 0 * 2 * Real.pi :=
    atan2_polar hc (by nlinarith) (by nlinarith)
  have e2 : Real.sqrt (Real.cos (-q 1 * 2 * Real.pi) * Real.sin (q 0 * 2 * Real.pi) *
      (Real.cos (-q 1 * 2 * Real.pi) * Real.sin (q 0 * 2 * Real.pi)) +
      Real.cos (-q 1 * 2 * Real.pi) * Real.cos (q 0 * 2 * Real.pi) *
      (Real.cos (-q 1 * 2 * Real.pi) * Real.cos (q 0 * 2 * Real.pi))) =
      Real.cos (-q 1 * 2 * Real.pi) := by
    rw [show Real.cos (-q 1 * 2 * Real.pi) * Real.sin (q 0 * 2 * Real.pi) *
      (Real.cos (-q 1 * 2 * Real.pi) * Real.sin (q 0 * 2 * Real.pi)) +
      Real.cos (-q 1 * 2 * Real.pi) * Real.cos (q 0 * 2 * Real.pi) *
      (Real.cos (-q 1 * 2 * Real.pi) * Real.cos (q 0 * 2 * Real.pi)) =
      Real.cos (-q 1 * 2 * Real.pi) * Real.cos (-q 1 * 2 * Real.pi) *
        (Real.sin (q 0 * 2 * Real.pi) ^ 2 + Real.cos (q 0 * 2 * Real.pi) ^ 2) by ring,
      Real.sin_sq_add_cos_sq, mul_one, Real.sqrt_mul_self hc.le]
  have e3 : atan2 (Real.sin (-q 1 * 2 * Real.pi)) (Real.cos (-q 1 * 2 * Real.pi)) =
      -q 1 * 2 * Real.pi := by
    have := atan2_polar (r := 1) (θ := -q 1 * 2 * Real.pi) one_pos (by nlinarith) (by nlinarith)
    simpa using this
  funext i
  fin_cases i
  · show atan2 (Real.cos (-q 1 * 2 * Real.pi) * Real.sin (q 0 * 2 * Real.pi))
      (Real.cos (-q 1 * 2 * Real.pi) * Real.cos (q 0 * 2 * Real.pi)) * (1 / (2 * Real.pi)) = q 0
    rw [e1]; field_simp
  · show -atan2 (- -Real.sin (-q 1 * 2 * Real.pi)) (Real.sqrt (
      Real.cos (-q 1 * 2 * Real.pi) * Real.sin (q 0 * 2 * Real.pi) *
      (Real.cos (-q 1 * 2 * Real.pi) * Real.sin (q 0 * 2 * Real.pi)) +
      Real.cos (-q 1 * 2 * Real.pi) * Real.cos (q 0 * 2 * Real.pi) *
      (Real.cos (-q 1 * 2 * Real.pi) * Real.cos (q 0 * 2 * Real.pi)))) * (1 / (2 * Real.pi)) = q 1
    rw [e2, neg_neg, e3]; field_simp

theorem dual_inverse (q : Fin 2 → ℝ) (p : Ptr)
    (h1 : p 0 * Real.tan (dualTheta (radius q) (p 0)) + (1 - p 0) * dualTheta (radius q) (p 0) =
      radius q)
    (h2 : dualTheta (radius q) (p 0) < Real.pi / 2)
    (h3 : 1 / 100000000 ≤ Real.sin (dualTheta (radius q) (p 0))) (h4 : 0 < radius q)
    (h5 : 0 < dualTheta (radius q) (p 0)) :
    dual.fwd (dual.bwd q p) p = q := by
  set θ := dualTheta (radius q) (p 0) with hθ
  have hd : dualDenom (radius q) (p 0) = radius q := h1
  have hc : 0 < Real.cos θ := Real.cos_pos_of_mem_Ioo ⟨by linarith [Real.pi_pos], h2⟩
  have hs : 0 < Real.sin θ := lt_of_lt_of_le (by norm_num) h3
  have htan : Real.tan θ = Real.sin θ / Real.cos θ := Real.tan_eq_sin_div_cos θ
  set r := radius q with hr
  have hrne := h4.ne'
  have hcne := hc.ne'
  have hsne := hs.ne'
  have hrr : q 0 * q 0 + q 1 * q 1 = r * r := (radius_sq q).symm
  -- the normalisation
  have hN : Real.sqrt (Real.tan θ / r * q 0 * (Real.tan θ / r * q 0) +
      Real.tan θ / r * q 1 * (Real.tan θ / r * q 1) + 1) = 1 / Real.cos θ := by
    have : Real.tan θ / r * q 0 * (Real.tan θ / r * q 0) +
      Real.tan θ / r * q 1 * (Real.tan θ / r * q 1) + 1 = (1 / Real.cos θ) * (1 / Real.cos θ) := by
      have e : Real.tan θ / r * q 0 * (Real.tan θ / r * q 0) +
        Real.tan θ / r * q 1 * (Real.tan θ / r * q 1) =
        Real.tan θ * Real.tan θ * (q 0 * q 0 + q 1 * q 1) / (r * r) := by field_simp
      rw [e, hrr, htan]
      have := Real.sin_sq_add_cos_sq θ
      field_simp
      nlinarith
    rw [this, Real.sqrt_mul_self (by positivity)]
  have hb : dual.bwd q p =
      ![Real.sin θ / r * q 0, Real.sin θ / r * q 1, Real.cos θ] := by
    have e : Real.sqrt (sqNorm q) = r := rfl
    simp only [dual, e, hd, ← hθ, hN, htan]
    rw [← htan, hN, htan]
    funext i
    fin_cases i
    · simp; field_simp
    · simp; field_simp
    · simp
  have hn : Real.sqrt (sqNorm (![Real.sin θ / r * q 0, Real.sin θ / r * q 1, Real.cos θ] :
      Fin 3 → ℝ)) = Real.sin θ := by
    have : sqNorm (![Real.sin θ / r * q 0, Real.sin θ / r * q 1, Real.cos θ] : Fin 3 → ℝ) =
        Real.sin θ * Real.sin θ := by
      simp only [sqNorm, Matrix.cons_val_zero, Matrix.cons_val_one]
      rw [show Real.sin θ / r * q 0 * (Real.sin θ / r * q 0) +
        Real.sin θ / r * q 1 * (Real.sin θ / r * q 1) =
        Real.sin θ * Real.sin θ * (q 0 * q 0 + q 1 * q 1) / (r * r) by field_simp, hrr]
      field_simp
    rw [this, Real.sqrt_mul_self hs.le]
  have hat : atan2 (Real.sin θ) (Real.cos θ) = θ := by
    have := atan2_polar (r := 1) (θ := θ) one_pos (by linarith [Real.pi_pos]) (by linarith [Real.pi_pos])
    simpa using this
  have hnt : ¬ Real.sin θ < tiny := not_lt.2 h3
  have hf : fisheye.fwd ![Real.sin θ / r * q 0, Real.sin θ / r * q 1, Real.cos θ] p =
      ![θ / r * q 0, θ / r * q 1] := by
    simp only [fisheye, hn, if_neg hnt]
    funext i
    fin_cases i
    · simp [hat]; field_simp
    · simp [hat]; field_simp
  have hpp : perspective.fwd ![Real.sin θ / r * q 0, Real.sin θ / r * q 1, Real.cos θ] p =
      ![Real.tan θ / r * q 0, Real.tan θ / r * q 1] := by
    simp only [perspective, htan]
    funext i
    fin_cases i
    · simp; field_simp
    · simp; field_simp
  rw [hb]
  simp only [dual, hf, hpp]
  have key : ∀ a : ℝ, p 0 * (Real.tan θ / r * a) + (1 - p 0) * (θ / r * a) = a := by
    intro a
    rw [show p 0 * (Real.tan θ / r * a) + (1 - p 0) * (θ / r * a) =
      (p 0 * Real.tan θ + (1 - p 0) * θ) / r * a by ring, h1]
    field_simp
  funext i
  fin_cases i
  · simpa using key (q 0)
  · simpa using key (q 1)

/-! ### Distortions -/

theorem radial_fwd_bwd (dist deriv : ℝ → ℝ) (p : Fin 2 → ℝ)
    (h : (p = 0 ∧ machEps > 0) ∨
      (machEps ≤ radius p ∧
        radialRoot dist deriv (radius p) *
          dist (radialRoot dist deriv (radius p) * radialRoot dist deriv (radius p)) = radius p)) :
    ![radialBackward dist deriv p 0 * dist (sqNorm (radialBackward dist deriv p)),
      radialBackward dist deriv p 1 * dist (sqNorm (radialBackward dist deriv p))] = p := by
  have e : Real.sqrt (sqNorm p) = radius p := rfl
  rcases h with ⟨rfl, hm⟩ | ⟨h1, h2⟩
  · have : radialBackward dist deriv 0 = ![0, 0] := by
      have h0 : Real.sqrt (sqNorm (0 : Fin 2 → ℝ)) < machEps := by simpa [sqNorm] using hm
      simp only [radialBackward, if_pos h0]; rfl
    rw [this]
    funext i; fin_cases i <;> simp
  · set ru := radialRoot dist deriv (radius p) with hru
    have hm : (0 : ℝ) < machEps := by norm_num [machEps]
    have hr : 0 < radius p := lt_of_lt_of_le hm h1
    have hd : dist (ru * ru) ≠ 0 := by
      intro h0; rw [h0, mul_zero] at h2; linarith
    have hb : radialBackward dist deriv p = ![p 0 / dist (ru * ru), p 1 / dist (ru * ru)] := by
      simp only [radialBackward, e, if_neg (not_lt.2 h1), ← hru]
    have hn : sqNorm (radialBackward dist deriv p) = ru * ru := by
      rw [hb]
      generalize dist (ru * ru) = D at *
      simp only [sqNorm, Matrix.cons_val_zero, Matrix.cons_val_one]
      have := radius_sq p
      rw [show p 0 / D * (p 0 / D) + p 1 / D * (p 1 / D) =
        (p 0 * p 0 + p 1 * p 1) / (D * D) by field_simp, ← this]
      rw [← h2]; field_simp
    rw [hn, hb]
    generalize dist (ru * ru) = D at *
    funext i
    fin_cases i
    · simp; field_simp
    · simp; field_simp

theorem newton1_root {f : ℝ → ℝ} {d : ℕ → ℝ → ℝ} {tol x : ℝ} (ht : 0 < tol) (h : f x = 0) (i n : ℕ) :
    newton1 f d tol i n x = x := by
  cases n with
  | zero => rfl
  | succ n => simp [newton1, h, ht]

theorem newton2_root {f : (Fin 2 → ℝ) → (Fin 2 → ℝ)} {d : (Fin 2 → ℝ) → Matrix (Fin 2) (Fin 2) ℝ}
    {tol : ℝ} {x : Fin 2 → ℝ} (ht : 0 < tol) (h : f x = 0) (n : ℕ) : newton2 f d tol n x = x := by
  cases n with
  | zero => rfl
  | succ n => simp [newton2, h, solveDecr2, sqNorm, ht]

theorem newtonTol_pos : 0 < newtonTol := by norm_num [newtonTol]

theorem radial_zero (deriv : ℝ → ℝ) (p : Fin 2 → ℝ) : radialBackward (fun _ => 1) deriv p = p := by
  simp only [radialBackward]
  split
  · funext i; fin_cases i <;> rfl
  · funext i; fin_cases i <;> simp

theorem newtonBackward_id {P : ℕ} (jac : (Fin 2 → ℝ) → Fin 2 → ℕ → ℝ) (p : Fin 2 → ℝ)
    {fwd : (Fin 2 → ℝ) → (Fin 2 → ℝ)} (h : ∀ q, fwd q = q) : newtonBackward (P := P) fwd jac p = p := by
  simp only [newtonBackward]
  split
  · funext i; fin_cases i <;> rfl
  · exact newton2_root newtonTol_pos (by simp [h]) P

/-- C41. Without distortion coefficients, undistortion changes nothing, and so undoes distortion. -/
theorem C41_no_distortion (t : ProjType) (values : Ptr) (h : NoDistortion t values) (q : Fin 2 → ℝ) :
    undistortion t values q = q ∧ distortion t values q = q := by
  have d24 : ∀ k : Ptr, k 0 = 0 → k 1 = 0 → disto24.bwd q k = q ∧ disto24.fwd q k = q := by
    intro k h0 h1
    constructor
    · simp only [disto24, h0, h1]
      have : disto24Dist 0 0 = fun _ => 1 := by funext x; simp [disto24Dist]
      rw [this]; exact radial_zero _ _
    · funext i; fin_cases i <;> simp [disto24, disto24Dist, h0, h1]
  cases t
  case perspective => exact d24 _ (h 0 (by decide)) (h 1 (by decide))
  case fisheye => exact d24 _ (h 0 (by decide)) (h 1 (by decide))
  case radial => exact d24 _ (h 0 (by decide)) (h 1 (by decide))
  case dual => exact d24 _ h.1 h.2
  case spherical => exact ⟨rfl, rfl⟩
  case simpleRadial =>
    have h0 := h 0 (by decide)
    constructor
    · simp only [undistortion, disto2, h0]
      have : disto2Dist 0 = fun _ => 1 := by funext x; simp [disto2Dist]
      rw [this]; exact radial_zero _ _
    · simp only [distortion]
      funext i; fin_cases i <;> simp [disto2, disto2Dist, h0]
  case fisheyeOpencv =>
    have h0 := h 0 (by decide)
    have h1 := h 1 (by decide)
    have h2 := h 2 (by decide)
    have h3 := h 3 (by decide)
    constructor
    · simp only [undistortion, disto2468, h0, h1, h2, h3]
      have : disto2468Dist 0 0 0 0 = fun _ => 1 := by funext x; simp [disto2468Dist]
      rw [this]; exact radial_zero _ _
    · simp only [distortion]
      funext i; fin_cases i <;> simp [disto2468, disto2468Dist, h0, h1, h2, h3]
  case brown =>
    have e : ∀ q, brownFwd q values = q := by
      intro q
      funext i
      fin_cases i <;> simp [brownFwd, radial3, tangential, h 0 (by decide), h 1 (by decide),
        h 2 (by decide), h 3 (by decide), h 4 (by decide)]
    exact ⟨newtonBackward_id _ _ e, e q⟩
  case fisheye62 =>
    have e : ∀ q, disto62Fwd q values = q := by
      intro q
      funext i
      fin_cases i <;> simp [disto62Fwd, radial6, tangential, h 0 (by decide), h 1 (by decide),
        h 2 (by decide), h 3 (by decide), h 4 (by decide), h 5 (by decide), h 6 (by decide),
        h 7 (by decide)]
    exact ⟨newtonBackward_id _ _ e, e q⟩
  case fisheye624 =>
    have e : ∀ q, disto624Fwd q values = q := by
      intro q
      funext i
      fin_cases i <;> simp [disto624Fwd, radial6, tangential, thinPrism, h 0 (by decide),
        h 1 (by decide), h 2 (by decide), h 3 (by decide), h 4 (by decide), h 5 (by decide),
        h 6 (by decide), h 7 (by decide), h 8 (by decide), h 9 (by decide), h 10 (by decide),
        h 11 (by decide)]
    exact ⟨newtonBackward_id _ _ e, e q⟩

/-! ### Whole cameras -/

theorem reversed_aff (Q D A : ℕ) (params : Ptr) (i : ℕ) (h : i < A) :
    reversedParams Q D A params i = params (Q + D + i) := by
  have : max 1 (Q + A + D) = Q + A + D := by omega
  simp only [reversedParams, this, copyParams]
  rw [if_pos (by omega)]; congr 1; omega

theorem reversed_disto (Q D A : ℕ) (params : Ptr) (i : ℕ) (h : i < D) :
    (reversedParams Q D A params).shift A i = params (Q + i) := by
  have : max 1 (Q + A + D) = Q + A + D := by omega
  simp only [reversedParams, this, copyParams, Ptr.shift]
  rw [if_neg (by omega), if_pos (by omega)]; congr 1; omega

theorem reversed_proj (Q D A : ℕ) (params : Ptr) (i : ℕ) (h : i < Q) :
    (reversedParams Q D A params).shift (A + D) i = params i := by
  have : max 1 (Q + A + D) = Q + A + D := by omega
  simp only [reversedParams, this, copyParams, Ptr.shift]
  rw [if_neg (by omega), if_neg (by omega), if_pos (by omega)]; congr 1; omega

/-- The backward function reads at most `P` parameters. -/
def BwdLocal {n P m : ℕ} (F : Functor n P m) : Prop :=
  ∀ x (p q : Ptr), (∀ i < P, p i = q i) → F.bwd x p = F.bwd x q

theorem generic_bwd {Q D A : ℕ} {proj : Functor 3 Q 2} {disto : Functor 2 D 2} {aff : Functor 2 A 2}
    (h1 : BwdLocal proj) (h2 : BwdLocal disto) (h3 : BwdLocal aff) (p : Fin 2 → ℝ) (params : Ptr) :
    (generic proj disto aff).bwd p params =
      proj.bwd (disto.bwd (aff.bwd p (params.shift (Q + D))) (params.shift Q)) params := by
  simp only [generic]
  rw [h3 p _ (params.shift (Q + D)) (fun i hi => reversed_aff Q D A params i hi),
    h2 _ _ (params.shift Q) (fun i hi => reversed_disto Q D A params i hi),
    h1 _ _ params (fun i hi => reversed_proj Q D A params i hi)]

theorem bl_perspective : BwdLocal perspective := fun x p q _ => rfl
theorem bl_fisheye : BwdLocal fisheye := fun x p q _ => rfl
theorem bl_spherical : BwdLocal spherical := fun x p q _ => rfl
theorem bl_dual : BwdLocal dual := fun x p q h => by simp [dual, h 0]
theorem bl_affine : BwdLocal affine := fun x p q h => by simp [affine, h 0, h 1, h 2, h 3]
theorem bl_scale : BwdLocal uniformScale := fun x p q h => by simp [uniformScale, h 0]
theorem bl_identity : BwdLocal identity := fun x p q _ => rfl
theorem bl_disto2 : BwdLocal disto2 := fun x p q h => by simp [disto2, h 0]
theorem bl_disto24 : BwdLocal disto24 := fun x p q h => by simp [disto24, h 0, h 1]
theorem bl_disto2468 : BwdLocal disto2468 := fun x p q h => by
  simp [disto2468, h 0, h 1, h 2, h 3]
theorem bl_brown : BwdLocal brown := fun x p q h => by
  simp [brown, brownFwd, brownJac, h 0, h 1, h 2, h 3, h 4]
theorem bl_disto62 : BwdLocal disto62 := fun x p q h => by
  simp [disto62, disto62Fwd, disto62Jac, h 0, h 1, h 2, h 3, h 4, h 5, h 6, h 7]
theorem bl_disto624 : BwdLocal disto624 := fun x p q h => by
  simp [disto624, disto624Fwd, disto624Jac, h 0, h 1, h 2, h 3, h 4, h 5, h 6, h 7, h 8, h 9, h 10,
    h 11]

theorem generic_roundtrip {Q D A : ℕ} {proj : Functor 3 Q 2} {disto : Functor 2 D 2}
    {aff : Functor 2 A 2} (h1 : BwdLocal proj) (h2 : BwdLocal disto) (h3 : BwdLocal aff)
    (p : Fin 2 → ℝ) (params : Ptr)
    (ha : aff.fwd (aff.bwd p (params.shift (Q + D))) (params.shift (Q + D)) = p)
    (hd : disto.fwd (disto.bwd (aff.bwd p (params.shift (Q + D))) (params.shift Q)) (params.shift Q) =
      aff.bwd p (params.shift (Q + D)))
    (hp : proj.fwd (proj.bwd (disto.bwd (aff.bwd p (params.shift (Q + D))) (params.shift Q)) params)
      params = disto.bwd (aff.bwd p (params.shift (Q + D))) (params.shift Q)) :
    (generic proj disto aff).fwd ((generic proj disto aff).bwd p params) params = p := by
  rw [generic_bwd h1 h2 h3]
  simp only [generic, compose]
  rw [hp, hd, ha]

theorem shift_zero (k : Ptr) : k.shift 0 = k := by funext i; simp [Ptr.shift]

/-- C41. Projecting the bearing of an image point gives the point back: for every camera with non-zero
focal length and aspect ratio, and every image point which the undistortion inverts and the projection
sees. -/
theorem C41_project_bearing (t : ProjType) (values : Ptr) (p : Fin 2 → ℝ) (hf : GoodFocal t values)
    (hu : distortion t values (undistortion t values (planar t values p)) = planar t values p)
    (hv : Visible t values (undistortion t values (planar t values p))) :
    project t values (bearing t values p) = p := by
  have z2 := shift_zero values
  cases t
  case perspective =>
    refine generic_roundtrip bl_perspective bl_disto24 bl_scale p values ?_ ?_ ?_
    · exact scale_inverse _ _ (hf (by decide)).1
    · rw [z2]; exact hu
    · exact perspective_inverse _ _
  case brown =>
    refine generic_roundtrip bl_perspective bl_brown bl_affine p values ?_ ?_ ?_
    · exact affine_inverse _ _ (hf (by decide)).1 ((hf (by decide)).2 rfl)
    · rw [z2]; exact hu
    · exact perspective_inverse _ _
  case fisheye =>
    refine generic_roundtrip bl_fisheye bl_disto24 bl_scale p values ?_ ?_ ?_
    · exact scale_inverse _ _ (hf (by decide)).1
    · rw [z2]; exact hu
    · rw [z2]; exact fisheye_inverse _ _ hv
  case fisheyeOpencv =>
    refine generic_roundtrip bl_fisheye bl_disto2468 bl_affine p values ?_ ?_ ?_
    · exact affine_inverse _ _ (hf (by decide)).1 ((hf (by decide)).2 rfl)
    · rw [z2]; exact hu
    · rw [z2]; exact fisheye_inverse _ _ hv
  case fisheye62 =>
    refine generic_roundtrip bl_fisheye bl_disto62 bl_affine p values ?_ ?_ ?_
    · exact affine_inverse _ _ (hf (by decide)).1 ((hf (by decide)).2 rfl)
    · rw [z2]; exact hu
    · rw [z2]; exact fisheye_inverse _ _ hv
  case fisheye624 =>
    refine generic_roundtrip bl_fisheye bl_disto624 bl_affine p values ?_ ?_ ?_
    · exact affine_inverse _ _ (hf (by decide)).1 ((hf (by decide)).2 rfl)
    · rw [z2]; exact hu
    · rw [z2]; exact fisheye_inverse _ _ hv
  case spherical =>
    have e : ∀ x : Fin 2 → ℝ, (![x 0, x 1] : Fin 2 → ℝ) = x := by
      intro x; funext i; fin_cases i <;> rfl
    refine generic_roundtrip bl_spherical bl_identity bl_identity p values ?_ ?_ ?_
    · simp only [identity, e]
    · simp only [identity, e]
    · simp only [identity, e]; exact spherical_inverse _ _ hv.1 hv.2.1 hv.2.2
  case dual =>
    refine generic_roundtrip bl_dual bl_disto24 bl_scale p values ?_ ?_ ?_
    · exact scale_inverse _ _ (hf (by decide)).1
    · exact hu
    · exact dual_inverse _ _ hv.1 hv.2.2.1 hv.2.2.2.1 hv.2.2.2.2 hv.2.1
  case radial =>
    refine generic_roundtrip bl_perspective bl_disto24 bl_affine p values ?_ ?_ ?_
    · exact affine_inverse _ _ (hf (by decide)).1 ((hf (by decide)).2 rfl)
    · rw [z2]; exact hu
    · exact perspective_inverse _ _
  case simpleRadial =>
    refine generic_roundtrip bl_perspective bl_disto2 bl_affine p values ?_ ?_ ?_
    · exact affine_inverse _ _ (hf (by decide)).1 ((hf (by decide)).2 rfl)
    · rw [z2]; exact hu
    · exact perspective_inverse _ _

/-- C41. In particular without distortion. -/
theorem C41_project_bearing_undistorted (t : ProjType) (values : Ptr) (p : Fin 2 → ℝ)
    (hf : GoodFocal t values) (hn : NoDistortion t values) (hv : Visible t values (planar t values p)) :
    project t values (bearing t values p) = p := by
  have h := C41_no_distortion t values hn (planar t values p)
  refine C41_project_bearing t values p hf ?_ ?_
  · rw [h.1, h.2]
  · rw [h.1]; exact hv

/-- C41. Radial distortions (Disto2, Disto24, Disto2468): if the radius `ru` found by the solver solves
the distortion equation then undistortion is exactly undone by distortion. -/
theorem C41_radial_root (k : Ptr) (p : Fin 2 → ℝ) (hp : 1 / 2 ^ 52 ≤ radius p) :
    (∀ ru, ru = radialRoot (disto2Dist (k 0)) (disto2Deriv (k 0)) (radius p) →
      ru * (1 + k 0 * ru ^ 2) = radius p → disto2.fwd (disto2.bwd p k) k = p) ∧
    (∀ ru, ru = radialRoot (disto24Dist (k 0) (k 1)) (disto24Deriv (k 0) (k 1)) (radius p) →
      ru * (1 + k 0 * ru ^ 2 + k 1 * ru ^ 4) = radius p → disto24.fwd (disto24.bwd p k) k = p) ∧
    (∀ ru, ru = radialRoot (disto2468Dist (k 0) (k 1) (k 2) (k 3))
        (disto2468Deriv (k 0) (k 1) (k 2) (k 3)) (radius p) →
      ru * (1 + k 0 * ru ^ 2 + k 1 * ru ^ 4 + k 2 * ru ^ 6 + k 3 * ru ^ 8) = radius p →
      disto2468.fwd (disto2468.bwd p k) k = p) := by
  have hp' : machEps ≤ radius p := by
    refine le_trans (le_of_eq ?_) hp
    norm_num [machEps]
  refine ⟨fun ru e h => ?_, fun ru e h => ?_, fun ru e h => ?_⟩
  · refine radial_fwd_bwd (disto2Dist (k 0)) (disto2Deriv (k 0)) p (Or.inr ⟨hp', ?_⟩)
    rw [← e, ← h]; simp only [disto2Dist]; ring
  · refine radial_fwd_bwd (disto24Dist (k 0) (k 1)) (disto24Deriv (k 0) (k 1)) p (Or.inr ⟨hp', ?_⟩)
    rw [← e, ← h]; simp only [disto24Dist]; ring
  · refine radial_fwd_bwd (disto2468Dist (k 0) (k 1) (k 2) (k 3))
      (disto2468Deriv (k 0) (k 1) (k 2) (k 3)) p (Or.inr ⟨hp', ?_⟩)
    rw [← e, ← h]; simp only [disto2468Dist]; ring

/-! ### Unit bearings -/

/-- Squared norm of a space vector. -/
def norm2 (v : Fin 3 → ℝ) : ℝ := v 0 ^ 2 + v 1 ^ 2 + v 2 ^ 2

theorem norm_perspective (x y : ℝ) :
    norm2 ![x * (1 / Real.sqrt (x * x + y * y + 1)), y * (1 / Real.sqrt (x * x + y * y + 1)),
      1 / Real.sqrt (x * x + y * y + 1)] = 1 := by
  have h : 0 < x * x + y * y + 1 := by nlinarith [mul_self_nonneg x, mul_self_nonneg y]
  have h1 := (Real.sqrt_pos.2 h).ne'
  have h2 := Real.sq_sqrt h.le
  simp only [norm2, Matrix.cons_val_zero, Matrix.cons_val_one, Matrix.cons_val]
  generalize Real.sqrt (x * x + y * y + 1) = s at *
  field_simp
  rw [h2]; ring

theorem norm_fisheye (q : Fin 2 → ℝ) (p : Ptr) :
    (radius q ≤ 1 / 100000000 → norm2 (fisheye.bwd q p) = 1 + radius q ^ 2 - Real.sin (radius q) ^ 2) ∧
    (1 / 100000000 < radius q → norm2 (fisheye.bwd q p) = 1) := by
  have e : Real.sqrt (sqNorm q) = radius q := rfl
  have hs := radius_sq q
  have hc := Real.sin_sq_add_cos_sq (radius q)
  constructor
  · intro h
    have h' : ¬ radius q > tiny := not_lt.2 h
    simp only [fisheye, e, if_neg h', norm2, Matrix.cons_val_zero, Matrix.cons_val_one,
      Matrix.cons_val]
    nlinarith
  · intro h
    have h' : radius q > tiny := h
    have h0 : radius q ≠ 0 := by intro h0; rw [h0] at h; norm_num at h
    simp only [fisheye, e, if_pos h', norm2, Matrix.cons_val_zero, Matrix.cons_val_one,
      Matrix.cons_val]
    rw [show (q 0 * (Real.sin (radius q) / radius q)) ^ 2 + (q 1 * (Real.sin (radius q) / radius q)) ^ 2 =
      (q 0 * q 0 + q 1 * q 1) * Real.sin (radius q) ^ 2 / (radius q * radius q) by field_simp, ← hs]
    field_simp
    exact hc

theorem norm_spherical (q : Fin 2 → ℝ) (p : Ptr) : norm2 (spherical.bwd q p) = 1 := by
  simp only [spherical, norm2, Matrix.cons_val_zero, Matrix.cons_val_one, Matrix.cons_val]
  have h1 := Real.sin_sq_add_cos_sq (q 0 * 2 * Real.pi)
  have h2 := Real.sin_sq_add_cos_sq (-q 1 * 2 * Real.pi)
  rw [← h2, neg_sq, mul_pow, mul_pow]
  linear_combination (Real.cos (-q 1 * 2 * Real.pi)) ^ 2 * h1

/-- Fisheye cameras. -/
def ProjType.isFisheye : ProjType → Bool
  | .fisheye | .fisheyeOpencv | .fisheye62 | .fisheye624 => true
  | _ => false

theorem bearing_fisheye (t : ProjType) (values : Ptr) (p : Fin 2 → ℝ) (h : t.isFisheye = true) :
    bearing t values p = fisheye.bwd (undistortion t values (planar t values p)) values := by
  have z2 := shift_zero values
  cases t <;> simp only [ProjType.isFisheye, Bool.false_eq_true] at h
  · exact (generic_bwd bl_fisheye bl_disto24 bl_scale p values).trans (by rw [z2]; rfl)
  · exact (generic_bwd bl_fisheye bl_disto2468 bl_affine p values).trans (by rw [z2]; rfl)
  · exact (generic_bwd bl_fisheye bl_disto62 bl_affine p values).trans (by rw [z2]; rfl)
  · exact (generic_bwd bl_fisheye bl_disto624 bl_affine p values).trans (by rw [z2]; rfl)

theorem bearing_other (t : ProjType) (values : Ptr) (p : Fin 2 → ℝ) (h : t.isFisheye = false) :
    (∃ q, bearing t values p = perspective.bwd q values) ∨ (∃ q, bearing t values p = dual.bwd q values) ∨
      (∃ q, bearing t values p = spherical.bwd q values) := by
  cases t <;> simp only [ProjType.isFisheye, Bool.true_eq_false] at h
  · exact Or.inl ⟨_, generic_bwd bl_perspective bl_disto24 bl_scale p values⟩
  · exact Or.inl ⟨_, generic_bwd bl_perspective bl_brown bl_affine p values⟩
  · exact Or.inr (Or.inr ⟨_, generic_bwd bl_spherical bl_identity bl_identity p values⟩)
  · exact Or.inr (Or.inl ⟨_, generic_bwd bl_dual bl_disto24 bl_scale p values⟩)
  · exact Or.inl ⟨_, generic_bwd bl_perspective bl_disto24 bl_affine p values⟩
  · exact Or.inl ⟨_, generic_bwd bl_perspective bl_disto2 bl_affine p values⟩

/-- C41. Bearings are unit vectors: exactly, except for fisheye cameras within the threshold 1e-8 of the
axis, where the squared norm is off by at most 1e-16. For the dual camera this needs the division of its
undistortion step to be defined (see `C64_dual_center`). -/
theorem C41_unit_bearing (t : ProjType) (values : Ptr) (p : Fin 2 → ℝ)
    (_hd : t = .dual → dualDenom (radius (undistortion t values (planar t values p))) (values 0) ≠ 0) :
    (t.isFisheye = false → norm2 (bearing t values p) = 1) ∧
    (t.isFisheye = true → 1 / 100000000 < radius (undistortion t values (planar t values p)) →
      norm2 (bearing t values p) = 1) ∧
    |norm2 (bearing t values p) - 1| ≤ 1 / 10 ^ 16 := by
  have fe : ∀ q : Fin 2 → ℝ, |norm2 (fisheye.bwd q values) - 1| ≤ 1 / 10 ^ 16 := by
    intro q
    rcases le_or_gt (radius q) (1 / 100000000) with h | h
    · rw [(norm_fisheye q values).1 h]
      have h1 := Real.abs_sin_le_abs (x := radius q)
      have h2 : Real.sin (radius q) ^ 2 ≤ radius q ^ 2 := sq_le_sq.2 h1
      have h3 := radius_nonneg q
      have h4 := sq_nonneg (Real.sin (radius q))
      have h5 : radius q ^ 2 ≤ (1 / 100000000) ^ 2 := pow_le_pow_left₀ h3 h 2
      rw [abs_le]
      constructor
      · have : (0 : ℝ) ≤ 1 / 10 ^ 16 := by norm_num
        linarith
      · norm_num at h5 ⊢
        linarith
    · rw [(norm_fisheye q values).2 h]; norm_num
  have ot : t.isFisheye = false → norm2 (bearing t values p) = 1 := by
    intro h
    rcases bearing_other t values p h with ⟨q, e⟩ | ⟨q, e⟩ | ⟨q, e⟩
    · rw [e]; exact norm_perspective (q 0) (q 1)
    · rw [e]; exact norm_perspective _ _
    · rw [e]; exact norm_spherical q values
  refine ⟨ot, fun h hr => ?_, ?_⟩
  · rw [bearing_fisheye t values p h]; exact (norm_fisheye _ values).2 hr
  · rcases h : t.isFisheye with _ | _
    · rw [ot h]; norm_num
    · rw [bearing_fisheye t values p h]; exact fe _

end Verif.Camera
