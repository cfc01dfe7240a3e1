import Verif.Model.UndistortPano
import Verif.Props.CameraInverse
import Mathlib.Tactic.Ring
import Mathlib.Tactic.LinearCombination

/-!
# C76: the six perspective views of a panorama
-/
set_option linter.unusedSectionVars false
set_option linter.unusedSimpArgs false
namespace Verif.Undistort
open Verif.Camera Verif.Pose Matrix

/-! ### Specification -/

/-- The coordinate of a direction of the panorama (x to the right, y down, z forward) along the optical axis
of a view. -/
def depth : Face → (Fin 3 → ℝ) → ℝ
  | .front, b => b 2 | .back, b => -b 2
  | .left, b => b 0 | .right, b => -b 0
  | .top, b => -b 1 | .bottom, b => b 1

/-- The direction is in the square pyramid of the view: no coordinate is larger than the one along the
axis. -/
def InFace (f : Face) (b : Fin 3 → ℝ) : Prop := 0 < depth f b ∧ ∀ i, |b i| ≤ depth f b

/-- A rotation. -/
def Orthogonal (R : Matrix (Fin 3) (Fin 3) ℝ) : Prop := Rᵀ * R = 1

/-- The direction of a point of the panorama. -/
noncomputable def direction (p : Fin 2 → ℝ) : Fin 3 → ℝ := bearing .spherical (fun _ => 0) p

/-- A point of a panorama in normalized coordinates: one turn of longitude, half a turn of latitude. -/
def InPanorama (p : Fin 2 → ℝ) : Prop := -(1 / 2) < p 0 ∧ p 0 ≤ 1 / 2 ∧ |p 1| < 1 / 4

/-! ### Rotations of the faces -/

theorem rot_y (a : ℝ) : rotationMatrix a ![0, 1, 0] =
    !![Real.cos a, 0, Real.sin a; 0, 1, 0; -Real.sin a, 0, Real.cos a] := by
  ext i j
  fin_cases i <;> fin_cases j <;> 
    simp [rotationMatrix, Matrix.add_apply, Matrix.smul_apply, Matrix.vecMulVec_apply, Matrix.diagonal_apply]

theorem rot_x (a : ℝ) : rotationMatrix a ![1, 0, 0] =
    !![1, 0, 0; 0, Real.cos a, -Real.sin a; 0, Real.sin a, Real.cos a] := by
  ext i j
  fin_cases i <;> fin_cases j <;> 
    simp [rotationMatrix, Matrix.add_apply, Matrix.smul_apply, Matrix.vecMulVec_apply, Matrix.diagonal_apply]

theorem face_rotation (f : Face) : f.rotation = match f with
    | .front => !![1, 0, 0; 0, 1, 0; 0, 0, 1]
    | .left => !![0, 0, -1; 0, 1, 0; 1, 0, 0]
    | .back => !![-1, 0, 0; 0, 1, 0; 0, 0, -1]
    | .right => !![0, 0, 1; 0, 1, 0; -1, 0, 0]
    | .top => !![1, 0, 0; 0, 0, 1; 0, -1, 0]
    | .bottom => !![1, 0, 0; 0, 0, -1; 0, 1, 0] := by
  have h3 : (-3 * Real.pi / 2 : ℝ) = Real.pi / 2 - 2 * Real.pi := by ring
  have h2 : (-2 * Real.pi / 2 : ℝ) = -Real.pi := by ring
  have h1 : (-1 * Real.pi / 2 : ℝ) = -(Real.pi / 2) := by ring
  have h1' : (-Real.pi / 2 : ℝ) = -(Real.pi / 2) := by ring
  cases f
  · simp only [Face.rotation]; rw [rot_y]; simp
  · simp only [Face.rotation]; rw [rot_y, h1]; simp
  · simp only [Face.rotation]; rw [rot_y, h2]; simp
  · simp only [Face.rotation]; rw [rot_y, h3]
    rw [Real.cos_sub_two_pi, Real.sin_sub_two_pi]; simp
  · simp only [Face.rotation]; rw [rot_x, h1']; simp
  · simp only [Face.rotation]; rw [rot_x]; simp

theorem face_orthogonal (f : Face) : f.rotationᵀ * f.rotation = 1 := by
  rw [face_rotation]
  cases f <;> (ext i j; fin_cases i <;> fin_cases j <;> simp [Matrix.mul_apply, Fin.sum_univ_three])

theorem face_apply (f : Face) (b : Fin 3 → ℝ) : f.rotation *ᵥ b = match f with
    | .front => ![b 0, b 1, b 2]
    | .left => ![-b 2, b 1, b 0]
    | .back => ![-b 0, b 1, -b 2]
    | .right => ![b 2, b 1, -b 0]
    | .top => ![b 0, b 2, -b 1]
    | .bottom => ![b 0, -b 2, b 1] := by
  rw [face_rotation]
  cases f <;> (ext i; fin_cases i <;> simp [Matrix.mulVec, dotProduct, Fin.sum_univ_three])

theorem view_wcR (pano : Pose ℝ) (f : Face) : (viewPose pano f).wcR = f.rotation * pano.wcR := rfl

theorem orthogonal_comm {R : Matrix (Fin 3) (Fin 3) ℝ} (h : Orthogonal R) : R * Rᵀ = 1 :=
  mul_eq_one_comm.1 h

theorem to_view (pano : Pose ℝ) (h : Orthogonal pano.wcR) (f : Face) :
    (viewPose pano f).wcR * pano.wcRᵀ = f.rotation := by
  rw [view_wcR, Matrix.mul_assoc, orthogonal_comm h, Matrix.mul_one]

theorem from_view (pano : Pose ℝ) (h : Orthogonal pano.wcR) (f : Face) :
    pano.wcR * (viewPose pano f).wcRᵀ = f.rotationᵀ := by
  rw [← to_view pano h f, Matrix.transpose_mul, Matrix.transpose_transpose]

theorem depth_eq (f : Face) (b : Fin 3 → ℝ) : (f.rotation *ᵥ b) 2 = depth f b := by
  rw [face_apply]; cases f <;> rfl

/-! ### The camera of the views -/

theorem view_project (b : Fin 3 → ℝ) :
    project .perspective viewCamera b = ![1 / 2 * (b 0 / b 2), 1 / 2 * (b 1 / b 2)] := by
  funext i
  fin_cases i <;>
    simp [project, camera, generic, Camera.compose, Camera.perspective, disto24, disto24Dist, uniformScale,
      viewCamera, Camera.row, Ptr.shift]

theorem view_bearing (p : Fin 2 → ℝ) :
    bearing .perspective viewCamera p = Camera.perspective.bwd ![2 * p 0, 2 * p 1] (fun _ => 0) := by
  have hz : ∀ k : Ptr, k 0 = 0 → k 1 = 0 → ∀ q, disto24.bwd q k = q := by
    intro k h0 h1 q
    simp only [disto24, h0, h1]
    have : disto24Dist 0 0 = fun _ => 1 := by funext x; simp [disto24Dist]
    rw [this]; exact radial_zero _ _
  simp only [bearing, camera]
  rw [generic_bwd bl_perspective bl_disto24 bl_scale, hz _ (by simp [viewCamera, Camera.row, Ptr.shift])
    (by simp [viewCamera, Camera.row, Ptr.shift])]
  have : uniformScale.bwd p (viewCamera.shift (0 + 2)) = ![2 * p 0, 2 * p 1] := by
    funext i
    fin_cases i <;> simp [uniformScale, viewCamera, Camera.row, Ptr.shift] <;> ring
  rw [this]
  rfl

/-- The bearing of the projection of a unit vector in front of the camera is the vector. -/
theorem view_bearing_project (b : Fin 3 → ℝ) (hz : 0 < b 2) (hb : b 0 ^ 2 + b 1 ^ 2 + b 2 ^ 2 = 1) :
    bearing .perspective viewCamera (project .perspective viewCamera b) = b := by
  rw [view_bearing, view_project]
  have e2 : (![2 * (![1 / 2 * (b 0 / b 2), 1 / 2 * (b 1 / b 2)] : Fin 2 → ℝ) 0,
      2 * (![1 / 2 * (b 0 / b 2), 1 / 2 * (b 1 / b 2)] : Fin 2 → ℝ) 1] : Fin 2 → ℝ) = ![b 0 / b 2, b 1 / b 2] := by
    funext i; fin_cases i <;> simp
  rw [e2]
  have e : Real.sqrt (sqNorm (![b 0 / b 2, b 1 / b 2] : Fin 2 → ℝ) + 1) = 1 / b 2 := by
    rw [Real.sqrt_eq_iff_mul_self_eq (by
      simp only [sqNorm]
      nlinarith [mul_self_nonneg (b 0 / b 2), mul_self_nonneg (b 1 / b 2), Matrix.cons_val_zero (b 0 / b 2) ![b 1 / b 2]]) (by positivity)]
    simp only [sqNorm, Matrix.cons_val_zero, Matrix.cons_val_one]
    field_simp
    linarith
  have hz' := hz.ne'
  simp only [Camera.perspective]
  rw [e]
  funext i
  fin_cases i <;> simp <;> field_simp

/-! ### The panorama -/

theorem direction_eq (p : Fin 2 → ℝ) : direction p =
    ![Real.cos (2 * Real.pi * p 1) * Real.sin (2 * Real.pi * p 0), Real.sin (2 * Real.pi * p 1),
      Real.cos (2 * Real.pi * p 1) * Real.cos (2 * Real.pi * p 0)] := by
  have h : direction p = spherical.bwd p (fun _ => 0) := by
    simp only [direction, bearing, camera]
    rw [generic_bwd bl_spherical bl_identity bl_identity]
    rfl
  rw [h]
  have e1 : -p 1 * 2 * Real.pi = -(2 * Real.pi * p 1) := by ring
  have e0 : p 0 * 2 * Real.pi = 2 * Real.pi * p 0 := by ring
  simp only [spherical]
  rw [e1, e0, Real.cos_neg, Real.sin_neg, neg_neg]

theorem direction_unit (p : Fin 2 → ℝ) :
    direction p 0 ^ 2 + direction p 1 ^ 2 + direction p 2 ^ 2 = 1 := by
  rw [direction_eq]
  simp
  have h1 := Real.sin_sq_add_cos_sq (2 * Real.pi * p 1)
  have h0 := Real.sin_sq_add_cos_sq (2 * Real.pi * p 0)
  linear_combination h1 + Real.cos (2 * Real.pi * p 1) ^ 2 * h0

/-- The direction of the projection of a vector is the vector divided by its length. -/
theorem direction_project (b : Fin 3 → ℝ) (hb : b 0 ^ 2 + b 1 ^ 2 + b 2 ^ 2 = 1) :
    direction (project .spherical (fun _ => 0) b) = b := by
  have hp := Real.pi_pos.ne'
  have hpr : project .spherical (fun _ => 0) b = spherical.fwd b (fun _ => 0) := rfl
  rw [direction_eq, hpr]
  simp only [spherical, Matrix.cons_val_zero, Matrix.cons_val_one]
  have e0 : ∀ x : ℝ, 2 * Real.pi * (x * (1 / (2 * Real.pi))) = x := by intro x; field_simp
  have e1 : ∀ x : ℝ, 2 * Real.pi * (-x * (1 / (2 * Real.pi))) = -x := by intro x; field_simp
  rw [e0 (atan2 (b 0) (b 2)), e1, Real.cos_neg, Real.sin_neg]
  set r := Real.sqrt (b 0 * b 0 + b 2 * b 2) with hr
  have hr2 : r * r = b 0 * b 0 + b 2 * b 2 := Real.mul_self_sqrt (add_nonneg (mul_self_nonneg _) (mul_self_nonneg _))
  have n1 : ‖(⟨r, -b 1⟩ : ℂ)‖ = 1 := by
    rw [Complex.norm_def, Complex.normSq_mk, hr2]
    rw [show b 0 * b 0 + b 2 * b 2 + -b 1 * -b 1 = 1 by linarith, Real.sqrt_one]
  have n2 : ‖(⟨b 2, b 0⟩ : ℂ)‖ = r := by
    rw [Complex.norm_def, Complex.normSq_mk, hr, add_comm]
  have c1 : Real.cos (atan2 (-b 1) r) = r := by
    have := Complex.norm_mul_cos_arg (⟨r, -b 1⟩ : ℂ)
    rw [n1, one_mul] at this; exact this
  have s1 : Real.sin (atan2 (-b 1) r) = -b 1 := by
    have := Complex.norm_mul_sin_arg (⟨r, -b 1⟩ : ℂ)
    rw [n1, one_mul] at this; exact this
  have c2 : r * Real.cos (atan2 (b 0) (b 2)) = b 2 := by
    have := Complex.norm_mul_cos_arg (⟨b 2, b 0⟩ : ℂ)
    rw [n2] at this; exact this
  have s2 : r * Real.sin (atan2 (b 0) (b 2)) = b 0 := by
    have := Complex.norm_mul_sin_arg (⟨b 2, b 0⟩ : ℂ)
    rw [n2] at this; exact this
  rw [c1, s1, c2, s2]
  funext i
  fin_cases i <;> simp

/-- Scaling a vector does not change its projection in the panorama. -/
theorem project_scale (b : Fin 3 → ℝ) (k : ℝ) (hk : 0 < k) :
    project .spherical (fun _ => 0) (k • b) = project .spherical (fun _ => 0) b := by
  have at2 : ∀ y x : ℝ, atan2 (k * y) (k * x) = atan2 y x := by
    intro y x
    unfold atan2
    have : (⟨k * x, k * y⟩ : ℂ) = (k : ℂ) * ⟨x, y⟩ := by
      apply Complex.ext <;> simp
    rw [this, Complex.arg_real_mul _ hk]
  have hpr : ∀ b, project .spherical (fun _ => 0) b = spherical.fwd b (fun _ => 0) := fun _ => rfl
  rw [hpr, hpr]
  simp only [spherical, Pi.smul_apply, smul_eq_mul]
  have hs : Real.sqrt (k * b 0 * (k * b 0) + k * b 2 * (k * b 2)) = k * Real.sqrt (b 0 * b 0 + b 2 * b 2) := by
    rw [show k * b 0 * (k * b 0) + k * b 2 * (k * b 2) = (k * k) * (b 0 * b 0 + b 2 * b 2) by ring,
      Real.sqrt_mul (mul_self_nonneg k), Real.sqrt_mul_self hk.le]
  rw [hs, at2, show -(k * b 1) = k * (-b 1) by ring, at2]

/-! ### The views -/

theorem rotated (pano : Pose ℝ) (h : Orthogonal pano.wcR) (f : Face) (b : Fin 3 → ℝ) :
    b ᵥ* ((viewPose pano f).wcR * pano.wcRᵀ)ᵀ = f.rotation *ᵥ b := by
  rw [to_view pano h, Matrix.vecMul_transpose]

theorem rotated_back (pano : Pose ℝ) (h : Orthogonal pano.wcR) (f : Face) (b : Fin 3 → ℝ) :
    b ᵥ* (pano.wcR * (viewPose pano f).wcRᵀ)ᵀ = f.rotationᵀ *ᵥ b := by
  rw [from_view pano h, Matrix.vecMul_transpose]

theorem in_face_iff (f : Face) (b : Fin 3 → ℝ) :
    InFace f b ↔ 0 < (f.rotation *ᵥ b) 2 ∧ |(f.rotation *ᵥ b) 0| ≤ (f.rotation *ᵥ b) 2 ∧
      |(f.rotation *ᵥ b) 1| ≤ (f.rotation *ᵥ b) 2 := by
  unfold InFace
  rw [face_apply]
  cases f <;> simp only [depth, Fin.forall_fin_succ, Matrix.cons_val_zero, Matrix.cons_val_one, Matrix.cons_val,
    IsEmpty.forall_iff, and_true, abs_neg, Fin.succ_zero_eq_one, Fin.succ_one_eq_two] <;>
    constructor <;> rintro ⟨h0, h⟩ <;> refine ⟨h0, ?_⟩ <;> grind

theorem sub_track_eq (pano : Pose ℝ) (h : Orthogonal pano.wcR) (f : Face) (obs : Fin 2 → ℝ) :
    (InFace f (direction obs) → subTrack pano (viewPose pano f) obs =
      some (project .perspective viewCamera (f.rotation *ᵥ direction obs))) ∧
    (¬ InFace f (direction obs) → subTrack pano (viewPose pano f) obs = none) := by
  have key : subTrack pano (viewPose pano f) obs =
      if (f.rotation *ᵥ direction obs) 2 ≤ 0 then none
      else
        if project .perspective viewCamera (f.rotation *ᵥ direction obs) 0 < -(1 / 2) ∨
          project .perspective viewCamera (f.rotation *ᵥ direction obs) 0 > 1 / 2 ∨
          project .perspective viewCamera (f.rotation *ᵥ direction obs) 1 < -(1 / 2) ∨
          project .perspective viewCamera (f.rotation *ᵥ direction obs) 1 > 1 / 2 then none
        else some (project .perspective viewCamera (f.rotation *ᵥ direction obs)) := by
    unfold subTrack
    simp only
    rw [rotated pano h]
    rfl
  rw [key, in_face_iff]
  generalize f.rotation *ᵥ direction obs = r
  have v0 : project .perspective viewCamera r 0 = 1 / 2 * (r 0 / r 2) := by rw [view_project]; rfl
  have v1 : project .perspective viewCamera r 1 = 1 / 2 * (r 1 / r 2) := by rw [view_project]; rfl
  generalize project .perspective viewCamera r = w at v0 v1
  constructor
  · rintro ⟨h2, h0, h1⟩
    rw [if_neg (not_le.2 h2), if_neg]
    rw [abs_le] at h0 h1
    push Not
    refine ⟨?_, ?_, ?_, ?_⟩
    · have := (div_le_div_iff_of_pos_right h2).2 h0.1; rw [neg_div, div_self h2.ne'] at this; linarith
    · have := (div_le_div_iff_of_pos_right h2).2 h0.2; rw [div_self h2.ne'] at this; linarith
    · have := (div_le_div_iff_of_pos_right h2).2 h1.1; rw [neg_div, div_self h2.ne'] at this; linarith
    · have := (div_le_div_iff_of_pos_right h2).2 h1.2; rw [div_self h2.ne'] at this; linarith
  · intro hn
    by_cases h2 : r 2 ≤ 0
    · rw [if_pos h2]
    · rw [if_neg h2, if_pos]
      by_contra hc
      push Not at hc
      obtain ⟨a, b, c, d⟩ := hc
      have h2 := not_le.1 h2
      refine hn ⟨h2, ?_, ?_⟩
      · rw [abs_le]
        constructor
        · have : -1 ≤ r 0 / r 2 := by linarith
          rw [le_div_iff₀ h2] at this; linarith
        · have : r 0 / r 2 ≤ 1 := by linarith
          rw [div_le_iff₀ h2] at this; linarith
      · rw [abs_le]
        constructor
        · have : -1 ≤ r 1 / r 2 := by linarith
          rw [le_div_iff₀ h2] at this; linarith
        · have : r 1 / r 2 ≤ 1 := by linarith
          rw [div_le_iff₀ h2] at this; linarith

/-! ### Theorems -/

/-- C76. A view gets the observation of a track exactly if the direction of the observation is in the pyramid
of the view. -/
theorem C76_kept (pano : Pose ℝ) (h : Orthogonal pano.wcR) (f : Face) (obs : Fin 2 → ℝ) :
    (∃ p, subTrack pano (viewPose pano f) obs = some p) ↔ InFace f (direction obs) := by
  by_cases hf : InFace f (direction obs)
  · rw [(sub_track_eq pano h f obs).1 hf]; simp [hf]
  · rw [(sub_track_eq pano h f obs).2 hf]; simp [hf]

/-- C76. No observation is lost: every point of the panorama is in one of the six views, and only in one unless
it is on an edge, where the two coordinates along the axes are equal. -/
theorem C76_cover (pano : Pose ℝ) (h : Orthogonal pano.wcR) (obs : Fin 2 → ℝ) :
    (∃ f p, subTrack pano (viewPose pano f) obs = some p) ∧
    ∀ f g p q, subTrack pano (viewPose pano f) obs = some p → subTrack pano (viewPose pano g) obs = some q →
      f = g ∨ depth f (direction obs) = depth g (direction obs) := by
  constructor
  · simp only [C76_kept pano h]
    have hu := direction_unit obs
    generalize direction obs = b at hu
    have hne : b 0 ≠ 0 ∨ b 1 ≠ 0 ∨ b 2 ≠ 0 := by
      by_contra hc; push Not at hc; rw [hc.1, hc.2.1, hc.2.2] at hu; norm_num at hu
    have hm : ∃ j, ∀ i, |b i| ≤ |b j| := by
      obtain ⟨j, -, hj⟩ := Finset.exists_max_image Finset.univ (fun i => |b i|) ⟨0, Finset.mem_univ _⟩
      exact ⟨j, fun i => hj i (Finset.mem_univ _)⟩
    obtain ⟨j, hj⟩ := hm
    have hjp : 0 < |b j| := by
      rcases hne with h | h | h
      · exact lt_of_lt_of_le (abs_pos.2 h) (hj 0)
      · exact lt_of_lt_of_le (abs_pos.2 h) (hj 1)
      · exact lt_of_lt_of_le (abs_pos.2 h) (hj 2)
    rcases le_total 0 (b j) with hp | hp
    · rw [abs_of_nonneg hp] at hjp hj
      fin_cases j
      · exact ⟨.left, hjp, hj⟩
      · exact ⟨.bottom, hjp, hj⟩
      · exact ⟨.front, hjp, hj⟩
    · rw [abs_of_nonpos hp] at hjp hj
      fin_cases j
      · exact ⟨.right, hjp, hj⟩
      · exact ⟨.top, hjp, hj⟩
      · exact ⟨.back, hjp, hj⟩
  · intro f g p q hp hq
    obtain ⟨f0, hf⟩ := (C76_kept pano h f obs).1 ⟨p, hp⟩
    obtain ⟨g0, hg⟩ := (C76_kept pano h g obs).1 ⟨q, hq⟩
    generalize direction obs = b at *
    have a0 := hf 0; have a1 := hf 1; have a2 := hf 2
    have c0 := hg 0; have c1 := hg 1; have c2 := hg 2
    rw [abs_le] at a0 a1 a2 c0 c1 c2
    cases f <;> cases g <;> first | exact Or.inl rfl | (right; simp only [depth] at *; linarith)

/-- C76. The observation of a view is where the view shows the point of the panorama: it is inside the view,
its bearing turned to the panorama is the direction of the original observation, and the point of the panorama
rendered there is the original point. -/
theorem C76_render (pano : Pose ℝ) (h : Orthogonal pano.wcR) (f : Face) (obs p : Fin 2 → ℝ)
    (hp : subTrack pano (viewPose pano f) obs = some p) :
    |p 0| ≤ 1 / 2 ∧ |p 1| ≤ 1 / 2 ∧
    (pano.wcR * (viewPose pano f).wcRᵀ) *ᵥ bearing .perspective viewCamera p = direction obs ∧
    (InPanorama obs → renderAt pano (viewPose pano f) p = obs) := by
  have hf := (C76_kept pano h f obs).1 ⟨p, hp⟩
  rw [(sub_track_eq pano h f obs).1 hf] at hp
  cases hp
  have hf' := (in_face_iff f (direction obs)).1 hf
  have hu : (f.rotation *ᵥ direction obs) 0 ^ 2 + (f.rotation *ᵥ direction obs) 1 ^ 2 +
      (f.rotation *ᵥ direction obs) 2 ^ 2 = 1 := by
    have := direction_unit obs
    generalize direction obs = b at *
    rw [face_apply]
    cases f <;> simp <;> linarith
  have hback : f.rotationᵀ *ᵥ (f.rotation *ᵥ direction obs) = direction obs := by
    rw [Matrix.mulVec_mulVec, face_orthogonal, Matrix.one_mulVec]
  have hbb := view_bearing_project _ hf'.1 hu
  refine ⟨?_, ?_, ?_, ?_⟩
  · have v0 : project .perspective viewCamera (f.rotation *ᵥ direction obs) 0 =
        1 / 2 * ((f.rotation *ᵥ direction obs) 0 / (f.rotation *ᵥ direction obs) 2) := by rw [view_project]; rfl
    have := (div_le_one hf'.1).2 hf'.2.1
    rw [← abs_of_pos hf'.1, ← abs_div] at this
    rw [v0, abs_mul, abs_of_pos (by norm_num : (0:ℝ) < 1 / 2)]
    linarith
  · have v0 : project .perspective viewCamera (f.rotation *ᵥ direction obs) 1 =
        1 / 2 * ((f.rotation *ᵥ direction obs) 1 / (f.rotation *ᵥ direction obs) 2) := by rw [view_project]; rfl
    have := (div_le_one hf'.1).2 hf'.2.2
    rw [← abs_of_pos hf'.1, ← abs_div] at this
    rw [v0, abs_mul, abs_of_pos (by norm_num : (0:ℝ) < 1 / 2)]
    linarith
  · rw [hbb, from_view pano h, hback]
  · rintro ⟨h1, h2, h3⟩
    unfold renderAt
    simp only
    rw [rotated_back pano h, hbb, hback]
    exact C41_project_bearing_undistorted .spherical (fun _ => 0) obs (fun h => absurd rfl h)
      (fun i hi => absurd hi (by simp [ProjType.focalIdx])) ⟨h1, h2, h3⟩

/-- C76. A point of the world seen by the panorama without error is seen by the view without error: if the
observation is the projection of the point in the panorama and a view gets it, the observation of the view is
the projection of the point in the view. -/
theorem C76_world (pano : Pose ℝ) (h : Orthogonal pano.wcR) (f : Face) (X : Fin 3 → ℝ) (p : Fin 2 → ℝ)
    (hX : pano.transform X ≠ 0)
    (hp : subTrack pano (viewPose pano f) (project .spherical (fun _ => 0) (pano.transform X)) = some p) :
    p = project .perspective viewCamera ((viewPose pano f).transform X) := by
  have hf := (C76_kept pano h f _).1 ⟨p, hp⟩
  rw [(sub_track_eq pano h f _).1 hf] at hp
  cases hp
  have hv : (viewPose pano f).transform X = f.rotation *ᵥ pano.transform X := by
    simp [viewPose, Pose.transform, Pose.compose, Pose.ofWorldToCamera, Pose.identity, Pose.setRotationMatrix,
      Matrix.mulVec_add]
  rw [hv]
  set b := pano.transform X with hb
  have hs : 0 < b 0 ^ 2 + b 1 ^ 2 + b 2 ^ 2 := by
    by_contra hc
    apply hX
    have h0 := sq_nonneg (b 0); have h1 := sq_nonneg (b 1); have h2 := sq_nonneg (b 2)
    funext i
    fin_cases i
    · exact pow_eq_zero_iff (two_ne_zero) |>.1 (by linarith : b 0 ^ 2 = 0)
    · exact pow_eq_zero_iff (two_ne_zero) |>.1 (by linarith : b 1 ^ 2 = 0)
    · exact pow_eq_zero_iff (two_ne_zero) |>.1 (by linarith : b 2 ^ 2 = 0)
  set n := Real.sqrt (b 0 ^ 2 + b 1 ^ 2 + b 2 ^ 2) with hn
  have hn0 : 0 < n := Real.sqrt_pos.2 hs
  have hnn : n ^ 2 = b 0 ^ 2 + b 1 ^ 2 + b 2 ^ 2 := Real.sq_sqrt hs.le
  have e : direction (project .spherical (fun _ => 0) b) = n⁻¹ • b := by
    rw [← project_scale b n⁻¹ (inv_pos.2 hn0)]
    apply direction_project
    simp only [Pi.smul_apply, smul_eq_mul, mul_pow]
    rw [← mul_add, ← mul_add, ← hnn]
    field_simp
  rw [e, Matrix.mulVec_smul, view_project, view_project]
  simp only [Pi.smul_apply, smul_eq_mul]
  rw [mul_div_mul_left _ _ (inv_pos.2 hn0).ne', mul_div_mul_left _ _ (inv_pos.2 hn0).ne']

theorem quarter (t : ℝ) (h0 : 0 ≤ t) (h1 : t ≤ Real.pi) (h : |Real.sin t| ≤ Real.cos t) : t ≤ Real.pi / 4 := by
  by_contra hc
  push Not at hc
  have hlt : Real.cos t < Real.cos (Real.pi / 4) :=
    Real.cos_lt_cos_of_nonneg_of_le_pi (by have := Real.pi_pos; linarith) h1 hc
  rw [Real.cos_pi_div_four] at hlt
  have hn : 0 ≤ Real.cos t := le_trans (abs_nonneg _) h
  have hsq : Real.sin t ^ 2 ≤ Real.cos t ^ 2 := by
    rw [← sq_abs]; exact pow_le_pow_left₀ (abs_nonneg _) h 2
  have h1 := Real.sin_sq_add_cos_sq t
  have h2 := Real.sq_sqrt (show (0:ℝ) ≤ 2 by norm_num)
  nlinarith

/-- C76. The names of two views are exchanged: the view called left shows the right half of the panorama, the one
called right its left half. The other names are right: the front view is around the centre, top above and bottom
below. -/
theorem C76_names (pano : Pose ℝ) (h : Orthogonal pano.wcR) (obs p : Fin 2 → ℝ) (ho : InPanorama obs) :
    (subTrack pano (viewPose pano .left) obs = some p → 0 < obs 0 ∧ obs 0 < 1 / 2) ∧
    (subTrack pano (viewPose pano .right) obs = some p → obs 0 < 0) ∧
    (subTrack pano (viewPose pano .front) obs = some p → |obs 0| ≤ 1 / 8) ∧
    (subTrack pano (viewPose pano .back) obs = some p → 3 / 8 ≤ |obs 0|) ∧
    (subTrack pano (viewPose pano .top) obs = some p → obs 1 < 0) ∧
    (subTrack pano (viewPose pano .bottom) obs = some p → 0 < obs 1) := by
  have hpi := Real.pi_pos
  obtain ⟨u1, u2, v⟩ := ho
  obtain ⟨v1, v2⟩ := abs_lt.1 v
  have hc : 0 < Real.cos (2 * Real.pi * obs 1) := by
    apply Real.cos_pos_of_mem_Ioo
    constructor <;> nlinarith
  have hk : ∀ f, subTrack pano (viewPose pano f) obs = some p → InFace f (direction obs) :=
    fun f hf => (C76_kept pano h f obs).1 ⟨p, hf⟩
  have d0 : direction obs 0 = Real.cos (2 * Real.pi * obs 1) * Real.sin (2 * Real.pi * obs 0) := by rw [direction_eq]; rfl
  have d1 : direction obs 1 = Real.sin (2 * Real.pi * obs 1) := by rw [direction_eq]; rfl
  have d2 : direction obs 2 = Real.cos (2 * Real.pi * obs 1) * Real.cos (2 * Real.pi * obs 0) := by rw [direction_eq]; rfl
  have hs : |Real.sin (2 * Real.pi * |obs 0|)| = |Real.sin (2 * Real.pi * obs 0)| := by
    rcases abs_choice (obs 0) with h | h <;> rw [h]
    rw [mul_neg, Real.sin_neg, abs_neg]
  have hcc : Real.cos (2 * Real.pi * |obs 0|) = Real.cos (2 * Real.pi * obs 0) := by
    rcases abs_choice (obs 0) with h | h <;> rw [h]
    rw [mul_neg, Real.cos_neg]
  have ha : |obs 0| ≤ 1 / 2 := abs_le.2 ⟨by linarith, u2⟩
  have ha0 := abs_nonneg (obs 0)
  refine ⟨fun hf => ?_, fun hf => ?_, fun hf => ?_, fun hf => ?_, fun hf => ?_, fun hf => ?_⟩
  · have hx := (hk _ hf).1
    simp only [depth, d0] at hx
    have hsin := (mul_pos_iff_of_pos_left hc).1 hx
    constructor
    · by_contra hn
      push Not at hn
      have := Real.sin_nonpos_of_nonpos_of_neg_pi_le (x := 2 * Real.pi * obs 0) (by nlinarith) (by nlinarith)
      linarith
    · refine lt_of_le_of_ne u2 (fun he => ?_)
      rw [he, show 2 * Real.pi * (1 / 2) = Real.pi by ring, Real.sin_pi] at hsin
      exact lt_irrefl _ hsin
  · have hx := (hk _ hf).1
    simp only [depth, d0] at hx
    have hsin : Real.sin (2 * Real.pi * obs 0) < 0 := by
      by_contra hn
      push Not at hn
      have := mul_nonneg hc.le hn
      linarith
    by_contra hn
    push Not at hn
    have := Real.sin_nonneg_of_nonneg_of_le_pi (x := 2 * Real.pi * obs 0) (by nlinarith) (by nlinarith)
    linarith
  · have hx := (hk _ hf).2 0
    simp only [depth, d0, d2, abs_mul, abs_of_pos hc] at hx
    have hx := le_of_mul_le_mul_left hx hc
    rw [← hs, ← hcc] at hx
    have := quarter (2 * Real.pi * |obs 0|) (by positivity) (by nlinarith) hx
    nlinarith
  · have hx := (hk _ hf).2 0
    simp only [depth, d0, d2, abs_mul, abs_of_pos hc, ← mul_neg] at hx
    have hx := le_of_mul_le_mul_left hx hc
    rw [← hs, ← hcc, ← Real.cos_pi_sub, ← Real.sin_pi_sub] at hx
    have := quarter (Real.pi - 2 * Real.pi * |obs 0|) (by nlinarith) (by nlinarith) hx
    nlinarith
  · have hx := (hk _ hf).1
    simp only [depth, d1] at hx
    by_contra hn
    push Not at hn
    have := Real.sin_nonneg_of_nonneg_of_le_pi (x := 2 * Real.pi * obs 1) (by nlinarith) (by nlinarith)
    linarith
  · have hx := (hk _ hf).1
    simp only [depth, d1] at hx
    by_contra hn
    push Not at hn
    have := Real.sin_nonpos_of_nonpos_of_neg_pi_le (x := 2 * Real.pi * obs 1) (by nlinarith) (by nlinarith)
    linarith

/-- C76. In pixels: if the observation of a view is the centre of one of its pixels, that pixel of the image of
the view is sampled in the panorama, resized to four times the width, exactly at the original observation. -/
theorem C76_pixel (pano : Pose ℝ) (h : Orthogonal pano.wcR) (f : Face) (obs p : Fin 2 → ℝ) (ho : InPanorama obs)
    (hp : subTrack pano (viewPose pano f) obs = some p) (width u v : ℕ)
    (hw : 0 < width) (huv : p = ![((u : ℝ) + 1 / 2) / width - 1 / 2, ((v : ℝ) + 1 / 2) / width - 1 / 2]) :
    samplePixel pano (viewPose pano f) width u v =
      ![4 * width * obs 0 + 2 * width - 1 / 2, 4 * width * obs 1 + width - 1 / 2] := by
  have hw' : (width : ℝ) ≠ 0 := by positivity
  have hn : normalized width width ![u, v] = p := by
    rw [huv]
    unfold normalized
    rw [max_self]
    funext i
    fin_cases i <;> simp <;> field_simp
  unfold samplePixel
  rw [hn, (C76_render pano h f obs p hp).2.2.2 ho]
  have h1 : 4 * width / 2 = 2 * width := by omega
  have h2 : max (4 * width) (2 * width) = 4 * width := by omega
  unfold denormalized
  rw [h1, h2]
  push_cast
  funext i
  fin_cases i <;> simp <;> ring

/-- The panorama without rotation satisfies the hypotheses; the point at one quarter to the right is at the centre
of the view called left. -/
example : Orthogonal (Pose.identity (K := ℝ)).wcR ∧ InPanorama ![1 / 4, 0] ∧
    subTrack Pose.identity (viewPose Pose.identity .left) ![1 / 4, 0] = some ![0, 0] := by
  have ho : Orthogonal (Pose.identity (K := ℝ)).wcR := by
    simp [Orthogonal, Pose.identity, Pose.ofWorldToCamera]
  have hd : direction ![1 / 4, 0] = ![1, 0, 0] := by
    rw [direction_eq]
    have : 2 * Real.pi * (1 / 4) = Real.pi / 2 := by ring
    funext i
    fin_cases i <;> simp [Matrix.cons_val_zero, Matrix.cons_val_one] <;>
      rw [show 2 * Real.pi * 4⁻¹ = Real.pi / 2 by ring] <;> simp
  refine ⟨ho, ?_, ?_⟩
  · refine ⟨?_, ?_, ?_⟩ <;> norm_num
  · have hf : InFace .left (direction ![1 / 4, 0]) := by
      rw [hd]
      refine ⟨by simp [depth], fun i => ?_⟩
      fin_cases i <;> simp [depth]
    rw [(sub_track_eq _ ho .left _).1 hf, view_project, face_apply, hd]
    simp

end Verif.Undistort
