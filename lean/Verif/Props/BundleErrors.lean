import Verif.Model.BundleErrors
import Verif.Props.Superimpose
import Mathlib.Tactic.FinCases
import Mathlib.Analysis.SpecialFunctions.Complex.Arg
import Mathlib.Analysis.SpecialFunctions.Trigonometric.Bounds
import Mathlib.Analysis.Complex.ExponentialBounds
import Mathlib.Analysis.Real.Pi.Bounds

/-!
C92: what it means for a residual of the bundle adjuster to vanish.
-/
set_option linter.unusedSectionVars false
set_option linter.unusedSimpArgs false
namespace Verif.BundleErrors
open Matrix Verif.Superimpose

/-! ### Specification -/

/-- The rotation of a rotation vector `w` (Rodrigues): by the angle `|w|` about `w`. At `w = 0` it is the identity, as
`0 / 0 = 0`. -/
noncomputable def Rot (w : Vec 3) : Mat 3 :=
  let θ := Real.sqrt (w ⬝ᵥ w)
  Real.cos θ • (1 : Mat 3) + (Real.sin θ / θ) • !![0, -w 2, w 1; w 2, 0, -w 0; -w 1, w 0, 0] +
    ((1 - Real.cos θ) / (w ⬝ᵥ w)) • vecMulVec w w

/-- The rotation is not so small that ceres replaces it by the first order formula. -/
def Regular (ε : ℝ) (w : Vec 3) : Prop := w = 0 ∨ ε < w ⬝ᵥ w

/-- A block is regular if its rotation is. -/
def Block.Regular (ε : ℝ) (b : Block) : Prop := BundleErrors.Regular ε b.r

/-- The rig camera of a shot as a block; no rig camera is the identity. -/
def camBlock (c : Option Block) : Block := c.getD ⟨0, 0⟩

/-- Where the shot is in the world: a point `y` in front of the camera is at `R_inst (R_cam y + t_cam) + t_inst`. -/
noncomputable def toWorld (inst cam : Block) (y : Vec 3) : Vec 3 := Rot inst.r *ᵥ (Rot cam.r *ᵥ y + cam.t) + inst.t

/-! ### Quaternions -/

/-- The matrix of a quaternion. -/
def Rq (q : Fin 4 → ℝ) : Mat 3 :=
  !![q 0 ^ 2 + q 1 ^ 2 - q 2 ^ 2 - q 3 ^ 2, 2 * (q 1 * q 2 - q 0 * q 3), 2 * (q 1 * q 3 + q 0 * q 2);
     2 * (q 1 * q 2 + q 0 * q 3), q 0 ^ 2 - q 1 ^ 2 + q 2 ^ 2 - q 3 ^ 2, 2 * (q 2 * q 3 - q 0 * q 1);
     2 * (q 1 * q 3 - q 0 * q 2), 2 * (q 2 * q 3 + q 0 * q 1), q 0 ^ 2 - q 1 ^ 2 - q 2 ^ 2 + q 3 ^ 2]

/-- Squared norm of a quaternion. -/
def nq (q : Fin 4 → ℝ) : ℝ := q 0 ^ 2 + q 1 ^ 2 + q 2 ^ 2 + q 3 ^ 2

theorem Rq_mul (p q : Fin 4 → ℝ) : Rq (quatMul p q) = Rq p * Rq q := by
  ext i j
  fin_cases i <;> fin_cases j <;> simp [Rq, quatMul, Matrix.mul_apply, Fin.sum_univ_three] <;> ring

theorem nq_mul (p q : Fin 4 → ℝ) : nq (quatMul p q) = nq p * nq q := by
  simp [nq, quatMul]; ring

theorem dot3 (v w : Vec 3) : v ⬝ᵥ w = v 0 * w 0 + v 1 * w 1 + v 2 * w 2 := by
  simp [dotProduct, Fin.sum_univ_three]

theorem mv (A : Mat 3) (x : Vec 3) (i : Fin 3) : (A *ᵥ x) i = A i 0 * x 0 + A i 1 * x 1 + A i 2 * x 2 := by
  simp [mulVec, dotProduct, Fin.sum_univ_three]

theorem dot_nonneg (w : Vec 3) : 0 ≤ w ⬝ᵥ w := by
  rw [dot3]; nlinarith [mul_self_nonneg (w 0), mul_self_nonneg (w 1), mul_self_nonneg (w 2)]

theorem dot_zero (w : Vec 3) (h : w ⬝ᵥ w = 0) : w = 0 := by
  rw [dot3] at h
  have h0 : w 0 = 0 := by nlinarith [mul_self_nonneg (w 0), mul_self_nonneg (w 1), mul_self_nonneg (w 2)]
  have h1 : w 1 = 0 := by nlinarith [mul_self_nonneg (w 0), mul_self_nonneg (w 1), mul_self_nonneg (w 2)]
  have h2 : w 2 = 0 := by nlinarith [mul_self_nonneg (w 0), mul_self_nonneg (w 1), mul_self_nonneg (w 2)]
  ext i
  fin_cases i <;> simp [h0, h1, h2]

theorem Rot_zero : Rot 0 = 1 := by
  simp [Rot]

theorem toQuat_zero : toQuat 0 = ![1, 0, 0, 0] := by
  simp [toQuat]

theorem Rot_apply (w : Vec 3) (i j : Fin 3) : Rot w i j =
    Real.cos (Real.sqrt (w ⬝ᵥ w)) * (1 : Mat 3) i j + (Real.sin (Real.sqrt (w ⬝ᵥ w)) / Real.sqrt (w ⬝ᵥ w)) *
      (!![0, -w 2, w 1; w 2, 0, -w 0; -w 1, w 0, 0] : Mat 3) i j + ((1 - Real.cos (Real.sqrt (w ⬝ᵥ w))) / (w ⬝ᵥ w)) * (w i * w j) := by
  simp only [Rot, Matrix.add_apply, Matrix.smul_apply, vecMulVec_apply, smul_eq_mul]

theorem Rq_toQuat (w : Vec 3) : Rq (toQuat w) = Rot w ∧ nq (toQuat w) = 1 := by
  by_cases hw : w = 0
  · subst hw
    rw [toQuat_zero, Rot_zero]
    constructor
    · ext i j
      fin_cases i <;> fin_cases j <;> simp [Rq]
    · simp [nq]
  · have hpos : 0 < w ⬝ᵥ w := lt_of_le_of_ne (dot_nonneg w) (fun h => hw (dot_zero w h.symm))
    have hθ : 0 < Real.sqrt (w ⬝ᵥ w) := Real.sqrt_pos.2 hpos
    have hθ2 : Real.sqrt (w ⬝ᵥ w) ^ 2 = w ⬝ᵥ w := Real.sq_sqrt hpos.le
    have hd := dot3 w w
    have hq : toQuat w = ![Real.cos (Real.sqrt (w ⬝ᵥ w) / 2), w 0 * (Real.sin (Real.sqrt (w ⬝ᵥ w) / 2) / Real.sqrt (w ⬝ᵥ w)),
        w 1 * (Real.sin (Real.sqrt (w ⬝ᵥ w) / 2) / Real.sqrt (w ⬝ᵥ w)),
        w 2 * (Real.sin (Real.sqrt (w ⬝ᵥ w) / 2) / Real.sqrt (w ⬝ᵥ w))] := by
      unfold toQuat
      simp only
      rw [if_pos hpos]
    have hr := Rot_apply w
    generalize Real.sqrt (w ⬝ᵥ w) = θ at hθ hθ2 hq hr
    generalize w ⬝ᵥ w = D at hpos hθ2 hd hr
    set k := Real.sin (θ / 2) / θ with hk
    set c := Real.cos (θ / 2) with hc
    have hs : Real.sin (θ / 2) = k * θ := by rw [hk]; field_simp
    have h1 : c ^ 2 + k ^ 2 * D = 1 := by
      rw [← hθ2]
      have := Real.sin_sq_add_cos_sq (θ / 2)
      rw [hs] at this
      linarith
    have hcos : Real.cos θ = c ^ 2 - k ^ 2 * D := by
      have : Real.cos θ = 2 * c ^ 2 - 1 := by
        rw [hc, ← Real.cos_two_mul]; congr 1; ring
      rw [this]; linarith
    have hsin : Real.sin θ / θ = 2 * k * c := by
      have : Real.sin θ = 2 * Real.sin (θ / 2) * c := by
        rw [hc, ← Real.sin_two_mul]; congr 1; ring
      rw [this, hs]; field_simp
    have hm : (1 - Real.cos θ) / D = 2 * k ^ 2 := by
      rw [div_eq_iff hpos.ne', hcos]; linarith
    rw [hcos, hsin] at hr
    rw [hcos] at hm
    rw [hm] at hr
    constructor
    · ext i j
      rw [hr, hq]
      fin_cases i <;> fin_cases j <;> simp [Rq] <;> (try rw [hd]) <;> ring
    · rw [hq]
      simp [nq]
      rw [hd] at h1
      linarith

theorem Rq_rot {q : Fin 4 → ℝ} (h : nq q = 1) : IsRot (Rq q) := by
  unfold nq at h
  constructor
  · have h2 : (q 0 ^ 2 + q 1 ^ 2 + q 2 ^ 2 + q 3 ^ 2) ^ 2 = 1 := by rw [h]; norm_num
    ext i j
    fin_cases i <;> fin_cases j <;> simp [Rq, Matrix.mul_apply, Fin.sum_univ_three] <;> (first | linear_combination h2 | ring)
  · have h3 : (q 0 ^ 2 + q 1 ^ 2 + q 2 ^ 2 + q 3 ^ 2) ^ 3 = 1 := by rw [h]; norm_num
    rw [Matrix.det_fin_three]
    simp [Rq]
    linear_combination h3

theorem Rot_rot (w : Vec 3) : IsRot (Rot w) := by
  rw [← (Rq_toQuat w).1]
  exact Rq_rot (Rq_toQuat w).2

theorem ofQuat_spec (q : Fin 4 → ℝ) (h : nq q = 1) : Rot (ofQuat q) = Rq q ∧ Real.sqrt (ofQuat q ⬝ᵥ ofQuat q) ≤ Real.pi := by
  unfold nq at h
  by_cases hs : q 1 * q 1 + q 2 * q 2 + q 3 * q 3 > 0
  swap
  · have h1 : q 1 = 0 := by nlinarith [mul_self_nonneg (q 1), mul_self_nonneg (q 2), mul_self_nonneg (q 3)]
    have h2 : q 2 = 0 := by nlinarith [mul_self_nonneg (q 1), mul_self_nonneg (q 2), mul_self_nonneg (q 3)]
    have h3 : q 3 = 0 := by nlinarith [mul_self_nonneg (q 1), mul_self_nonneg (q 2), mul_self_nonneg (q 3)]
    have e : ofQuat q = 0 := by
      unfold ofQuat
      simp only
      rw [if_neg hs, h1, h2, h3]
      ext i; fin_cases i <;> simp
    rw [e, Rot_zero]
    rw [h1, h2, h3] at h
    have h0 : q 0 ^ 2 = 1 := by linarith
    constructor
    · ext i j
      fin_cases i <;> fin_cases j <;> simp [Rq, h1, h2, h3, h0]
    · simp [Real.pi_nonneg]
  · have hsq : 0 < Real.sqrt (q 1 * q 1 + q 2 * q 2 + q 3 * q 3) := Real.sqrt_pos.2 hs
    have hs2 : Real.sqrt (q 1 * q 1 + q 2 * q 2 + q 3 * q 3) ^ 2 = q 1 * q 1 + q 2 * q 2 + q 3 * q 3 := Real.sq_sqrt hs.le
    set s := Real.sqrt (q 1 * q 1 + q 2 * q 2 + q 3 * q 3) with hsdef
    set φ := if q 0 < 0 then Camera.atan2 (-s) (-q 0) else Camera.atan2 s (q 0) with hφ
    have hq : ofQuat q = ![q 1 * (2 * φ / s), q 2 * (2 * φ / s), q 3 * (2 * φ / s)] := by
      unfold ofQuat
      simp only
      rw [if_pos hs]
    have hn : q 0 ^ 2 + s ^ 2 = 1 := by rw [hs2]; linarith
    have hφs : Real.cos φ ^ 2 = q 0 ^ 2 ∧ Real.sin φ ^ 2 = s ^ 2 ∧ Real.sin φ * Real.cos φ = s * q 0 ∧ |φ| ≤ Real.pi / 2 := by
      have key : ∀ x y : ℝ, x ^ 2 + y ^ 2 = 1 → 0 ≤ x → Real.cos (Camera.atan2 y x) = x ∧ Real.sin (Camera.atan2 y x) = y ∧
          |Camera.atan2 y x| ≤ Real.pi / 2 := by
        intro x y hxy hx
        have hnorm : ‖(⟨x, y⟩ : ℂ)‖ = 1 := by
          rw [Complex.norm_def, Complex.normSq_mk]
          rw [show x * x + y * y = 1 by linarith]
          simp
        have hne : (⟨x, y⟩ : ℂ) ≠ 0 := by
          intro e; rw [e] at hnorm; simp at hnorm
        unfold Camera.atan2
        refine ⟨?_, ?_, Complex.abs_arg_le_pi_div_two_iff.2 hx⟩
        · rw [Complex.cos_arg hne, hnorm]; simp
        · rw [Complex.sin_arg, hnorm]; simp
      rw [hφ]
      split
      · rename_i h0
        obtain ⟨a, b, c⟩ := key (-q 0) (-s) (by linarith [hn]) (by linarith)
        refine ⟨by rw [a]; ring, by rw [b]; ring, by rw [a, b]; ring, c⟩
      · rename_i h0
        obtain ⟨a, b, c⟩ := key (q 0) s hn (by linarith)
        exact ⟨by rw [a], by rw [b], by rw [a, b], c⟩
    obtain ⟨hc2, hsn2, hcs, hb⟩ := hφs
    have hφ0 : φ ≠ 0 := by
      intro e
      rw [e] at hsn2
      rw [Real.sin_zero] at hsn2
      exact (pow_pos hsq 2).ne' (by rw [← hsn2]; norm_num)
    have hdot : ofQuat q ⬝ᵥ ofQuat q = (2 * φ) ^ 2 := by
      rw [hq, dot3]
      simp
      have : q 1 * (2 * φ / s) * (q 1 * (2 * φ / s)) + q 2 * (2 * φ / s) * (q 2 * (2 * φ / s)) + q 3 * (2 * φ / s) * (q 3 * (2 * φ / s))
        = (q 1 * q 1 + q 2 * q 2 + q 3 * q 3) * (2 * φ / s) ^ 2 := by ring
      rw [this, ← hs2]
      field_simp
    have hsqrt : Real.sqrt (ofQuat q ⬝ᵥ ofQuat q) = |2 * φ| := by rw [hdot, Real.sqrt_sq_eq_abs]
    refine ⟨?_, ?_⟩
    swap
    · rw [hsqrt, abs_mul]
      simp
      linarith
    have hr := Rot_apply (ofQuat q)
    rw [hsqrt, hdot] at hr
    have e1 : Real.cos |2 * φ| = q 0 ^ 2 - s ^ 2 := by
      rw [Real.cos_abs, Real.cos_two_mul, hc2]; linarith
    have e2 : Real.sin |2 * φ| / |2 * φ| = s * q 0 / φ := by
      have : Real.sin |2 * φ| / |2 * φ| = Real.sin (2 * φ) / (2 * φ) := by
        rcases abs_choice (2 * φ) with e | e <;> rw [e]
        rw [Real.sin_neg, neg_div_neg_eq]
      rw [this, Real.sin_two_mul, mul_assoc, hcs]
      field_simp
    have e3 : (1 - (q 0 ^ 2 - s ^ 2)) / (2 * φ) ^ 2 = s ^ 2 / (2 * φ ^ 2) := by
      rw [show 1 - (q 0 ^ 2 - s ^ 2) = 2 * s ^ 2 by linarith]
      field_simp
    rw [e1, e2, e3] at hr
    have w0 : ofQuat q 0 = q 1 * (2 * φ / s) := by rw [hq]; rfl
    have w1 : ofQuat q 1 = q 2 * (2 * φ / s) := by rw [hq]; rfl
    have w2 : ofQuat q 2 = q 3 * (2 * φ / s) := by rw [hq]; rfl
    have k1 : s * q 0 / φ * (2 * φ / s) = 2 * q 0 := by field_simp
    have k2 : s ^ 2 / (2 * φ ^ 2) * (2 * φ / s) ^ 2 = 2 := by field_simp
    generalize 2 * φ / s = g at *
    generalize s * q 0 / φ = A at *
    generalize s ^ 2 / (2 * φ ^ 2) = B at *
    rw [hs2] at hr
    ext i j
    rw [hr]
    fin_cases i <;> fin_cases j <;> simp [Rq, w0, w1, w2]
    · linear_combination (q 1 ^ 2) * k2
    · linear_combination (-q 3) * k1 + (q 1 * q 2) * k2
    · linear_combination (q 2) * k1 + (q 1 * q 3) * k2
    · linear_combination (q 3) * k1 + (q 1 * q 2) * k2
    · linear_combination (q 2 ^ 2) * k2
    · linear_combination (-q 1) * k1 + (q 2 * q 3) * k2
    · linear_combination (-q 2) * k1 + (q 1 * q 3) * k2
    · linear_combination (q 1) * k1 + (q 2 * q 3) * k2
    · linear_combination (q 3 ^ 2) * k2

theorem small_rot_one {w : Vec 3} (hw : Real.sqrt (w ⬝ᵥ w) ≤ Real.pi) (h : Rot w = 1) : w = 0 := by
  by_contra hne
  have hpos : 0 < w ⬝ᵥ w := lt_of_le_of_ne (dot_nonneg w) (fun h => hne (dot_zero w h.symm))
  have ht : Rot w 0 0 + Rot w 1 1 + Rot w 2 2 = 3 := by rw [h]; simp; norm_num
  rw [Rot_apply, Rot_apply, Rot_apply] at ht
  have hd := dot3 w w
  have hθ : 0 < Real.sqrt (w ⬝ᵥ w) := Real.sqrt_pos.2 hpos
  have hc : Real.cos (Real.sqrt (w ⬝ᵥ w)) = 1 := by
    generalize Real.cos (Real.sqrt (w ⬝ᵥ w)) = c at ht
    have : (1 - c) / (w ⬝ᵥ w) * (w 0 * w 0) + (1 - c) / (w ⬝ᵥ w) * (w 1 * w 1) + (1 - c) / (w ⬝ᵥ w) * (w 2 * w 2) = 1 - c := by
      rw [← mul_add, ← mul_add, ← hd]
      field_simp
    simp at ht
    linarith
  have hpi := Real.pi_pos
  have := (Real.cos_eq_one_iff_of_lt_of_lt (by linarith) (by linarith)).1 hc
  exact hθ.ne' this

/-! ### Rotations -/

/-- **Product of rotations.** `MultRotations` is the rotation vector, of length at most π, of the product of the rotations; it is
zero exactly if the product is the identity. -/
theorem C92_product (a b c : Vec 3) :
    Rot (mult a b) = Rot a * Rot b ∧ Real.sqrt (mult a b ⬝ᵥ mult a b) ≤ Real.pi ∧ (mult a b = 0 ↔ Rot a * Rot b = 1) ∧
    Rot (mult3 a b c) = Rot a * Rot b * Rot c ∧ (mult3 a b c = 0 ↔ Rot a * Rot b * Rot c = 1) := by
  obtain ⟨a1, a2⟩ := Rq_toQuat a
  obtain ⟨b1, b2⟩ := Rq_toQuat b
  obtain ⟨c1, c2⟩ := Rq_toQuat c
  have hab : nq (quatMul (toQuat a) (toQuat b)) = 1 := by rw [nq_mul, a2, b2]; norm_num
  obtain ⟨h1, h2⟩ := ofQuat_spec _ hab
  obtain ⟨h3, h4⟩ := ofQuat_spec (quatMul (quatMul (toQuat a) (toQuat b)) (toQuat c)) (by rw [nq_mul, hab, c2]; norm_num)
  rw [Rq_mul, a1, b1] at h1
  rw [Rq_mul, Rq_mul, a1, b1, c1] at h3
  refine ⟨h1, h2, ⟨fun h => ?_, fun h => ?_⟩, h3, ⟨fun h => ?_, fun h => ?_⟩⟩
  · rw [← h1]; unfold mult at h; rw [h, Rot_zero]
  · exact small_rot_one h2 (h1.trans h)
  · rw [← h3]; unfold mult3 at h; rw [h, Rot_zero]
  · exact small_rot_one h4 (h3.trans h)

theorem Rot_neg (w : Vec 3) : Rot (-w) = (Rot w)ᵀ := by
  ext i j
  rw [Matrix.transpose_apply, Rot_apply, Rot_apply]
  have : (-w) ⬝ᵥ (-w) = w ⬝ᵥ w := by simp
  rw [this]
  generalize (1 - Real.cos (Real.sqrt (w ⬝ᵥ w))) / (w ⬝ᵥ w) = m
  generalize Real.cos (Real.sqrt (w ⬝ᵥ w)) = c
  generalize Real.sin (Real.sqrt (w ⬝ᵥ w)) / Real.sqrt (w ⬝ᵥ w) = s
  fin_cases i <;> fin_cases j <;> simp [-mul_eq_mul_left_iff] <;> ring

/-- **Rotating a point.** Away from the tiny angles, `RotatePoint` is the rotation of the rotation vector, which is a proper
rotation by the angle `|w|` that keeps `w`. -/
theorem C92_rotate (ε : ℝ) (hε : 0 ≤ ε) (w x : Vec 3) (hw : Regular ε w) :
    rotatePoint ε w x = Rot w *ᵥ x ∧ IsRot (Rot w) ∧ Rot w *ᵥ w = w ∧
      Rot w 0 0 + Rot w 1 1 + Rot w 2 2 = 1 + 2 * Real.cos (Real.sqrt (w ⬝ᵥ w)) := by
  have hfix : Rot w *ᵥ w = w ∧ Rot w 0 0 + Rot w 1 1 + Rot w 2 2 = 1 + 2 * Real.cos (Real.sqrt (w ⬝ᵥ w)) := by
    by_cases h0 : w = 0
    · subst h0
      rw [Rot_zero]
      simp
      norm_num
    · have hpos : 0 < w ⬝ᵥ w := lt_of_le_of_ne (dot_nonneg w) (fun h => h0 (dot_zero w h.symm))
      have hm : ∀ c : ℝ, (1 - c) / (w ⬝ᵥ w) * (w 0 * w 0 + w 1 * w 1 + w 2 * w 2) = 1 - c := by
        intro c
        rw [← dot3]
        field_simp
      have hmc := hm (Real.cos (Real.sqrt (w ⬝ᵥ w)))
      constructor
      · refine funext (fun i => ?_)
        rw [mv, Rot_apply, Rot_apply, Rot_apply]
        generalize (1 - Real.cos (Real.sqrt (w ⬝ᵥ w))) / (w ⬝ᵥ w) = m at hmc
        generalize Real.cos (Real.sqrt (w ⬝ᵥ w)) = c at hmc
        generalize Real.sin (Real.sqrt (w ⬝ᵥ w)) / Real.sqrt (w ⬝ᵥ w) = s
        match i with
        | 0 => simp; linear_combination (w 0) * hmc
        | 1 => simp; linear_combination (w 1) * hmc
        | 2 => simp; linear_combination (w 2) * hmc
      · rw [Rot_apply, Rot_apply, Rot_apply]
        simp
        linarith
  refine ⟨?_, Rot_rot w, hfix⟩
  rcases hw with rfl | hw
  · rw [Rot_zero, one_mulVec]
    unfold rotatePoint
    rw [if_neg (by simp; exact hε)]
    ext i
    fin_cases i <;> simp [cross]
  · have hpos : 0 < w ⬝ᵥ w := lt_of_le_of_lt hε hw
    have hθ : 0 < Real.sqrt (w ⬝ᵥ w) := Real.sqrt_pos.2 hpos
    have hθ2 : Real.sqrt (w ⬝ᵥ w) ^ 2 = w ⬝ᵥ w := Real.sq_sqrt hpos.le
    unfold rotatePoint
    rw [if_pos hw]
    simp only
    refine funext (fun i => ?_)
    rw [mv, Rot_apply, Rot_apply, Rot_apply]
    have hm : ∀ c : ℝ, c / (w ⬝ᵥ w) = c / Real.sqrt (w ⬝ᵥ w) ^ 2 := by intro c; rw [hθ2]
    rw [hm]
    generalize Real.sqrt (w ⬝ᵥ w) = θ at hθ
    generalize Real.cos θ = c
    generalize Real.sin θ = s
    simp only [Pi.add_apply, Pi.smul_apply, smul_eq_mul, dot3, cross]
    match i with
    | 0 => simp; field_simp; ring
    | 1 => simp; field_simp; ring
    | 2 => simp; field_simp; ring

/-! ### Where a shot is -/

theorem Rot_inv (w : Vec 3) : (Rot w)ᵀ * Rot w = 1 ∧ Rot w * (Rot w)ᵀ = 1 :=
  ⟨(Rot_rot w).1, mul_eq_one_comm.1 (Rot_rot w).1⟩

theorem regular_neg {ε : ℝ} {w : Vec 3} (h : Regular ε w) : Regular ε (-w) := by
  rcases h with rfl | h
  · left; simp
  · right; simpa using h

theorem worldToLocal_iff (ε : ℝ) (hε : 0 ≤ ε) (s : ℝ) (b : Block) (hb : b.Regular ε) (x y : Vec 3) :
    worldToLocal ε s b x = y ↔ s • x = Rot b.r *ᵥ y + b.t := by
  unfold worldToLocal
  rw [(C92_rotate ε hε (-b.r) _ (regular_neg hb)).1, Rot_neg]
  obtain ⟨h1, h2⟩ := Rot_inv b.r
  constructor
  · rintro rfl
    rw [mulVec_mulVec, h2, one_mulVec]
    simp
  · intro h
    rw [h, add_sub_cancel_right, mulVec_mulVec, h1, one_mulVec]

/-- **Where a shot is.** For blocks whose rotations are not tiny: the point of camera coordinates `y` is the point whose residuals
see camera coordinates `y`; the position of a shot is where its camera coordinates are zero; the rotation of a shot is the product of
the rotations of rig instance and rig camera. -/
theorem C92_shot (ε : ℝ) (hε : 0 ≤ ε) (inst : Block) (cam : Option Block) (hi : inst.Regular ε) (hc : (camBlock cam).Regular ε)
    (x y : Vec 3) :
    (worldToCamera ε 1 inst cam x = y ↔ x = toWorld inst (camBlock cam) y) ∧
    shotPosition ε inst cam = toWorld inst (camBlock cam) 0 ∧
    Rot (shotRotation inst cam) = Rot inst.r * Rot (camBlock cam).r := by
  unfold toWorld
  cases cam with
  | none =>
    simp only [camBlock, Option.getD_none, worldToCamera, shotPosition, shotRotation, Rot_zero, one_mulVec, add_zero, mulVec_zero,
      zero_add, Matrix.mul_one, and_true]
    rw [worldToLocal_iff ε hε 1 inst hi, one_smul]
  | some c =>
    simp only [camBlock, Option.getD_some, worldToCamera, shotPosition, shotRotation, mulVec_zero, zero_add]
    refine ⟨?_, ?_, (C92_product inst.r c.r 0).1⟩
    · rw [worldToLocal_iff ε hε 1 c hc, one_smul, worldToLocal_iff ε hε 1 inst hi, one_smul]
    · rw [(C92_rotate ε hε inst.r c.t hi).1, add_comm]

theorem rotatePoint_zero (ε : ℝ) (w : Vec 3) : rotatePoint ε w 0 = 0 := by
  have hc : ∀ v, cross v 0 = 0 := by intro v; ext i; fin_cases i <;> simp [cross]
  unfold rotatePoint
  split <;> simp [hc]

/-- A rig camera that is fixed at the identity is left out of the residuals; this changes no camera coordinates, no position and no
rotation. -/
theorem C92_useless_camera (ε : ℝ) (hε : 0 ≤ ε) (fixed : Bool) (inst cam : Block) (x : Vec 3) :
    worldToCamera ε 1 inst (usedCamera fixed cam) x = worldToCamera ε 1 inst (some cam) x ∧
    shotPosition ε inst (usedCamera fixed cam) = shotPosition ε inst (some cam) ∧
    Rot (shotRotation inst (usedCamera fixed cam)) = Rot (shotRotation inst (some cam)) ∧
    (usedCamera fixed cam = none ↔ fixed = true ∧ cam.r = 0 ∧ cam.t = 0) := by
  unfold usedCamera
  by_cases h : fixed = true ∧ cam = ⟨0, 0⟩
  · rw [if_pos h]
    obtain ⟨hf, rfl⟩ := h
    refine ⟨?_, ?_, ?_, ?_⟩
    · simp only [worldToCamera]
      symm
      rw [worldToLocal_iff ε hε 1 ⟨0, 0⟩ (Or.inl rfl)]
      simp [Rot_zero]
    · simp [shotPosition, rotatePoint_zero]
    · simp only [shotRotation]
      rw [(C92_product inst.r 0 0).1, Rot_zero, Matrix.mul_one]
    · simp [hf]
  · rw [if_neg h]
    refine ⟨rfl, rfl, rfl, ?_⟩
    simp only [reduceCtorEq, false_iff]
    rintro ⟨h1, h2, h3⟩
    exact h ⟨h1, Block.ext h2 h3⟩

/-! ### Observations -/

theorem smul_zero_iff {n : ℕ} {std : ℝ} (h : std ≠ 0) (v : Vec n) : (1 / std) • v = 0 ↔ v = 0 := by
  rw [smul_eq_zero]
  simp [h]

/-- **Reprojection.** The residual of an observation vanishes exactly if the point projects to the observed position. -/
theorem C92_reprojection (ε : ℝ) (hε : 0 ≤ ε) (project : Vec 3 → Vec 2) (observed : Vec 2) (std : ℝ) (hstd : std ≠ 0) (inst : Block)
    (cam : Option Block) (hi : inst.Regular ε) (hc : (camBlock cam).Regular ε) (x : Vec 3) :
    reprojection2D ε project observed std inst cam x = 0 ↔ ∃ y, x = toWorld inst (camBlock cam) y ∧ project y = observed := by
  unfold reprojection2D
  rw [smul_zero_iff hstd, sub_eq_zero]
  constructor
  · intro h
    exact ⟨_, (C92_shot ε hε inst cam hi hc x _).1.1 rfl, h⟩
  · rintro ⟨y, hx, h⟩
    rw [(C92_shot ε hε inst cam hi hc x y).1.2 hx, h]

theorem bearing_norm (o : Vec 2) : bearing o ⬝ᵥ bearing o = 1 := by
  rw [dot3]
  unfold bearing
  simp
  have h1 := Real.sin_sq_add_cos_sq (o 1 * 2 * Real.pi)
  have h2 := Real.sin_sq_add_cos_sq (o 0 * 2 * Real.pi)
  linear_combination (Real.cos (o 1 * 2 * Real.pi) ^ 2) * h2 + h1

/-- **Panoramas.** The residual of an observation in a spherical image vanishes exactly if the point lies in the observed direction, at
any positive distance; that direction is the one the camera gives for the pixel. -/
theorem C92_spherical (ε : ℝ) (hε : 0 ≤ ε) (observed : Vec 2) (std : ℝ) (hstd : std ≠ 0) (inst : Block) (cam : Option Block)
    (hi : inst.Regular ε) (hc : (camBlock cam).Regular ε) (x : Vec 3) :
    (reprojection3D ε observed std inst cam x = 0 ↔
      ∃ d : ℝ, 0 < d ∧ x = toWorld inst (camBlock cam) (d • Camera.spherical.bwd observed (fun _ => 0))) := by
  have hb : Camera.spherical.bwd observed (fun _ => 0) = bearing observed := rfl
  rw [hb]
  unfold reprojection3D
  simp only
  rw [smul_zero_iff hstd, sub_eq_zero]
  have hn := bearing_norm observed
  constructor
  · intro h
    generalize hp : worldToCamera ε 1 inst cam x = p at h
    have hpos : 0 < norm p := by
      rcases (Real.sqrt_nonneg (p ⬝ᵥ p)).lt_or_eq with h' | h'
      · exact h'
      · exfalso
        have : norm p = 0 := h'.symm
        rw [this] at h
        simp at h
        rw [← h] at hn
        simp at hn
    refine ⟨norm p, hpos, ?_⟩
    rw [← h, smul_smul, mul_one_div_cancel hpos.ne', one_smul]
    exact (C92_shot ε hε inst cam hi hc x p).1.1 hp
  · rintro ⟨d, hd, hx⟩
    rw [(C92_shot ε hε inst cam hi hc x _).1.2 hx]
    have : norm (d • bearing observed) = d := by
      unfold norm
      rw [smul_dotProduct, dotProduct_smul, hn]
      simp
      exact Real.sqrt_mul_self hd.le
    rw [this, smul_smul, one_div_mul_cancel hd.ne', one_smul]

/-- **Depth.** The residual of a measured depth vanishes exactly if the point is at that distance from the shot, or at that depth along
its axis. -/
theorem C92_depth (ε : ℝ) (hε : 0 ≤ ε) (depth std : ℝ) (hstd : std ≠ 0) (radial : Bool) (inst : Block) (cam : Option Block)
    (hi : inst.Regular ε) (hc : (camBlock cam).Regular ε) (x : Vec 3) :
    relativeDepth ε depth std radial inst cam x = 0 ↔ ∃ y, x = toWorld inst (camBlock cam) y ∧
      (if radial then Real.sqrt (y ⬝ᵥ y) else y 2) = depth := by
  unfold relativeDepth
  simp only
  rw [mul_eq_zero_iff_left (one_div_ne_zero hstd), sub_eq_zero]
  constructor
  · intro h
    exact ⟨_, (C92_shot ε hε inst cam hi hc x _).1.1 rfl, h⟩
  · rintro ⟨y, hx, h⟩
    rw [(C92_shot ε hε inst cam hi hc x y).1.2 hx]
    exact h

/-! ### Relative motions -/

theorem mulVec_zero_iff {n : ℕ} {W : Matrix (Fin n) (Fin n) ℝ} (hW : W.det ≠ 0) (v : Fin n → ℝ) : W *ᵥ v = 0 ↔ v = 0 := by
  constructor
  · intro h
    exact Matrix.eq_zero_of_mulVec_eq_zero hW h
  · rintro rfl
    exact mulVec_zero W

theorem prod_one_iff {A B C : Mat 3} (hB : Bᵀ * B = 1 ∧ B * Bᵀ = 1) (hC : Cᵀ * C = 1 ∧ C * Cᵀ = 1) : A * Bᵀ * C = 1 ↔ B = C * A := by
  constructor
  · intro h
    have h2 : C * (A * Bᵀ) = 1 := mul_eq_one_comm.1 h
    calc B = C * (A * Bᵀ) * B := by rw [h2, Matrix.one_mul]
      _ = C * A * (Bᵀ * B) := by simp only [Matrix.mul_assoc]
      _ = C * A := by rw [hB.1, Matrix.mul_one]
  · intro h
    have h2 : C * (A * Bᵀ) = 1 := by rw [← Matrix.mul_assoc, ← h, hB.2]
    exact mul_eq_one_comm.1 h2

/-- **Relative motion.** The residual of a measured motion between two rig instances vanishes exactly if the measured rotation and
translation, divided by the scale of the second reconstruction, take coordinates in the first one to coordinates in the second one, and
the measured scale is the quotient of the scales if it is used. It cannot be evaluated if a scale is zero. -/
theorem C92_relative_motion (ε : ℝ) (hε : 0 ≤ ε) (Rij tij : Vec 3) (sij : ℝ) (W : Matrix (Fin 7) (Fin 7) ℝ) (hW : W.det ≠ 0)
    (useScale : Bool) (bi bj : Block) (hj : bj.Regular ε) (si sj : ℝ) :
    (relativeMotion ε Rij tij sij W useScale bi bj si sj = none ↔ si = 0 ∨ sj = 0) ∧
    (si ≠ 0 → sj ≠ 0 → (relativeMotion ε Rij tij sij W useScale bi bj si sj = some 0 ↔
      (∀ u, Rot bi.r *ᵥ u + bi.t = Rot bj.r *ᵥ (Rot Rij *ᵥ u + (1 / sj) • tij) + bj.t) ∧ (useScale = true → sij * si = sj))) := by
  unfold relativeMotion
  simp only
  constructor
  · by_cases h : si = 0 ∨ sj = 0
    · rw [if_pos h]; simp [h]
    · rw [if_neg h]; simp [h]
  · intro h1 h2
    rw [if_neg (by push Not; exact ⟨h1, h2⟩), Option.some.injEq, mulVec_zero_iff hW, (C92_rotate ε hε (-bj.r) _ (regular_neg hj)).1,
      Rot_neg]
    obtain ⟨i1, i2⟩ := Rot_inv bi.r
    obtain ⟨j1, j2⟩ := Rot_inv bj.r
    have hR : mult3 Rij (-bi.r) bj.r = 0 ↔ Rot bi.r = Rot bj.r * Rot Rij := by
      rw [(C92_product Rij (-bi.r) bj.r).2.2.2.2, Rot_neg]
      exact prod_one_iff (Rot_inv bi.r) (Rot_inv bj.r)
    have hT : tij - sj • ((Rot bj.r)ᵀ *ᵥ (bi.t - bj.t)) = 0 ↔ bi.t = Rot bj.r *ᵥ ((1 / sj) • tij) + bj.t := by
      rw [sub_eq_zero]
      constructor
      · intro h
        rw [h, smul_smul, one_div_mul_cancel h2, one_smul, mulVec_mulVec, j2, one_mulVec, sub_add_cancel]
      · intro h
        rw [h, add_sub_cancel_right, mulVec_mulVec, j1, one_mulVec, smul_smul, mul_one_div_cancel h2, one_smul]
    have hvec : ∀ (r t : Vec 3) (s : ℝ), (![r 0, r 1, r 2, t 0, t 1, t 2, s] : Fin 7 → ℝ) = 0 ↔ r = 0 ∧ t = 0 ∧ s = 0 := by
      intro r t s
      constructor
      · intro h
        have e := fun i => congrFun h i
        have e0 := e 0; have e1 := e 1; have e2 := e 2; have e3 := e 3; have e4 := e 4; have e5 := e 5; have e6 := e 6
        simp at e0 e1 e2 e3 e4 e5 e6
        refine ⟨?_, ?_, e6⟩
        · ext i; fin_cases i <;> simp [e0, e1, e2]
        · ext i; fin_cases i <;> simp [e3, e4, e5]
      · rintro ⟨rfl, rfl, rfl⟩
        ext i; fin_cases i <;> simp
    rw [hvec, hR, hT]
    constructor
    · rintro ⟨a, b, c⟩
      refine ⟨?_, ?_⟩
      · intro u
        rw [a, b, mulVec_add, mulVec_mulVec, add_assoc]
      · intro hu
        rw [if_pos hu] at c
        field_simp at c
        linarith
    · rintro ⟨a, c⟩
      have ht := a 0
      simp only [mulVec_zero, zero_add] at ht
      refine ⟨?_, ht, ?_⟩
      · apply Matrix.ext_of_mulVec_single
        intro i
        have := a (Pi.single i 1)
        rw [ht, mulVec_add, mulVec_mulVec, add_assoc] at this
        exact add_right_cancel this
      · by_cases hu : useScale = true
        · rw [if_pos hu, ← c hu]
          field_simp
          simp
        · rw [if_neg hu]

/-- **Relative rotation.** The residual vanishes exactly if the measured rotation takes the axes of the first shot to those of the second
one, rig cameras included. -/
theorem C92_relative_rotation (ε : ℝ) (hε : 0 ≤ ε) (Rij : Vec 3) (W : Mat 3) (hW : W.det ≠ 0) (bi : Block) (ci : Option Block)
    (bj : Block) (cj : Option Block) (h1 : bi.Regular ε) (h2 : (camBlock ci).Regular ε) (h3 : bj.Regular ε)
    (h4 : (camBlock cj).Regular ε) :
    relativeRotation Rij W bi ci bj cj = 0 ↔
      Rot bi.r * Rot (camBlock ci).r = Rot bj.r * Rot (camBlock cj).r * Rot Rij := by
  unfold relativeRotation
  rw [mulVec_zero_iff hW, (C92_product _ _ _).2.2.2.2, Rot_neg, prod_one_iff (Rot_inv _) (Rot_inv _),
    (C92_shot ε hε bi ci h1 h2 0 0).2.2, (C92_shot ε hε bj cj h3 h4 0 0).2.2]

/-- **Common position.** The residual vanishes exactly if the two shots are at the same height and at most the margin apart in either
horizontal coordinate. -/
theorem C92_common_position (ε : ℝ) (hε : 0 ≤ ε) (margin std : ℝ) (hstd : std ≠ 0) (bi : Block) (ci : Option Block) (bj : Block)
    (cj : Option Block) (h1 : bi.Regular ε) (h2 : (camBlock ci).Regular ε) (h3 : bj.Regular ε) (h4 : (camBlock cj).Regular ε) :
    commonPosition ε margin std bi ci bj cj = 0 ↔
      |toWorld bi (camBlock ci) 0 0 - toWorld bj (camBlock cj) 0 0| ≤ margin ∧
      |toWorld bi (camBlock ci) 0 1 - toWorld bj (camBlock cj) 0 1| ≤ margin ∧
      toWorld bi (camBlock ci) 0 2 = toWorld bj (camBlock cj) 0 2 := by
  unfold commonPosition
  simp only
  rw [smul_zero_iff hstd, (C92_shot ε hε bi ci h1 h2 0 0).2.1, (C92_shot ε hε bj cj h3 h4 0 0).2.1]
  generalize toWorld bi (camBlock ci) 0 = p
  generalize toWorld bj (camBlock cj) 0 = q
  constructor
  · intro h
    have e0 := congrFun h 0
    have e1 := congrFun h 1
    have e2 := congrFun h 2
    simp at e0 e1 e2
    exact ⟨e0, e1, by linarith⟩
  · rintro ⟨a, b, c⟩
    ext i
    fin_cases i
    · simpa using a
    · simpa using b
    · simp; linarith

/-! ### Absolute orientation -/

/-- The direction `v` of camera axes, in the world. -/
noncomputable def direction (inst : Block) (cam : Option Block) (v : Vec 3) : Vec 3 := (Rot inst.r * Rot (camBlock cam).r) *ᵥ v

theorem rotate_direction (ε : ℝ) (hε : 0 ≤ ε) (inst : Block) (cam : Option Block) (hi : inst.Regular ε) (hc : (camBlock cam).Regular ε)
    (hs : Regular ε (shotRotation inst cam)) (v : Vec 3) : rotatePoint ε (shotRotation inst cam) v = direction inst cam v := by
  unfold direction
  rw [(C92_rotate ε hε _ v hs).1, (C92_shot ε hε inst cam hi hc 0 0).2.2]

theorem orth_dot {A : Mat 3} (h : Aᵀ * A = 1) (v w : Vec 3) : (A *ᵥ v) ⬝ᵥ (A *ᵥ w) = v ⬝ᵥ w := by
  rw [dotProduct_mulVec, vecMul_mulVec, h, vecMul_one]

theorem direction_dot (inst : Block) (cam : Option Block) (v w : Vec 3) : direction inst cam v ⬝ᵥ direction inst cam w = v ⬝ᵥ w := by
  apply orth_dot
  rw [transpose_mul, Matrix.mul_assoc, ← Matrix.mul_assoc _ (Rot inst.r), (Rot_inv inst.r).1, Matrix.one_mul, (Rot_inv _).1]

/-- **Up vector.** The residual of a measured acceleration vanishes exactly if the measured direction points straight up in the world;
a vector of almost no length is refused. -/
theorem C92_up_vector (ε : ℝ) (hε : 0 ≤ ε) (a : Vec 3) (std : ℝ) (hstd : std ≠ 0) (inst : Block) (cam : Option Block)
    (hi : inst.Regular ε) (hc : (camBlock cam).Regular ε) (hs : Regular ε (shotRotation inst cam)) :
    (upVector ε a std inst cam = none ↔ Real.sqrt (a ⬝ᵥ a) < 1 / 10000000000) ∧
    (1 / 10000000000 ≤ Real.sqrt (a ⬝ᵥ a) →
      (upVector ε a std inst cam = some 0 ↔ direction inst cam a = ![0, 0, Real.sqrt (a ⬝ᵥ a)])) := by
  unfold upVector
  have hn : norm a = Real.sqrt (a ⬝ᵥ a) := rfl
  rw [hn]
  constructor
  · split <;> simp_all
  · intro h
    have hpos : 0 < Real.sqrt (a ⬝ᵥ a) := lt_of_lt_of_le (by norm_num) h
    rw [if_neg (not_lt.2 h), Option.some.injEq, smul_zero_iff hstd, sub_eq_zero, rotate_direction ε hε inst cam hi hc hs]
    have e : direction inst cam ((1 / Real.sqrt (a ⬝ᵥ a)) • a) = (1 / Real.sqrt (a ⬝ᵥ a)) • direction inst cam a := by
      unfold direction; rw [mulVec_smul]
    rw [e]
    generalize Real.sqrt (a ⬝ᵥ a) = n at hpos
    constructor
    · intro h
      have : direction inst cam a = n • ((1 / n) • direction inst cam a) := by rw [smul_smul, mul_one_div_cancel hpos.ne', one_smul]
      rw [this, h]
      ext i; fin_cases i <;> simp
    · intro h
      rw [h]
      ext i; fin_cases i <;> simp
      field_simp

/-- The difference of angles vanishes exactly for the same direction, as long as the second angle is at most one turn. -/
theorem angleDiff_zero (a b : ℝ) (ha : |a| ≤ Real.pi) (hb : |b| ≤ 2 * Real.pi) :
    angleDiff a b = 0 ↔ Real.cos a = Real.cos b ∧ Real.sin a = Real.sin b := by
  have hpi := Real.pi_pos
  rw [abs_le] at ha hb
  constructor
  · intro h
    have : a - b = 0 ∨ a - b = 2 * Real.pi ∨ a - b = -(2 * Real.pi) := by
      unfold angleDiff at h
      simp only at h
      split at h
      · right; left; linarith
      · split at h
        · right; right; linarith
        · left; exact h
    rcases this with e | e | e
    · have : a = b := by linarith
      rw [this]; exact ⟨rfl, rfl⟩
    · have : a = b + 2 * Real.pi := by linarith
      rw [this, Real.cos_add_two_pi, Real.sin_add_two_pi]; exact ⟨rfl, rfl⟩
    · have : a = b - 2 * Real.pi := by linarith
      rw [this, Real.cos_sub_two_pi, Real.sin_sub_two_pi]; exact ⟨rfl, rfl⟩
  · rintro ⟨hc, hs⟩
    have h1 : Real.cos (a - b) = 1 := by
      rw [Real.cos_sub, hc, hs]
      nlinarith [Real.sin_sq_add_cos_sq b]
    obtain ⟨n, hn⟩ := (Real.cos_eq_one_iff _).1 h1
    have hlo : (-2 : ℝ) < n := by
      by_contra h
      push Not at h
      nlinarith
    have hhi : (n : ℝ) < 2 := by
      by_contra h
      push Not at h
      nlinarith
    have hlo' : (-2 : ℤ) < n := by exact_mod_cast hlo
    have hhi' : n < 2 := by exact_mod_cast hhi
    unfold angleDiff
    simp only
    rw [← hn]
    obtain rfl | rfl | rfl : n = -1 ∨ n = 0 ∨ n = 1 := by omega
    · rw [if_neg (by push_cast; linarith), if_pos (by push_cast; linarith)]; push_cast; ring
    · rw [if_neg (by push_cast; linarith), if_neg (by push_cast; linarith)]; push_cast; ring
    · rw [if_pos (by push_cast; linarith)]; push_cast; ring

theorem atan2_spec (y x : ℝ) (h : 0 < x ^ 2 + y ^ 2) :
    Real.cos (Camera.atan2 y x) = x / Real.sqrt (x ^ 2 + y ^ 2) ∧ Real.sin (Camera.atan2 y x) = y / Real.sqrt (x ^ 2 + y ^ 2) ∧
    |Camera.atan2 y x| ≤ Real.pi := by
  have hnorm : ‖(⟨x, y⟩ : ℂ)‖ = Real.sqrt (x ^ 2 + y ^ 2) := by
    rw [Complex.norm_def, Complex.normSq_mk]
    congr 1; ring
  have hne : (⟨x, y⟩ : ℂ) ≠ 0 := by
    intro e
    have h1 := congrArg Complex.re e
    have h2 := congrArg Complex.im e
    simp at h1 h2
    rw [h1, h2] at h
    norm_num at h
  unfold Camera.atan2
  refine ⟨?_, ?_, Complex.abs_arg_le_pi _⟩
  · rw [Complex.cos_arg hne, hnorm]
  · rw [Complex.sin_arg, hnorm]

/-- **Pan.** Unless the shot looks straight up or down, the residual of a compass angle of at most one turn vanishes exactly if the shot
looks towards that angle, clockwise from north. Straight up or down every angle is accepted. -/
theorem C92_pan (ε : ℝ) (hε : 0 ≤ ε) (angle std : ℝ) (hstd : std ≠ 0) (ha : |angle| ≤ 2 * Real.pi) (inst : Block) (cam : Option Block)
    (hi : inst.Regular ε) (hc : (camBlock cam).Regular ε) (hs : Regular ε (shotRotation inst cam)) (f : Vec 3)
    (hf : f = direction inst cam ![0, 0, 1]) :
    ((|f 0| < 1 / 100000000 ∧ |f 1| < 1 / 100000000) → pan ε angle std inst cam = 0) ∧
    (¬ (|f 0| < 1 / 100000000 ∧ |f 1| < 1 / 100000000) → (pan ε angle std inst cam = 0 ↔
      f 0 = Real.sqrt (f 1 ^ 2 + f 0 ^ 2) * Real.sin angle ∧ f 1 = Real.sqrt (f 1 ^ 2 + f 0 ^ 2) * Real.cos angle)) := by
  unfold pan
  simp only
  rw [rotate_direction ε hε inst cam hi hc hs, ← hf]
  constructor
  · intro h; rw [if_pos h]
  · intro h
    have hpos : 0 < f 1 ^ 2 + f 0 ^ 2 := by
      by_contra hn
      have h0 : f 0 = 0 := by nlinarith [sq_nonneg (f 0), sq_nonneg (f 1)]
      have h1 : f 1 = 0 := by nlinarith [sq_nonneg (f 0), sq_nonneg (f 1)]
      apply h
      rw [h0, h1]
      norm_num
    obtain ⟨k1, k2, k3⟩ := atan2_spec (f 0) (f 1) hpos
    rw [if_neg h, mul_eq_zero_iff_left (one_div_ne_zero hstd), angleDiff_zero _ _ k3 ha, k1, k2]
    have hl := Real.sqrt_pos.2 hpos
    rw [div_eq_iff hl.ne', div_eq_iff hl.ne', mul_comm, mul_comm (Real.sin angle), and_comm]

/-- **Tilt.** The residual of a tilt of at most one turn vanishes exactly if the shot looks down by that angle. -/
theorem C92_tilt (ε : ℝ) (hε : 0 ≤ ε) (angle std : ℝ) (hstd : std ≠ 0) (ha : |angle| ≤ 2 * Real.pi) (inst : Block) (cam : Option Block)
    (hi : inst.Regular ε) (hc : (camBlock cam).Regular ε) (hs : Regular ε (shotRotation inst cam)) (f : Vec 3)
    (hf : f = direction inst cam ![0, 0, 1]) :
    tilt ε angle std inst cam = 0 ↔ f 2 = -Real.sin angle ∧ Real.sqrt (f 0 * f 0 + f 1 * f 1) = Real.cos angle := by
  have hunit : f 0 * f 0 + f 1 * f 1 + f 2 * f 2 = 1 := by
    rw [← dot3, hf, direction_dot, dot3]; simp
  unfold tilt
  simp only
  rw [rotate_direction ε hε inst cam hi hc hs, ← hf]
  have hl2 : Real.sqrt (f 0 * f 0 + f 1 * f 1) ^ 2 = f 0 * f 0 + f 1 * f 1 :=
    Real.sq_sqrt (by nlinarith [mul_self_nonneg (f 0), mul_self_nonneg (f 1)])
  generalize Real.sqrt (f 0 * f 0 + f 1 * f 1) = l at hl2
  have h1 : l ^ 2 + f 2 ^ 2 = 1 := by linarith [hl2]
  obtain ⟨k1, k2, k3⟩ := atan2_spec (f 2) l (by rw [h1]; norm_num)
  rw [h1, Real.sqrt_one, div_one] at k1 k2
  rw [mul_eq_zero_iff_left (one_div_ne_zero hstd), angleDiff_zero _ _ (by rw [abs_neg]; exact k3) ha, Real.cos_neg, Real.sin_neg, k1, k2]
  constructor
  · rintro ⟨a, b⟩; exact ⟨by linarith, a⟩
  · rintro ⟨a, b⟩; exact ⟨b, by linarith⟩

/-- The right hand direction of a level camera that looks towards `f`. -/
noncomputable def levelRight (f : Vec 3) : Vec 3 := ![f 1 / Real.sqrt (f 1 * f 1 + f 0 * f 0), -f 0 / Real.sqrt (f 1 * f 1 + f 0 * f 0), 0]

theorem frame_expand (f a x : Vec 3) (hff : f ⬝ᵥ f = 1) (haa : a ⬝ᵥ a = 1) (hfa : f ⬝ᵥ a = 0) (hxf : x ⬝ᵥ f = 0) :
    x = (x ⬝ᵥ a) • a + (x ⬝ᵥ cross f a) • cross f a ∧ x ⬝ᵥ x = (x ⬝ᵥ a) ^ 2 + (x ⬝ᵥ cross f a) ^ 2 := by
  have hcc : cross f a ⬝ᵥ cross f a = 1 := by
    rw [dot3] at hff haa hfa ⊢
    simp [cross]
    linear_combination (a 0 * a 0 + a 1 * a 1 + a 2 * a 2) * hff + haa - (f 0 * a 0 + f 1 * a 1 + f 2 * a 2) * hfa
  have hca : cross f a ⬝ᵥ a = 0 := by rw [dot3]; simp [cross]; ring
  have hcf : cross f a ⬝ᵥ f = 0 := by rw [dot3]; simp [cross]; ring
  set c := cross f a with hc
  have hM : (Matrix.of ![a, c, f]) * (Matrix.of ![a, c, f])ᵀ = (1 : Mat 3) := by
    rw [dot3] at hff haa hfa hcc hca hcf
    ext i j
    fin_cases i <;> fin_cases j <;> simp [Matrix.mul_apply, Fin.sum_univ_three] <;> linarith
  have hM2 := mul_eq_one_comm.1 hM
  have hx : x = (Matrix.of ![a, c, f])ᵀ *ᵥ ((Matrix.of ![a, c, f]) *ᵥ x) := by
    rw [mulVec_mulVec, hM2, one_mulVec]
  have hx2 : x = (x ⬝ᵥ a) • a + (x ⬝ᵥ c) • c := by
    rw [dot3] at hxf
    have h3 : (Matrix.of ![a, c, f]) *ᵥ x = ![x ⬝ᵥ a, x ⬝ᵥ c, 0] := by
      refine funext (fun i => ?_)
      rw [mv]
      match i with
      | 0 => simp [dot3]; ring
      | 1 => simp [dot3]; ring
      | 2 => simp; linarith
    rw [h3] at hx
    refine hx.trans (funext (fun i => ?_))
    rw [mv]
    simp only [Pi.add_apply, Pi.smul_apply, smul_eq_mul]
    match i with
    | 0 => simp; ring
    | 1 => simp; ring
    | 2 => simp; ring
  refine ⟨hx2, ?_⟩
  have : x ⬝ᵥ x = ((x ⬝ᵥ a) • a + (x ⬝ᵥ c) • c) ⬝ᵥ x := by rw [← hx2]
  rw [this, add_dotProduct, smul_dotProduct, smul_dotProduct, dotProduct_comm a x, dotProduct_comm c x, smul_eq_mul, smul_eq_mul]
  ring

/-- **Roll.** A shot not looking straight up or down, turned by `ρ` about its axis from the level position, has residual 0 if `ρ` is
within about 0.0045 of -π/2, whatever was measured, and otherwise the difference between the measured angle and `arcsin (sin ρ)`: angles
are folded to [-π/2, π/2], so an upside down camera counts as level. Such a `ρ` always exists. -/
theorem C92_roll (ε : ℝ) (hε : 0 ≤ ε) (angle std : ℝ) (inst : Block) (cam : Option Block)
    (hi : inst.Regular ε) (hc : (camBlock cam).Regular ε) (hs : Regular ε (shotRotation inst cam)) (f x : Vec 3)
    (hf : f = direction inst cam ![0, 0, 1]) (hx : x = direction inst cam ![1, 0, 0])
    (hl : 1 / 100000 ≤ Real.sqrt (f 1 * f 1 + f 0 * f 0)) :
    (∃ ρ : ℝ, x = Real.cos ρ • levelRight f - Real.sin ρ • cross f (levelRight f)) ∧
    ∀ ρ : ℝ, x = Real.cos ρ • levelRight f - Real.sin ρ • cross f (levelRight f) →
      roll ε angle std inst cam = if Real.sin ρ ≤ -(1 - 1 / 100000) then 0 else (1 / std) * angleDiff (Real.arcsin (Real.sin ρ)) angle := by
  have hff : f ⬝ᵥ f = 1 := by rw [hf, direction_dot, dot3]; simp
  have hxx : x ⬝ᵥ x = 1 := by rw [hx, direction_dot, dot3]; simp
  have hxf : x ⬝ᵥ f = 0 := by rw [hf, hx, direction_dot, dot3]; simp
  have hdef : levelRight f = ![f 1 / Real.sqrt (f 1 * f 1 + f 0 * f 0), -f 0 / Real.sqrt (f 1 * f 1 + f 0 * f 0), 0] := rfl
  have hroll : roll ε angle std inst cam = if f ⬝ᵥ cross x (levelRight f) ≤ -(1 - 1 / 100000) then 0
      else (1 / std) * angleDiff (Real.arcsin (f ⬝ᵥ cross x (levelRight f))) angle := by
    unfold roll
    simp only
    rw [rotate_direction ε hε inst cam hi hc hs, rotate_direction ε hε inst cam hi hc hs, ← hf, ← hx, if_neg (not_lt.2 hl), ← hdef]
  have hpos : 0 < Real.sqrt (f 1 * f 1 + f 0 * f 0) := lt_of_lt_of_le (by norm_num) hl
  have hsq : Real.sqrt (f 1 * f 1 + f 0 * f 0) ^ 2 = f 1 * f 1 + f 0 * f 0 :=
    Real.sq_sqrt (by nlinarith [mul_self_nonneg (f 0), mul_self_nonneg (f 1)])
  have a0 : levelRight f 0 = f 1 / Real.sqrt (f 1 * f 1 + f 0 * f 0) := rfl
  have a1 : levelRight f 1 = -f 0 / Real.sqrt (f 1 * f 1 + f 0 * f 0) := rfl
  have a2 : levelRight f 2 = 0 := rfl
  have hfa : f ⬝ᵥ levelRight f = 0 := by
    rw [dot3, a0, a1, a2]; field_simp; ring
  have haa : levelRight f ⬝ᵥ levelRight f = 1 := by
    rw [dot3, a0, a1, a2]
    generalize Real.sqrt (f 1 * f 1 + f 0 * f 0) = l at hpos hsq
    have : f 1 / l * (f 1 / l) + -f 0 / l * (-f 0 / l) + 0 * 0 = (f 1 * f 1 + f 0 * f 0) / l ^ 2 := by
      field_simp; ring
    rw [this, ← hsq]
    field_simp
  rw [hroll]
  generalize levelRight f = a at hfa haa
  obtain ⟨e1, e2⟩ := frame_expand f a x hff haa hfa hxf
  refine ⟨?_, ?_⟩
  · have huv : (x ⬝ᵥ a) ^ 2 + (x ⬝ᵥ cross f a) ^ 2 = 1 := by rw [← e2, hxx]
    obtain ⟨k1, k2, -⟩ := atan2_spec (-(x ⬝ᵥ cross f a)) (x ⬝ᵥ a) (by rw [neg_sq, huv]; norm_num)
    rw [neg_sq, huv, Real.sqrt_one, div_one] at k1 k2
    refine ⟨Camera.atan2 (-(x ⬝ᵥ cross f a)) (x ⬝ᵥ a), ?_⟩
    rw [k1, k2, neg_smul, sub_neg_eq_add]
    exact e1
  · intro ρ hρ
    have : f ⬝ᵥ cross x a = Real.sin ρ := by
      rw [dot3] at hff hfa haa
      have h0 := congrFun hρ 0
      have h1 := congrFun hρ 1
      have h2 := congrFun hρ 2
      simp only [Pi.sub_apply, Pi.smul_apply, smul_eq_mul] at h0 h1 h2
      rw [dot3]
      simp [cross] at h0 h1 h2 ⊢
      rw [h0, h1, h2]
      linear_combination (Real.sin ρ) * (a 0 * a 0 + a 1 * a 1 + a 2 * a 2) * hff + (Real.sin ρ) * haa
        - (Real.sin ρ) * (f 0 * a 0 + f 1 * a 1 + f 2 * a 2) * hfa
    rw [this]


/-- **Roll, folded.** For a shot turned by an angle of at most π/2 (but not almost -π/2) from the level position, the residual of a
measured angle of at most one turn vanishes exactly if the measured angle is that angle. A shot turned by `π - ρ` has the residual of one
turned by `ρ`, so an upside down camera passes for a level one. -/
theorem C92_roll_folded (ε : ℝ) (hε : 0 ≤ ε) (angle std : ℝ) (hstd : std ≠ 0) (ha : |angle| ≤ 2 * Real.pi) (inst : Block)
    (cam : Option Block) (hi : inst.Regular ε) (hc : (camBlock cam).Regular ε) (hs : Regular ε (shotRotation inst cam)) (f x : Vec 3)
    (hf : f = direction inst cam ![0, 0, 1]) (hx : x = direction inst cam ![1, 0, 0])
    (hl : 1 / 100000 ≤ Real.sqrt (f 1 * f 1 + f 0 * f 0)) (ρ : ℝ)
    (h1 : -(Real.pi / 2) ≤ ρ) (h2 : ρ ≤ Real.pi / 2) (h3 : -(1 - 1 / 100000) < Real.sin ρ)
    (hρ : x = Real.cos ρ • levelRight f - Real.sin ρ • cross f (levelRight f) ∨
      x = Real.cos (Real.pi - ρ) • levelRight f - Real.sin (Real.pi - ρ) • cross f (levelRight f)) :
    roll ε angle std inst cam = 0 ↔ Real.cos angle = Real.cos ρ ∧ Real.sin angle = Real.sin ρ := by
  have key : roll ε angle std inst cam = (1 / std) * angleDiff ρ angle := by
    have hr := (C92_roll ε hε angle std inst cam hi hc hs f x hf hx hl).2
    rcases hρ with h | h
    · rw [hr ρ h, if_neg (not_le.2 h3), Real.arcsin_sin h1 h2]
    · rw [hr _ h, Real.sin_pi_sub, if_neg (not_le.2 h3), Real.arcsin_sin h1 h2]
  have hpi := Real.pi_pos
  rw [key, mul_eq_zero_iff_left (one_div_ne_zero hstd), angleDiff_zero _ _ (by rw [abs_le]; constructor <;> linarith) ha]
  constructor <;> rintro ⟨a, b⟩ <;> exact ⟨a.symm, b.symm⟩

/-! ### Motion prior, gauge, regularisers -/

/-- **Linear motion.** With `α` the share of the time between the first and the last shot: the position residual vanishes exactly if the
distance covered has that share, or, if the shots do not move, if the middle position divides the segment; the rotation residual vanishes
exactly if the middle shot is turned by that share of the rotation. -/
theorem C92_linear_motion (ε : ℝ) (hε : 0 ≤ ε) (α stdP stdR : ℝ) (hP : stdP ≠ 0) (hR : stdR ≠ 0) (b0 : Block) (c0 : Option Block)
    (b1 : Block) (c1 : Option Block) (b2 : Block) (c2 : Option Block) (h0 : b0.Regular ε) (h0' : (camBlock c0).Regular ε)
    (h1 : b1.Regular ε) (h1' : (camBlock c1).Regular ε) (h2 : b2.Regular ε) (h2' : (camBlock c2).Regular ε) (p0 p1 p2 : Vec 3)
    (hp0 : p0 = toWorld b0 (camBlock c0) 0) (hp1 : p1 = toWorld b1 (camBlock c1) 0) (hp2 : p2 = toWorld b2 (camBlock c2) 0) :
    (1 / 1000000000000000 < Real.sqrt ((p2 - p0) ⬝ᵥ (p2 - p0)) →
      ((linearMotion ε α stdP stdR b0 c0 b1 c1 b2 c2).1 = 0 ↔
        Real.sqrt ((p1 - p0) ⬝ᵥ (p1 - p0)) = α * Real.sqrt ((p2 - p0) ⬝ᵥ (p2 - p0)))) ∧
    (Real.sqrt ((p2 - p0) ⬝ᵥ (p2 - p0)) ≤ 1 / 1000000000000000 →
      ((linearMotion ε α stdP stdR b0 c0 b1 c1 b2 c2).1 = 0 ↔ p1 - p0 = α • (p2 - p0))) ∧
    ∃ v : Vec 3, Real.sqrt (v ⬝ᵥ v) ≤ Real.pi ∧
      Rot b2.r * Rot (camBlock c2).r = Rot v * (Rot b0.r * Rot (camBlock c0).r) ∧
      ((linearMotion ε α stdP stdR b0 c0 b1 c1 b2 c2).2 = 0 ↔
        Rot b1.r * Rot (camBlock c1).r = Rot (α • v) * (Rot b0.r * Rot (camBlock c0).r)) := by
  have q0 := (C92_shot ε hε b0 c0 h0 h0' 0 0).2
  have q1 := (C92_shot ε hε b1 c1 h1 h1' 0 0).2
  have q2 := (C92_shot ε hε b2 c2 h2 h2' 0 0).2
  rw [← hp0] at q0
  rw [← hp1] at q1
  rw [← hp2] at q2
  refine ⟨?_, ?_, mult (shotRotation b2 c2) (-shotRotation b0 c0), (C92_product _ _ 0).2.1, ?_, ?_⟩
  · intro h
    have hpos : 0 < Real.sqrt ((p2 - p0) ⬝ᵥ (p2 - p0)) := lt_trans (by norm_num) h
    unfold linearMotion norm
    simp only [q0.1, q1.1, q2.1]
    rw [if_pos h]
    generalize Real.sqrt ((p2 - p0) ⬝ᵥ (p2 - p0)) = m at hpos
    generalize Real.sqrt ((p1 - p0) ⬝ᵥ (p1 - p0)) = n
    constructor
    · intro e
      have e0 := congrFun e 0
      simp only [Pi.zero_apply] at e0
      rw [mul_eq_zero_iff_left (one_div_ne_zero hP), sub_eq_zero, eq_div_iff hpos.ne'] at e0
      exact e0.symm
    · intro e
      ext i
      simp only [Pi.zero_apply]
      rw [mul_eq_zero_iff_left (one_div_ne_zero hP), sub_eq_zero, eq_div_iff hpos.ne', e]
  · intro h
    unfold linearMotion norm
    simp only [q0.1, q1.1, q2.1]
    rw [if_neg (not_lt.2 h), smul_zero_iff hP, sub_eq_zero]
    exact ⟨Eq.symm, Eq.symm⟩
  · rw [(C92_product _ _ 0).1, Rot_neg, q0.2, q2.2, Matrix.mul_assoc, ← q0.2, (Rot_inv _).1, Matrix.mul_one]
  · unfold linearMotion
    simp only
    rw [smul_zero_iff hR, (C92_product _ _ 0).2.2.1, (C92_product (shotRotation b0 c0) _ 0).1, Rot_neg, ← q0.2, ← q1.2]
    generalize Rot (α • mult (shotRotation b2 c2) (-shotRotation b0 c0)) = V
    have i1 := Rot_inv (shotRotation b1 c1)
    have i0 := Rot_inv (shotRotation b0 c0)
    generalize Rot (shotRotation b1 c1) = B at i1
    generalize Rot (shotRotation b0 c0) = A at i0
    constructor
    · intro e
      calc B = (V * (A * Bᵀ)) * B := by rw [e, Matrix.one_mul]
        _ = V * (A * (Bᵀ * B)) := by simp only [Matrix.mul_assoc]
        _ = V * A := by rw [i1.1, Matrix.mul_one]
    · intro e
      rw [← Matrix.mul_assoc, ← e, i1.2]

/-- The position residual does not see the direction of the motion: putting the middle shot behind the first one at the same distance
leaves it unchanged. -/
theorem C92_linear_backwards (ε : ℝ) (hε : 0 ≤ ε) (α stdP stdR : ℝ) (r0 r1 r2 p0 p1 p2 : Vec 3)
    (h : 1 / 1000000000000000 < Real.sqrt ((p2 - p0) ⬝ᵥ (p2 - p0))) :
    (linearMotion ε α stdP stdR ⟨r0, p0⟩ none ⟨r1, p0 - (p1 - p0)⟩ none ⟨r2, p2⟩ none).1 =
      (linearMotion ε α stdP stdR ⟨r0, p0⟩ none ⟨r1, p1⟩ none ⟨r2, p2⟩ none).1 := by
  have e : ∀ (r p : Vec 3), (linearMotion ε α stdP stdR ⟨r0, p0⟩ none ⟨r, p⟩ none ⟨r2, p2⟩ none).1 =
      fun _ => (1 / stdP) * (α - Real.sqrt ((p - p0) ⬝ᵥ (p - p0)) / Real.sqrt ((p2 - p0) ⬝ᵥ (p2 - p0))) := fun r p => if_pos h
  have : p0 - (p1 - p0) - p0 = -(p1 - p0) := by abel
  rw [e, e, this, neg_dotProduct_neg]

/-- **Gauge.** The residual that fixes the scale vanishes exactly if the squared distance plus 1e-20 is the square of the distance at the
start (at least 1e-20); at the start it is therefore slightly positive. -/
theorem C92_gauge (prior : ℝ) (b1 b2 : Block) :
    (gauge prior b1 b2 = 0 ↔ (b1.t - b2.t) ⬝ᵥ (b1.t - b2.t) + 1 / 10 ^ 20 = (max prior (1 / 10 ^ 20)) ^ 2) ∧
    (prior = Real.sqrt ((b1.t - b2.t) ⬝ᵥ (b1.t - b2.t)) → 0 < gauge prior b1 b2) := by
  have hn := dot_nonneg (b1.t - b2.t)
  unfold gauge
  generalize (b1.t - b2.t) ⬝ᵥ (b1.t - b2.t) = d at hn
  have hd : 0 < d + 1 / 10 ^ 20 := by positivity
  have hm : 0 < max prior (1 / 10 ^ 20) := lt_of_lt_of_le (by norm_num) (le_max_right _ _)
  have hs := Real.sqrt_pos.2 hd
  constructor
  · constructor
    · intro h
      have h1 := Real.eq_one_of_pos_of_log_eq_zero (div_pos hs hm) h
      rw [div_eq_one_iff_eq hm.ne'] at h1
      rw [← h1, Real.sq_sqrt hd.le]
    · intro h
      rw [h, Real.sqrt_sq hm.le, div_self hm.ne', Real.log_one]
  · intro h
    apply Real.log_pos
    rw [one_lt_div hm, max_lt_iff]
    constructor
    · rw [h]
      exact Real.sqrt_lt_sqrt hn (by norm_num)
    · rw [show (1 : ℝ) / 10 ^ 20 = Real.sqrt ((1 / 10 ^ 20) ^ 2) by rw [Real.sqrt_sq (by norm_num)]]
      apply Real.sqrt_lt_sqrt (by norm_num)
      rw [Real.sqrt_sq (by norm_num)]
      nlinarith

/-- **Standard deviations.** The regulariser of an adjusted standard deviation vanishes exactly if the variance is 1 / 2π (less 1e-20): it
pulls standard deviations to about 0.4, from below and from above. -/
theorem C92_std (std : ℝ) :
    (stdConstraint std = 0 ↔ std ^ 2 = 1 / (2 * Real.pi) - 1 / 10 ^ 20) ∧
    (0 < stdConstraint std ↔ std ^ 2 < 1 / (2 * Real.pi) - 1 / 10 ^ 20) := by
  have hpi := Real.pi_pos
  have hv : 0 < std * std + 1 / 10 ^ 20 := by nlinarith [mul_self_nonneg std]
  have hx : 0 < 2 * Real.pi * (std * std + 1 / 10 ^ 20) := by positivity
  have hs := Real.sqrt_pos.2 hx
  have key : ∀ u : ℝ, (u + 1 / 10 ^ 20) * (2 * Real.pi) = 2 * Real.pi * (u + 1 / 10 ^ 20) := fun u => by ring
  unfold stdConstraint
  rw [one_div, Real.log_inv, Real.log_sqrt hx.le]
  constructor
  · rw [eq_sub_iff_add_eq, eq_div_iff (by positivity), key, sq]
    constructor
    · intro h
      exact Real.eq_one_of_pos_of_log_eq_zero hx (by linarith)
    · intro h
      rw [h, Real.log_one]; norm_num
  · rw [lt_sub_iff_add_lt, lt_div_iff₀ (by positivity), key, sq]
    constructor
    · intro h
      by_contra hc
      push Not at hc
      have := Real.log_nonneg hc
      linarith
    · intro h
      have := Real.log_neg hx h
      linarith

/-- **Barrier.** Inside of the bounds the barrier of a parameter is largest in the middle. For the bounds 0 and 1 of the transition of a
dual camera it is below -2 there, so the barrier never vanishes; its square is smallest in the middle. -/
theorem C92_barrier (lower upper v : ℝ) (h1 : lower ≤ v) (h2 : v ≤ upper) :
    barrier lower upper v ≤ barrier lower upper ((lower + upper) / 2) ∧
    (lower = 0 → upper = 1 → barrier lower upper v < -2 ∧ (barrier lower upper ((lower + upper) / 2)) ^ 2 ≤ (barrier lower upper v) ^ 2) := by
  have a1 : 0 < v - lower + 1 / 10 ^ 10 := by have : (0 : ℝ) < 1 / 10 ^ 10 := by norm_num
                                              linarith
  have a2 : 0 < upper - v + 1 / 10 ^ 10 := by have : (0 : ℝ) < 1 / 10 ^ 10 := by norm_num
                                              linarith
  have a3 : 0 < (upper - lower) / 2 + 1 / 10 ^ 10 := by linarith
  have e1 : barrier lower upper v = Real.log ((v - lower + 1 / 10 ^ 10) * (upper - v + 1 / 10 ^ 10)) + 2 * Real.log ((upper - lower) * (1 / 2)) := by
    unfold barrier
    rw [Real.log_mul a1.ne' a2.ne']
  have e2 : barrier lower upper ((lower + upper) / 2) =
      Real.log (((upper - lower) / 2 + 1 / 10 ^ 10) ^ 2) + 2 * Real.log ((upper - lower) * (1 / 2)) := by
    unfold barrier
    rw [show (lower + upper) / 2 - lower + 1 / 10 ^ 10 = (upper - lower) / 2 + 1 / 10 ^ 10 by ring,
      show upper - (lower + upper) / 2 + 1 / 10 ^ 10 = (upper - lower) / 2 + 1 / 10 ^ 10 by ring, Real.log_pow]
    push_cast; ring
  have hle : barrier lower upper v ≤ barrier lower upper ((lower + upper) / 2) := by
    rw [e1, e2]
    have := Real.log_le_log (mul_pos a1 a2)
      (show (v - lower + 1 / 10 ^ 10) * (upper - v + 1 / 10 ^ 10) ≤ ((upper - lower) / 2 + 1 / 10 ^ 10) ^ 2 by
        nlinarith [sq_nonneg (v - lower - (upper - v))])
    linarith
  refine ⟨hle, ?_⟩
  rintro rfl rfl
  have hm : barrier 0 1 ((0 + 1) / 2) < -2 := by
    rw [e2, Real.log_pow]
    have hl : Real.log ((1 - 0) * (1 / 2)) < -(1 / 2) - 1 / 10 := by
      rw [show ((1 : ℝ) - 0) * (1 / 2) = 2⁻¹ by norm_num, Real.log_inv]
      linarith [Real.log_two_gt_d9]
    have hl2 : Real.log ((1 - 0) / 2 + 1 / 10 ^ 10) < -(1 / 2) := by
      have : Real.log ((1 - 0) / 2 + 1 / 10 ^ 10) ≤ Real.log (2⁻¹) + 1 / 10 := by
        rw [show ((1 : ℝ) - 0) / 2 + 1 / 10 ^ 10 = 2⁻¹ * (1 + 2 / 10 ^ 10) by norm_num, Real.log_mul (by norm_num) (by norm_num)]
        have := Real.log_le_sub_one_of_pos (show (0 : ℝ) < 1 + 2 / 10 ^ 10 by norm_num)
        have h3 : (1 : ℝ) + 2 / 10 ^ 10 - 1 ≤ 1 / 10 := by norm_num
        linarith
      rw [Real.log_inv] at this
      linarith [Real.log_two_gt_d9]
    push_cast
    linarith
  have := lt_of_le_of_lt hle hm
  exact ⟨this, by nlinarith⟩

/-! ### Parameter blocks -/

section Blocks
variable {C : Type} [DecidableEq C]

/-- A residual with two shots reads the rig camera of either shot, and no rig camera for one that is fixed at the identity. -/
theorem C92_blocks2 (useful : C → Bool) (ci cj : C) :
    let b := blocks2 useful ci cj
    readCamera b.1 b.2.1 = (if useful ci then some ci else none) ∧
    readCamera b.1 b.2.2 = (if useful cj then some cj else none) ∧ b.1.Nodup := by
  unfold blocks2
  by_cases h1 : useful ci <;> by_cases h2 : useful cj <;> by_cases h3 : cj = ci <;> simp_all [readCamera]
  all_goals (first | (intro h; exact h3 h.symm) | skip)

/-- A residual with three shots reads the right rig camera of the first two shots. It reads the right one of the last shot unless this one
shares a rig camera, which is not fixed at the identity, with the middle shot only; then it reads what it reads for the first shot. -/
theorem C92_blocks3 (useful : C → Bool) (c0 c1 c2 : C) :
    let b := blocks3 useful c0 c1 c2
    readCamera b.1 b.2.1 = (if useful c0 then some c0 else none) ∧
    readCamera b.1 b.2.2.1 = (if useful c1 then some c1 else none) ∧
    (¬ (useful c2 ∧ c2 = c1 ∧ c2 ≠ c0) → readCamera b.1 b.2.2.2 = if useful c2 then some c2 else none) ∧
    (useful c2 → c2 = c1 → c2 ≠ c0 → readCamera b.1 b.2.2.2 = (if useful c0 then some c0 else none) ∧
      readCamera b.1 b.2.2.2 ≠ some c2) := by
  unfold blocks3 blocks2
  by_cases h1 : useful c0 <;> by_cases h2 : useful c1 <;> by_cases h3 : useful c2 <;> by_cases h4 : c1 = c0 <;>
    by_cases h5 : c2 = c0 <;> by_cases h6 : c2 = c1 <;> simp_all [readCamera]
  all_goals (first | (intro h; exact h4 h.symm) | skip)

end Blocks

/-! ### Cost -/

theorem atan2_pos (a s : ℝ) (ha : 0 < a) (hs : 0 ≤ s) :
    s / (1 + s / a) ≤ a * Camera.atan2 s a ∧ a * Camera.atan2 s a ≤ s := by
  obtain ⟨k1, k2, -⟩ := atan2_spec s a (by positivity)
  have hn : 0 < Real.sqrt (a ^ 2 + s ^ 2) := Real.sqrt_pos.2 (by positivity)
  have hsq := Real.sq_sqrt (show 0 ≤ a ^ 2 + s ^ 2 by positivity)
  have hge : 0 ≤ Camera.atan2 s a := by
    unfold Camera.atan2
    exact Complex.arg_nonneg_iff.2 hs
  have hlt : Camera.atan2 s a < Real.pi / 2 := by
    have := Complex.abs_arg_lt_pi_div_two_iff.2 (Or.inl (show 0 < (⟨a, s⟩ : ℂ).re from ha))
    unfold Camera.atan2
    exact (abs_lt.1 this).2
  generalize Camera.atan2 s a = t at k1 k2 hge hlt
  have e : s = a * Real.tan t := by
    rw [Real.tan_eq_sin_div_cos, k1, k2]; field_simp
  constructor
  · have h1 := Real.sin_le hge
    have hc : 1 ≤ Real.cos t + Real.sin t := by
      rw [k1, k2, ← add_div, le_div_iff₀ hn, one_mul]
      apply Real.sqrt_le_iff.2
      constructor
      · positivity
      · nlinarith [mul_nonneg ha.le hs]
    have hcp : 0 < Real.cos t := by rw [k1]; positivity
    have hsp : 0 ≤ Real.sin t := by rw [k2]; positivity
    have h2 : s / (1 + s / a) = a * (Real.sin t / (Real.cos t + Real.sin t)) := by
      rw [k1, k2]; field_simp
    rw [h2]
    apply mul_le_mul_of_nonneg_left _ ha.le
    rw [div_le_iff₀ (by linarith)]
    nlinarith
  · rw [e]
    exact mul_le_mul_of_nonneg_left (Real.le_tan hge hlt) ha.le

/-- **Losses.** The five known losses lie between `s / (1 + s / b)` and the squared norm `s`, where `b` is the threshold for the arctangent
and its square for the others; so they vanish only for a vanishing residual and do not change small ones. Other names are refused. -/
theorem C92_losses (name : String) (a s : ℝ) (ha : 0 < a) (hs : 0 ≤ s) :
    (loss name a s = none ↔ name ∉ ["TrivialLoss", "HuberLoss", "SoftLOneLoss", "CauchyLoss", "ArctanLoss"]) ∧
    ∀ v, loss name a s = some v →
      s / (1 + s / (if name = "ArctanLoss" then a else a ^ 2)) ≤ v ∧ v ≤ s ∧ (v = 0 ↔ s = 0) := by
  constructor
  · unfold loss
    by_cases h1 : name = "TrivialLoss"
    · rw [if_pos h1, h1]; simp
    by_cases h2 : name = "HuberLoss"
    · rw [if_neg h1, if_pos h2, h2]; simp
    by_cases h3 : name = "SoftLOneLoss"
    · rw [if_neg h1, if_neg h2, if_pos h3, h3]; simp
    by_cases h4 : name = "CauchyLoss"
    · rw [if_neg h1, if_neg h2, if_neg h3, if_pos h4, h4]; simp
    by_cases h5 : name = "ArctanLoss"
    · rw [if_neg h1, if_neg h2, if_neg h3, if_neg h4, if_pos h5, h5]; simp
    rw [if_neg h1, if_neg h2, if_neg h3, if_neg h4, if_neg h5]; simp [h1, h2, h3, h4, h5]
  · intro v hv
    have hb : 0 < (if name = "ArctanLoss" then a else a ^ 2) := by split <;> positivity
    suffices h : s / (1 + s / (if name = "ArctanLoss" then a else a ^ 2)) ≤ v ∧ v ≤ s by
      refine ⟨h.1, h.2, ?_⟩
      constructor
      · intro h0
        by_contra hne
        have hpos : 0 < s := lt_of_le_of_ne hs (Ne.symm hne)
        have : 0 < s / (1 + s / (if name = "ArctanLoss" then a else a ^ 2)) := by positivity
        linarith [h.1]
      · intro h0
        have := h.1
        rw [h0] at this
        simp at this
        linarith [h.2]
    have ha2 : 0 < a ^ 2 := by positivity
    have hx : 0 ≤ s / a ^ 2 := by positivity
    have hsx : s = a ^ 2 * (s / a ^ 2) := by field_simp
    have hlow : s / (1 + s / a ^ 2) ≤ s := by
      apply div_le_self hs; linarith
    unfold loss at hv
    by_cases h1 : name = "TrivialLoss"
    · rw [if_pos h1] at hv
      rw [if_neg (by rw [h1]; decide)]
      simp at hv
      rw [← hv]
      exact ⟨hlow, le_refl _⟩
    by_cases h2 : name = "HuberLoss"
    · rw [if_neg h1, if_pos h2] at hv
      rw [if_neg (by rw [h2]; decide)]
      simp only [Option.some.injEq] at hv
      by_cases hc : s > a * a
      · rw [if_pos hc] at hv
        have hq := Real.sq_sqrt hs
        have hq0 := Real.sqrt_nonneg s
        have hqa : a ≤ Real.sqrt s := Real.le_sqrt_of_sq_le (by nlinarith)
        rw [← hv]
        constructor
        · have : s / (1 + s / a ^ 2) ≤ a ^ 2 := by
            rw [div_le_iff₀ (by linarith), mul_add, mul_one, ← hsx]; linarith
          nlinarith
        · nlinarith [sq_nonneg (Real.sqrt s - a)]
      · rw [if_neg hc] at hv
        rw [← hv]
        exact ⟨hlow, le_refl _⟩
    by_cases h3 : name = "SoftLOneLoss"
    · rw [if_neg h1, if_neg h2, if_pos h3] at hv
      rw [if_neg (by rw [h3]; decide)]
      simp only [Option.some.injEq] at hv
      rw [← sq] at hv
      have hq := Real.sq_sqrt (show 0 ≤ 1 + s / a ^ 2 by linarith)
      have hq1 : 1 ≤ Real.sqrt (1 + s / a ^ 2) := Real.le_sqrt_of_sq_le (by linarith)
      have hlow2 : s / (1 + s / a ^ 2) = a ^ 2 * (s / a ^ 2 / (1 + s / a ^ 2)) := by
        rw [← mul_div_assoc, ← hsx]
      rw [← hv, hlow2]
      generalize Real.sqrt (1 + s / a ^ 2) = q at hq hq1
      rw [show s / a ^ 2 = q ^ 2 - 1 by linarith]
      constructor
      · rw [show 2 * a ^ 2 * (q - 1) = a ^ 2 * (2 * (q - 1)) by ring]
        apply mul_le_mul_of_nonneg_left _ ha2.le
        rw [div_le_iff₀ (by nlinarith)]
        nlinarith [mul_nonneg (sub_nonneg.2 hq1) (sub_nonneg.2 hq1)]
      · rw [hsx, show s / a ^ 2 = q ^ 2 - 1 by linarith]
        nlinarith [mul_nonneg ha2.le (sq_nonneg (q - 1))]
    by_cases h4 : name = "CauchyLoss"
    · rw [if_neg h1, if_neg h2, if_neg h3, if_pos h4] at hv
      rw [if_neg (by rw [h4]; decide)]
      simp only [Option.some.injEq] at hv
      rw [← sq] at hv
      have hlow2 : s / (1 + s / a ^ 2) = a ^ 2 * (1 - (1 + s / a ^ 2)⁻¹) := by
        field_simp
        ring
      have hp : 0 < 1 + s / a ^ 2 := by linarith
      rw [← hv, hlow2]
      constructor
      · exact mul_le_mul_of_nonneg_left (Real.one_sub_inv_le_log_of_pos hp) ha2.le
      · have := Real.log_le_sub_one_of_pos hp
        calc a ^ 2 * Real.log (1 + s / a ^ 2) ≤ a ^ 2 * (s / a ^ 2) := by
              apply mul_le_mul_of_nonneg_left _ ha2.le; linarith
          _ = s := hsx.symm
    by_cases h5 : name = "ArctanLoss"
    · rw [if_neg h1, if_neg h2, if_neg h3, if_neg h4, if_pos h5] at hv
      rw [if_pos h5]
      simp only [Option.some.injEq] at hv
      rw [← hv]
      exact atan2_pos a s ha hs
    rw [if_neg h1, if_neg h2, if_neg h3, if_neg h4, if_neg h5] at hv
    exact absurd hv (by simp)

theorem sum_zero_iff {β : Type} (l : List β) (g : β → ℝ) (h : ∀ x ∈ l, 0 ≤ g x) :
    0 ≤ (l.map g).sum ∧ ((l.map g).sum = 0 ↔ ∀ x ∈ l, g x = 0) := by
  induction l with
  | nil => simp
  | cons x l ih =>
    obtain ⟨i1, i2⟩ := ih (fun y hy => h y (List.mem_cons_of_mem _ hy))
    have hx := h x List.mem_cons_self
    simp only [List.map_cons, List.sum_cons, List.forall_mem_cons]
    refine ⟨by linarith, ?_⟩
    constructor
    · intro e
      exact ⟨by linarith, i2.1 (by linarith)⟩
    · rintro ⟨e1, e2⟩
      rw [e1, i2.2 e2]; norm_num

/-- **Cost.** With losses as above the cost is never negative, and it vanishes exactly if every residual does. -/
theorem C92_minimum (terms : List ((ℝ → ℝ) × List ℝ)) (h : ∀ e ∈ terms, ∀ s, 0 ≤ s → 0 ≤ e.1 s ∧ (e.1 s = 0 ↔ s = 0)) :
    0 ≤ cost terms ∧ (cost terms = 0 ↔ ∀ e ∈ terms, ∀ r ∈ e.2, r = 0) := by
  unfold cost
  have hsq : ∀ l : List ℝ, 0 ≤ (l.map (fun r => r * r)).sum ∧ ((l.map (fun r => r * r)).sum = 0 ↔ ∀ r ∈ l, r * r = 0) := fun l =>
    sum_zero_iff l (fun r => r * r) (fun r _ => mul_self_nonneg r)
  obtain ⟨k1, k2⟩ := sum_zero_iff terms (fun e => (1 / 2) * e.1 ((e.2.map (fun r => r * r)).sum))
    (fun e he => by have := (h e he _ (hsq e.2).1).1; positivity)
  refine ⟨k1, k2.trans (forall₂_congr (fun e he => ?_))⟩
  rw [mul_eq_zero_iff_left (by norm_num), (h e he _ (hsq e.2).1).2, (hsq e.2).2]
  exact forall₂_congr (fun r _ => mul_self_eq_zero)


/-! ### The hypotheses are met -/

/-- A camera that looks north and is level: turned by -π/2 about the first axis. -/
noncomputable def north : Vec 3 := ![-(Real.pi / 2), 0, 0]

theorem north_sq : north ⬝ᵥ north = (Real.pi / 2) ^ 2 := by
  rw [dot3]; simp [north]; ring

theorem north_rot : Rot north *ᵥ ![0, 0, 1] = ![0, 1, 0] ∧ Rot north *ᵥ ![1, 0, 0] = ![1, 0, 0] := by
  have hpi := Real.pi_pos
  have h : Real.sqrt (north ⬝ᵥ north) = Real.pi / 2 := by rw [north_sq, Real.sqrt_sq (by linarith)]
  constructor
  · refine funext (fun i => ?_)
    rw [mv, Rot_apply, Rot_apply, Rot_apply, h, north_sq, Real.cos_pi_div_two, Real.sin_pi_div_two]
    match i with
    | 0 => simp [north]
    | 1 => simp [north]
    | 2 => simp [north]
  · refine funext (fun i => ?_)
    rw [mv, Rot_apply, Rot_apply, Rot_apply, h, north_sq, Real.cos_pi_div_two, Real.sin_pi_div_two]
    match i with
    | 0 => simp [north]; field_simp
    | 1 => simp [north]
    | 2 => simp [north]

theorem north_regular (t : Vec 3) : (⟨north, t⟩ : Block).Regular (1 / 10 ^ 16) := by
  right
  show 1 / 10 ^ 16 < north ⬝ᵥ north
  rw [north_sq]
  nlinarith [Real.pi_gt_three]

theorem none_regular : (camBlock none).Regular (1 / 10 ^ 16) := Or.inl rfl

theorem north_direction (t v : Vec 3) : direction ⟨north, t⟩ none v = Rot north *ᵥ v := by
  simp [direction, camBlock, Rot_zero]

/-- The level camera has zero tilt, zero roll and a compass angle of zero, and only those. -/
example (t : Vec 3) (angle : ℝ) (ha : |angle| ≤ 2 * Real.pi) :
    (pan (1 / 10 ^ 16) angle 1 ⟨north, t⟩ none = 0 ↔ Real.sin angle = 0 ∧ Real.cos angle = 1) ∧
    (tilt (1 / 10 ^ 16) angle 1 ⟨north, t⟩ none = 0 ↔ Real.sin angle = 0 ∧ Real.cos angle = 1) ∧
    (roll (1 / 10 ^ 16) angle 1 ⟨north, t⟩ none = 0 ↔ Real.cos angle = 1 ∧ Real.sin angle = 0) := by
  have hpi := Real.pi_pos
  have hf : (![0, 1, 0] : Vec 3) = direction ⟨north, t⟩ none ![0, 0, 1] := by rw [north_direction, north_rot.1]
  have hx : (![1, 0, 0] : Vec 3) = direction ⟨north, t⟩ none ![1, 0, 0] := by rw [north_direction, north_rot.2]
  have hs : Regular (1 / 10 ^ 16) (shotRotation ⟨north, t⟩ none) := north_regular t
  refine ⟨?_, ?_, ?_⟩
  · rw [(C92_pan _ (by norm_num) angle 1 one_ne_zero ha _ none (north_regular t) none_regular hs _ hf).2 (by norm_num)]
    simp
    exact ⟨fun h => ⟨h.1.symm, h.2.symm⟩, fun h => ⟨h.1.symm, h.2.symm⟩⟩
  · rw [C92_tilt _ (by norm_num) angle 1 one_ne_zero ha _ none (north_regular t) none_regular hs _ hf]
    simp
    exact fun _ => eq_comm
  · have := C92_roll_folded _ (by norm_num) angle 1 one_ne_zero ha _ none (north_regular t) none_regular hs _ _ hf hx (by norm_num)
      0 (by linarith) (by linarith) (by rw [Real.sin_zero]; norm_num) (Or.inl (by ext i; fin_cases i <;> simp [levelRight]))
    rw [this, Real.cos_zero, Real.sin_zero]

/-- A point in the middle of the image of a camera five units away has residual zero. -/
example : reprojection2D (1 / 10 ^ 16) (fun p => ![p 0 / p 2, p 1 / p 2]) ![0, 0] 1 ⟨0, ![0, 0, -5]⟩ none 0 = 0 := by
  rw [C92_reprojection _ (by norm_num) _ _ 1 one_ne_zero _ none (Or.inl rfl) (Or.inl rfl)]
  refine ⟨![0, 0, 5], ?_, ?_⟩
  · ext i; fin_cases i <;> simp [toWorld, camBlock, Rot_zero]
  · simp

/-- Halfway in time, but half the distance in the wrong direction: residual zero. -/
example : (linearMotion (1 / 10 ^ 16) (1 / 2) 1 1 ⟨0, 0⟩ none ⟨0, 0 - (![1, 0, 0] - 0)⟩ none ⟨0, ![2, 0, 0]⟩ none).1 = 0 := by
  have hd : ((![2, 0, 0] : Vec 3) - 0) ⬝ᵥ (![2, 0, 0] - 0) = 2 ^ 2 := by rw [dot3]; simp; norm_num
  have h : 1 / 1000000000000000 < Real.sqrt (((![2, 0, 0] : Vec 3) - 0) ⬝ᵥ (![2, 0, 0] - 0)) := by
    rw [hd, Real.sqrt_sq (by norm_num)]; norm_num
  rw [C92_linear_backwards _ (by norm_num) _ _ _ _ _ _ _ _ _ h]
  have hw : ∀ p : Vec 3, p = toWorld ⟨0, p⟩ (camBlock none) 0 := fun p => by simp [toWorld, camBlock, Rot_zero]
  rw [(C92_linear_motion (1 / 10 ^ 16) (by norm_num) (1 / 2) 1 1 one_ne_zero one_ne_zero ⟨0, 0⟩ none ⟨0, ![1, 0, 0]⟩ none ⟨0, ![2, 0, 0]⟩ none
    (Or.inl rfl) (Or.inl rfl) (Or.inl rfl) (Or.inl rfl) (Or.inl rfl) (Or.inl rfl) _ _ _ (hw _) (hw _) (hw _)).1 h, hd,
    Real.sqrt_sq (by norm_num)]
  have : ((![1, 0, 0] : Vec 3) - 0) ⬝ᵥ (![1, 0, 0] - 0) = 1 := by rw [dot3]; simp
  rw [this, Real.sqrt_one]; norm_num

/-- Three shots with the rig cameras 1, 2 and 2: the last one is read with rig camera 1. -/
example : readCamera (blocks3 (fun c : ℕ => c ≠ 0) 1 2 2).1 (blocks3 (fun c : ℕ => c ≠ 0) 1 2 2).2.2.2 = some 1 := by decide

/-- A cost with a Cauchy loss. -/
example : cost [(fun s => (loss "CauchyLoss" 1 s).getD 0, [0, 0]), (id, [1, 2])] ≠ 0 := by
  have h := C92_minimum [(fun s => (loss "CauchyLoss" 1 s).getD 0, [0, 0]), (id, [1, 2])] (by
    intro e he s hs
    simp only [List.mem_cons, List.not_mem_nil, or_false] at he
    rcases he with rfl | rfl
    · obtain ⟨h1, h2⟩ := C92_losses "CauchyLoss" 1 s one_pos hs
      cases hl : loss "CauchyLoss" 1 s with
      | none => exact absurd (h1.1 hl) (by simp)
      | some v =>
        obtain ⟨a, -, c⟩ := h2 v hl
        refine ⟨?_, ?_⟩
        · show 0 ≤ (loss "CauchyLoss" 1 s).getD 0
          rw [hl]
          refine le_trans ?_ a
          split <;> positivity
        · show (loss "CauchyLoss" 1 s).getD 0 = 0 ↔ s = 0
          rw [hl]; exact c
    · exact ⟨hs, Iff.rfl⟩)
  rw [ne_eq, h.2]
  intro hc
  have := hc (id, [1, 2]) (by simp) 1 (by simp)
  norm_num at this

end Verif.BundleErrors
