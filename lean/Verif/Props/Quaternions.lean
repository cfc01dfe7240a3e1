import Verif.Model.Quaternions
import Verif.Spec.Quaternions
import Verif.Props.Angles
import Mathlib.Tactic.LinearCombination
import Mathlib.Analysis.Matrix.Spectrum

/-!
C118: quaternions.
-/
set_option linter.unusedSectionVars false
set_option linter.unusedSimpArgs false
set_option linter.unusedVariables false
namespace Verif.Quaternions
open Matrix Verif.Superimpose Verif.AlignPrior Verif.Angles
open scoped Quaternion

/-! ### Algebra -/

theorem vec4_ext {a b : Vec 4} (h0 : a 0 = b 0) (h1 : a 1 = b 1) (h2 : a 2 = b 2) (h3 : a 3 = b 3) : a = b := by
  ext i; fin_cases i <;> assumption

theorem dot4 (a b : Vec 4) : a ⬝ᵥ b = a 0 * b 0 + a 1 * b 1 + a 2 * b 2 + a 3 * b 3 := by
  simp [dotProduct, Fin.sum_univ_four]

theorem eps_val : eps = (2 : ℝ) ^ (-50 : ℤ) := by unfold eps; norm_num

theorem eps_lt_one : eps < 1 := by rw [eps_val]; norm_num

@[simp] theorem hamilton_re (q : Vec 4) : (hamilton q).re = q 0 := rfl
@[simp] theorem hamilton_imI (q : Vec 4) : (hamilton q).imI = q 1 := rfl
@[simp] theorem hamilton_imJ (q : Vec 4) : (hamilton q).imJ = q 2 := rfl
@[simp] theorem hamilton_imK (q : Vec 4) : (hamilton q).imK = q 3 := rfl
@[simp] theorem imaginary_re (q : Vec 3) : (imaginary q).re = 0 := rfl
@[simp] theorem imaginary_imI (q : Vec 3) : (imaginary q).imI = q 0 := rfl
@[simp] theorem imaginary_imJ (q : Vec 3) : (imaginary q).imJ = q 1 := rfl
@[simp] theorem imaginary_imK (q : Vec 3) : (imaginary q).imK = q 2 := rfl

theorem hamilton_inj {a b : Vec 4} (h : hamilton a = hamilton b) : a = b := by
  have h := QuaternionAlgebra.ext_iff.1 h
  exact vec4_ext h.1 h.2.1 h.2.2.1 h.2.2.2

/-- The product, the conjugate and the inverse are those of Hamilton's quaternions, and the length of a product is the
product of the lengths. -/
theorem C118_algebra (p q : Vec 4) :
    hamilton (multiply p q) = hamilton p * hamilton q ∧ hamilton (conjugate q) = star (hamilton q) ∧
      hamilton (inverse q) = (hamilton q)⁻¹ ∧
      multiply p q ⬝ᵥ multiply p q = (p ⬝ᵥ p) * (q ⬝ᵥ q) ∧
      (q ≠ 0 → multiply q (inverse q) = ![1, 0, 0, 0] ∧ multiply (inverse q) q = ![1, 0, 0, 0]) ∧
      (q 0 = real q ∧ q 1 = imag q 0 ∧ q 2 = imag q 1 ∧ q 3 = imag q 2) := by
  have hm : ∀ a b : Vec 4, hamilton (multiply a b) = hamilton a * hamilton b := by
    intro a b
    ext <;> simp [multiply] <;> ring
  have hc : hamilton (conjugate q) = star (hamilton q) := by
    ext <;> simp [conjugate]
  have hn : conjugate q ⬝ᵥ conjugate q = Quaternion.normSq (hamilton q) := by
    rw [dot4, Quaternion.normSq_def']
    simp [conjugate]; ring
  have hi : hamilton (inverse q) = (hamilton q)⁻¹ := by
    rw [Quaternion.inv_def, ← hn, ← hc]
    ext <;> simp [inverse]
  have hone : hamilton ![1, 0, 0, 0] = 1 := by ext <;> simp
  refine ⟨hm p q, hc, hi, ?_, ?_, rfl, rfl, rfl, rfl⟩
  · simp only [dot4, multiply]
    simp
    ring
  · intro h0
    have h1 : hamilton q ≠ 0 := by
      intro h
      exact h0 (hamilton_inj (h.trans (by ext <;> simp)))
    constructor
    · apply hamilton_inj; rw [hm, hi, mul_inv_cancel₀ h1, hone]
    · apply hamilton_inj; rw [hm, hi, inv_mul_cancel₀ h1, hone]

/-! ### The matrix of a quaternion -/

/-- The matrix of a quaternion times its squared length. -/
def wide (q : Vec 4) : Mat 3 :=
  !![q 0 ^ 2 + q 1 ^ 2 - q 2 ^ 2 - q 3 ^ 2, 2 * (q 1 * q 2 - q 3 * q 0), 2 * (q 1 * q 3 + q 2 * q 0);
    2 * (q 1 * q 2 + q 3 * q 0), q 0 ^ 2 - q 1 ^ 2 + q 2 ^ 2 - q 3 ^ 2, 2 * (q 2 * q 3 - q 1 * q 0);
    2 * (q 1 * q 3 - q 2 * q 0), 2 * (q 2 * q 3 + q 1 * q 0), q 0 ^ 2 - q 1 ^ 2 - q 2 ^ 2 + q 3 ^ 2]

theorem block_homogeneous (m : Mat 3) : block (homogeneous m) = m := by
  ext i j; fin_cases i <;> fin_cases j <;> rfl

theorem homogeneous_one : homogeneous 1 = 1 := by
  ext i j; fin_cases i <;> fin_cases j <;> simp [homogeneous]

theorem matrix_eq (q : Vec 4) (h : eps ≤ q ⬝ᵥ q) : quaternionMatrix q = homogeneous ((q ⬝ᵥ q)⁻¹ • wide q) := by
  have hp : 0 < q ⬝ᵥ q := lt_of_lt_of_le eps_pos h
  unfold quaternionMatrix
  simp only [not_lt.2 h, if_false]
  congr 1
  have hs : Real.sqrt (2 / (q ⬝ᵥ q)) * Real.sqrt (2 / (q ⬝ᵥ q)) = 2 / (q ⬝ᵥ q) :=
    Real.mul_self_sqrt (by positivity)
  have key : ∀ i j, vecMulVec (Real.sqrt (2 / (q ⬝ᵥ q)) • q) (Real.sqrt (2 / (q ⬝ᵥ q)) • q) i j =
      2 / (q ⬝ᵥ q) * (q i * q j) := by
    intro i j
    rw [vecMulVec_apply, Pi.smul_apply, Pi.smul_apply, smul_eq_mul, smul_eq_mul]
    linear_combination (q i * q j) * hs
  simp only [key]
  have hn := dot4 q q
  obtain ⟨n, hnd⟩ : ∃ n, n = q ⬝ᵥ q := ⟨_, rfl⟩
  rw [← hnd] at hn hp ⊢
  unfold wide
  rw [show ∀ (c : ℝ) (m : Mat 3), c • m = !![c * m 0 0, c * m 0 1, c * m 0 2; c * m 1 0, c * m 1 1, c * m 1 2; c * m 2 0, c * m 2 1, c * m 2 2] from
    fun c m => mat_eta (c • m)]
  apply lit_congr <;> simp <;> (field_simp; try (rw [hn]; ring))

theorem turns_iff (M : Mat 4) (R : Mat 3) : Turns M R ↔ M = homogeneous R := by
  constructor
  · rintro ⟨h1, h2, h3⟩
    ext i j
    fin_cases i <;> fin_cases j
    · exact h1 0 0
    · exact h1 0 1
    · exact h1 0 2
    · exact (h2 0).1
    · exact h1 1 0
    · exact h1 1 1
    · exact h1 1 2
    · exact (h2 1).1
    · exact h1 2 0
    · exact h1 2 1
    · exact h1 2 2
    · exact (h2 2).1
    · exact (h2 0).2
    · exact (h2 1).2
    · exact (h2 2).2
    · exact h3
  · rintro rfl
    refine ⟨?_, ?_, rfl⟩
    · intro i j; fin_cases i <;> fin_cases j <;> rfl
    · intro i; fin_cases i <;> exact ⟨rfl, rfl⟩

theorem homogeneous_mul (a b : Mat 3) : homogeneous a * homogeneous b = homogeneous (a * b) := by
  ext i j
  fin_cases i <;> fin_cases j <;> simp [homogeneous, Matrix.mul_apply, Fin.sum_univ_four, Fin.sum_univ_three]

theorem homogeneous_inj {a b : Mat 3} (h : homogeneous a = homogeneous b) : a = b := by
  rw [← block_homogeneous a, h, block_homogeneous]

theorem wide_mul (p q : Vec 4) : wide (multiply p q) = wide p * wide q := by
  unfold wide
  rw [Matrix.mul_fin_three]
  apply lit_congr <;> simp [multiply] <;> ring

theorem norm_mul (p q : Vec 4) : multiply p q ⬝ᵥ multiply p q = (p ⬝ᵥ p) * (q ⬝ᵥ q) := (C118_algebra p q).2.2.2.1

theorem wide_rot (q : Vec 4) (h : 0 < q ⬝ᵥ q) : IsRot ((q ⬝ᵥ q)⁻¹ • wide q) := by
  have hn := dot4 q q
  obtain ⟨n, hnd⟩ : ∃ n, n = q ⬝ᵥ q := ⟨_, rfl⟩
  rw [← hnd] at hn h ⊢
  have h0 : n ≠ 0 := h.ne'
  constructor
  · rw [transpose_smul, smul_mul_smul_comm]
    have : (wide q)ᵀ * wide q = (n * n) • (1 : Mat 3) := by
      ext i j
      fin_cases i <;> fin_cases j <;> simp [wide, Matrix.mul_apply, Fin.sum_univ_three] <;> (try rw [hn]) <;> ring
    rw [this, smul_smul]
    rw [show n⁻¹ * n⁻¹ * (n * n) = 1 by field_simp, one_smul]
  · rw [det_smul, Fintype.card_fin]
    have : (wide q).det = n ^ 3 := by
      rw [det_fin_three, hn]
      simp [wide]
      ring
    rw [this]
    field_simp

theorem wide_acts (q : Vec 4) (v : Vec 3) (h : 0 < q ⬝ᵥ q) :
    imaginary (((q ⬝ᵥ q)⁻¹ • wide q) *ᵥ v) = hamilton q * imaginary v * (hamilton q)⁻¹ := by
  have hn : Quaternion.normSq (hamilton q) = q ⬝ᵥ q := by
    rw [dot4, Quaternion.normSq_def']; simp; ring
  rw [Quaternion.inv_def, hn]
  ext <;> simp [wide, Matrix.mulVec, dotProduct, Fin.sum_univ_three] <;> ring

/-- The matrix of a quaternion that is not tiny is a rotation: the one that takes every vector `v` to `q v q⁻¹`. -/
theorem C118_matrix (q : Vec 4) (h : (2 : ℝ) ^ (-50 : ℤ) ≤ q ⬝ᵥ q) :
    ∃ R, Turns (quaternionMatrix q) R ∧ IsRot R ∧
      ∀ v, imaginary (R *ᵥ v) = hamilton q * imaginary v * (hamilton q)⁻¹ := by
  rw [← eps_val] at h
  have hp : 0 < q ⬝ᵥ q := lt_of_lt_of_le eps_pos h
  refine ⟨(q ⬝ᵥ q)⁻¹ • wide q, ?_, wide_rot q hp, fun v => wide_acts q v hp⟩
  rw [turns_iff, matrix_eq q h]

/-- A quaternion that is tiny has the identity as its matrix, whatever its direction. -/
theorem C118_tiny (q : Vec 4) (h : q ⬝ᵥ q < (2 : ℝ) ^ (-50 : ℤ)) : quaternionMatrix q = 1 := by
  rw [← eps_val] at h
  unfold quaternionMatrix
  simp only [h, if_true]

/-- The matrix of a product is the product of the matrices, in the same order. -/
theorem C118_product (p q : Vec 4) (hp : (2 : ℝ) ^ (-50 : ℤ) ≤ p ⬝ᵥ p) (hq : (2 : ℝ) ^ (-50 : ℤ) ≤ q ⬝ᵥ q)
    (hpq : (2 : ℝ) ^ (-50 : ℤ) ≤ (p ⬝ᵥ p) * (q ⬝ᵥ q)) :
    quaternionMatrix (multiply p q) = quaternionMatrix p * quaternionMatrix q := by
  rw [← eps_val] at hp hq hpq
  rw [matrix_eq _ hp, matrix_eq _ hq, matrix_eq _ (by rw [norm_mul]; exact hpq), homogeneous_mul, norm_mul, wide_mul,
    smul_mul_smul_comm, mul_inv]

/-! ### Which quaternions have the same matrix -/

/-- Four times the products of the entries of the unit quaternion of a rotation. -/
def gramOf (m : Mat 3) : Mat 4 :=
  !![1 + m 0 0 + m 1 1 + m 2 2, m 2 1 - m 1 2, m 0 2 - m 2 0, m 1 0 - m 0 1;
    m 2 1 - m 1 2, 1 + m 0 0 - m 1 1 - m 2 2, m 0 1 + m 1 0, m 0 2 + m 2 0;
    m 0 2 - m 2 0, m 0 1 + m 1 0, 1 - m 0 0 + m 1 1 - m 2 2, m 1 2 + m 2 1;
    m 1 0 - m 0 1, m 0 2 + m 2 0, m 1 2 + m 2 1, 1 - m 0 0 - m 1 1 + m 2 2]

theorem gramOf_wide (q : Vec 4) (h : 0 < q ⬝ᵥ q) (i j : Fin 4) :
    gramOf ((q ⬝ᵥ q)⁻¹ • wide q) i j = 4 / (q ⬝ᵥ q) * (q i * q j) := by
  have hn := dot4 q q
  obtain ⟨n, hnd⟩ : ∃ n, n = q ⬝ᵥ q := ⟨_, rfl⟩
  rw [← hnd] at hn h ⊢
  fin_cases i <;> fin_cases j <;> simp [gramOf, wide] <;> field_simp <;> (try rw [hn]) <;> ring

/-- Two quaternions have the same matrix exactly when one is a multiple of the other; unit quaternions when they are equal or
opposite. -/
theorem C118_same (p q : Vec 4) (hp : (2 : ℝ) ^ (-50 : ℤ) ≤ p ⬝ᵥ p) (hq : (2 : ℝ) ^ (-50 : ℤ) ≤ q ⬝ᵥ q) :
    quaternionMatrix p = quaternionMatrix q ↔ ∃ s : ℝ, s ≠ 0 ∧ p = s • q := by
  rw [← eps_val] at hp hq
  have hp0 : 0 < p ⬝ᵥ p := lt_of_lt_of_le eps_pos hp
  have hq0 : 0 < q ⬝ᵥ q := lt_of_lt_of_le eps_pos hq
  rw [matrix_eq _ hp, matrix_eq _ hq]
  constructor
  · intro h
    have h := homogeneous_inj h
    have key : ∀ i j, 4 / (p ⬝ᵥ p) * (p i * p j) = 4 / (q ⬝ᵥ q) * (q i * q j) := by
      intro i j
      rw [← gramOf_wide p hp0, h, gramOf_wide q hq0]
    obtain ⟨j, hj⟩ : ∃ j, q j ≠ 0 := by
      by_contra hc
      push Not at hc
      rw [dot4, hc 0, hc 1, hc 2, hc 3] at hq0
      simp at hq0
    have hjj := key j j
    have hpj : p j ≠ 0 := by
      intro h0
      rw [h0] at hjj
      have : 0 < 4 / (q ⬝ᵥ q) * (q j * q j) := by
        have := mul_self_pos.2 hj
        positivity
      rw [← hjj] at this
      simp at this
    refine ⟨(p ⬝ᵥ p) * q j / ((q ⬝ᵥ q) * p j), ?_, ?_⟩
    · exact div_ne_zero (mul_ne_zero hp0.ne' hj) (mul_ne_zero hq0.ne' hpj)
    · ext i
      have := key i j
      rw [Pi.smul_apply, smul_eq_mul]
      field_simp at this ⊢
      linear_combination this
  · rintro ⟨s, hs, rfl⟩
    congr 1
    rw [show (s • q) ⬝ᵥ (s • q) = s ^ 2 * (q ⬝ᵥ q) by rw [smul_dotProduct, dotProduct_smul]; simp; ring,
      show wide (s • q) = s ^ 2 • wide q by
        ext i j; fin_cases i <;> fin_cases j <;> simp [wide] <;> ring, smul_smul]
    congr 1
    field_simp

/-! ### The quaternion of a matrix -/

theorem rot_facts {R : Mat 3} (hR : IsRot R) :
    (R 0 0 = R 1 1 * R 2 2 - R 1 2 * R 2 1 ∧ R 1 1 = R 0 0 * R 2 2 - R 0 2 * R 2 0 ∧
      R 2 2 = R 0 0 * R 1 1 - R 0 1 * R 1 0 ∧ R 0 1 = R 1 2 * R 2 0 - R 1 0 * R 2 2 ∧ R 1 0 = R 0 2 * R 2 1 - R 0 1 * R 2 2 ∧
      R 0 2 = R 1 0 * R 2 1 - R 1 1 * R 2 0 ∧ R 2 0 = R 0 1 * R 1 2 - R 0 2 * R 1 1 ∧
      R 1 2 = R 0 1 * R 2 0 - R 0 0 * R 2 1 ∧ R 2 1 = R 0 2 * R 1 0 - R 0 0 * R 1 2) ∧
    (∀ i j : Fin 3, R i 0 * R j 0 + R i 1 * R j 1 + R i 2 * R j 2 = if i = j then 1 else 0) ∧
    (∀ i j : Fin 3, R 0 i * R 0 j + R 1 i * R 1 j + R 2 i * R 2 j = if i = j then 1 else 0) := by
  have e2 : Rᵀ * R = 1 := hR.1
  have e1 : R * Rᵀ = 1 := mul_eq_one_comm.1 hR.1
  have ha : R.adjugate = Rᵀ := by
    have : R * R.adjugate = 1 := by rw [mul_adjugate, hR.2, one_smul]
    calc R.adjugate = (Rᵀ * R) * R.adjugate := by rw [e2, one_mul]
      _ = Rᵀ := by rw [Matrix.mul_assoc, this, mul_one]
  rw [adjugate_fin_three] at ha
  have c := fun x y => congrFun (congrFun ha x) y
  have c00 := c 0 0
  have c01 := c 0 1
  have c02 := c 0 2
  have c10 := c 1 0
  have c11 := c 1 1
  have c12 := c 1 2
  have c20 := c 2 0
  have c21 := c 2 1
  have c22 := c 2 2
  simp [Matrix.transpose_apply] at c00 c01 c02 c10 c11 c12 c20 c21 c22
  refine ⟨⟨?_, ?_, ?_, ?_, ?_, ?_, ?_, ?_, ?_⟩, ?_, ?_⟩
  · linarith
  · linarith
  · linarith
  · linarith
  · linarith
  · linarith
  · linarith
  · linarith
  · linarith
  · intro i j
    have := congrFun (congrFun e1 i) j
    rwa [Matrix.mul_apply, Fin.sum_univ_three, Matrix.one_apply] at this
  · intro i j
    have := congrFun (congrFun e2 i) j
    rwa [Matrix.mul_apply, Fin.sum_univ_three, Matrix.one_apply] at this

theorem rank_one {R : Mat 3} (hR : IsRot R) (i j : Fin 4) :
    gramOf R 0 i * gramOf R 0 j = gramOf R 0 0 * gramOf R i j := by
  obtain ⟨⟨c00, c11, c22, c01, c10, c02, c20, c12, c21⟩, row, col⟩ := rot_facts hR
  have r00 := row 0 0
  have r11 := row 1 1
  have r22 := row 2 2
  have r01 := row 0 1
  have r02 := row 0 2
  have r12 := row 1 2
  have k00 := col 0 0
  have k11 := col 1 1
  have k22 := col 2 2
  have k01 := col 0 1
  have k02 := col 0 2
  have k12 := col 1 2
  clear row col hR
  simp at r00 r11 r22 r01 r02 r12 k00 k11 k22 k01 k02 k12
  fin_cases i <;> fin_cases j <;> simp [gramOf] <;>
    first
    | ring1
    | linear_combination r11 + r22 - k00 - 2 * c00
    | linear_combination -c10 - c01 - k01 - r01
    | linear_combination -c20 - c02 - k02 - r02
    | linear_combination r00 + r22 - k11 - 2 * c11
    | linear_combination -c12 - c21 - k12 - r12
    | linear_combination r00 + r11 - k22 - 2 * c22

theorem of_gram {R : Mat 3} {q : Vec 4} (h : ∀ i j, 4 * (q i * q j) = gramOf R i j) : q ⬝ᵥ q = 1 ∧ wide q = R := by
  have h00 := h 0 0
  have h11 := h 1 1
  have h22 := h 2 2
  have h33 := h 3 3
  have h01 := h 0 1
  have h02 := h 0 2
  have h03 := h 0 3
  have h12 := h 1 2
  have h13 := h 1 3
  have h23 := h 2 3
  simp [gramOf] at h00 h11 h22 h33 h01 h02 h03 h12 h13 h23
  constructor
  · rw [dot4]; linarith
  · rw [mat_eta R]
    unfold wide
    apply lit_congr <;> nlinarith

theorem gram_of {R : Mat 3} {q : Vec 4} (h1 : q ⬝ᵥ q = 1) (h2 : wide q = R) (i j : Fin 4) : gramOf R i j = 4 * (q i * q j) := by
  have := gramOf_wide q (by rw [h1]; norm_num) i j
  rw [h1, inv_one, one_smul, h2] at this
  rw [this]; ring

theorem wide_exists_pos {R : Mat 3} (hR : IsRot R) (h : 0 < gramOf R 0 0) :
    ((0.5 / Real.sqrt (gramOf R 0 0)) • gramOf R 0) ⬝ᵥ ((0.5 / Real.sqrt (gramOf R 0 0)) • gramOf R 0) = 1 ∧
      wide ((0.5 / Real.sqrt (gramOf R 0 0)) • gramOf R 0) = R := by
  apply of_gram
  intro i j
  have hs := Real.sqrt_pos.2 h
  have hq := Real.sq_sqrt h.le
  rw [Pi.smul_apply, Pi.smul_apply, smul_eq_mul, smul_eq_mul]
  have := rank_one hR i j
  obtain ⟨r, hr⟩ : ∃ r, r = Real.sqrt (gramOf R 0 0) := ⟨_, rfl⟩
  rw [← hr] at hs hq ⊢
  rw [← hq] at this
  field_simp
  linear_combination 4 * (0.5 : ℝ) ^ 2 * this

theorem wide_exists {R : Mat 3} (hR : IsRot R) : ∃ q : Vec 4, q ⬝ᵥ q = 1 ∧ wide q = R := by
  have step : ∀ e : Vec 4, e ⬝ᵥ e = 1 → wide (multiply e e) = 1 → 0 < gramOf (wide e * R) 0 0 →
      ∃ q : Vec 4, q ⬝ᵥ q = 1 ∧ wide q = R := by
    intro e he hee hp
    have hrot : IsRot (wide e) := by
      have := wide_rot e (by rw [he]; norm_num)
      rwa [he, inv_one, one_smul] at this
    obtain ⟨h1, h2⟩ := wide_exists_pos (rot_mul hrot hR) hp
    refine ⟨multiply e ((0.5 / Real.sqrt (gramOf (wide e * R) 0 0)) • gramOf (wide e * R) 0), ?_, ?_⟩
    · rw [norm_mul, he, h1, one_mul]
    · rw [wide_mul, h2, ← Matrix.mul_assoc, ← wide_mul, hee, one_mul]
  by_cases h0 : 0 < gramOf R 0 0
  · exact ⟨_, wide_exists_pos hR h0⟩
  by_cases h1 : 0 < gramOf R 1 1
  · refine step ![0, 1, 0, 0] (by simp [dot4]) ?_ ?_
    · ext i j; fin_cases i <;> fin_cases j <;> simp [wide, multiply]
    · simp [gramOf, wide, Matrix.mul_apply, Fin.sum_univ_three] at h1 ⊢; linarith
  by_cases h2 : 0 < gramOf R 2 2
  · refine step ![0, 0, 1, 0] (by simp [dot4]) ?_ ?_
    · ext i j; fin_cases i <;> fin_cases j <;> simp [wide, multiply]
    · simp [gramOf, wide, Matrix.mul_apply, Fin.sum_univ_three] at h2 ⊢; linarith
  refine step ![0, 0, 0, 1] (by simp [dot4]) ?_ ?_
  · ext i j; fin_cases i <;> fin_cases j <;> simp [wide, multiply]
  · simp [gramOf, wide, Matrix.mul_apply, Fin.sum_univ_three] at h0 h1 h2 ⊢; linarith

theorem unit_matrix {q : Vec 4} {R : Mat 3} (h1 : q ⬝ᵥ q = 1) (h2 : wide q = R) : quaternionMatrix q = homogeneous R := by
  rw [matrix_eq q (by rw [h1]; exact eps_lt_one.le), h1, inv_one, one_smul, h2]

theorem positive_spec (q : Vec 4) : 0 ≤ positive q 0 ∧ (positive q = q ∨ positive q = -q) ∧
    positive q ⬝ᵥ positive q = q ⬝ᵥ q ∧ wide (positive q) = wide q := by
  unfold positive
  by_cases h : q 0 < 0
  · rw [if_pos h]
    refine ⟨by simp; linarith, Or.inr rfl, by simp, ?_⟩
    unfold wide
    apply lit_congr <;> simp
  · rw [if_neg h]
    exact ⟨not_lt.1 h, Or.inl rfl, rfl, rfl⟩

theorem argmax_spec (w : Vec 4) (i : Fin 4) : w i ≤ w (argmax w) := by
  unfold argmax
  simp only [List.foldl_cons, List.foldl_nil]
  by_cases h1 : w 1 > w 0
  · rw [if_pos h1]
    by_cases h2 : w 2 > w 1
    · rw [if_pos h2]
      by_cases h3 : w 3 > w 2
      · rw [if_pos h3]; fin_cases i <;> simp <;> linarith
      · rw [if_neg h3]; fin_cases i <;> simp <;> linarith
    · rw [if_neg h2]
      by_cases h3 : w 3 > w 1
      · rw [if_pos h3]; fin_cases i <;> simp <;> linarith
      · rw [if_neg h3]; fin_cases i <;> simp <;> linarith
  · rw [if_neg h1]
    by_cases h2 : w 2 > w 0
    · rw [if_pos h2]
      by_cases h3 : w 3 > w 2
      · rw [if_pos h3]; fin_cases i <;> simp <;> linarith
      · rw [if_neg h3]; fin_cases i <;> simp <;> linarith
    · rw [if_neg h2]
      by_cases h3 : w 3 > w 0
      · rw [if_pos h3]; fin_cases i <;> simp <;> linarith
      · rw [if_neg h3]; fin_cases i <;> simp <;> linarith

/-- A column of a matrix with its last entry first. -/
def lastFirst (V : Mat 4) (m : Fin 4) : Vec 4 := ![V 3 m, V 0 m, V 1 m, V 2 m]

theorem eigen_column {R : Mat 3} {p : Vec 4} (h1 : p ⬝ᵥ p = 1) (h2 : wide p = R) {w : Vec 4} {V : Mat 4}
    (he : IsEigh (kMatrix (homogeneous R)) w V) (m : Fin 4) :
    lastFirst V m ⬝ᵥ lastFirst V m = 1 ∧
      ∀ i, 4 * (p ⬝ᵥ lastFirst V m) * p i = (3 * w m + 1) * lastFirst V m i := by
  have g := fun i j => gram_of h1 h2 i j
  have g00 := g 0 0
  have g11 := g 1 1
  have g22 := g 2 2
  have g33 := g 3 3
  have g01 := g 0 1
  have g02 := g 0 2
  have g03 := g 0 3
  have g12 := g 1 2
  have g13 := g 1 3
  have g23 := g 2 3
  simp [gramOf] at g00 g11 g22 g33 g01 g02 g03 g12 g13 g23
  have hn := dot4 p p
  rw [h1] at hn
  constructor
  · have := congrFun (congrFun he.1 m) m
    rw [Matrix.mul_apply, Fin.sum_univ_four, Matrix.one_apply, if_pos rfl] at this
    simp only [Matrix.transpose_apply] at this
    rw [dot4]
    simp [lastFirst]
    linarith
  · have e := fun i => congrFun (congrFun he.2 i) m
    have e0 := e 0
    have e1 := e 1
    have e2 := e 2
    have e3 := e 3
    rw [Matrix.mul_apply, Fin.sum_univ_four, Matrix.mul_diagonal] at e0 e1 e2 e3
    simp [kMatrix, homogeneous] at e0 e1 e2 e3
    intro i
    rw [dot4]
    fin_cases i <;> simp [lastFirst]
    · linear_combination 3 * e3 - V 0 m * g01 - V 1 m * g02 - V 2 m * g03 - V 3 m * g00
    · linear_combination 3 * e0 - V 0 m * g11 - V 1 m * g12 - V 2 m * g13 - V 3 m * g01
    · linear_combination 3 * e1 - V 0 m * g12 - V 1 m * g22 - V 2 m * g23 - V 3 m * g02
    · linear_combination 3 * e2 - V 0 m * g13 - V 1 m * g23 - V 2 m * g33 - V 3 m * g03

theorem smul_dot_eq {p u : Vec 4} {a b : ℝ} (h : ∀ i, a * p i = b * u i) (v : Vec 4) : a * (p ⬝ᵥ v) = b * (u ⬝ᵥ v) := by
  rw [dot4, dot4]
  linear_combination v 0 * h 0 + v 1 * h 1 + v 2 * h 2 + v 3 * h 3

theorem eigen_best {R : Mat 3} {p : Vec 4} (h1 : p ⬝ᵥ p = 1) (h2 : wide p = R) {w : Vec 4} {V : Mat 4}
    (he : IsEigh (kMatrix (homogeneous R)) w V) :
    lastFirst V (argmax w) = p ∨ lastFirst V (argmax w) = -p := by
  have hc := fun m => eigen_column h1 h2 he m
  obtain ⟨k, hk⟩ : ∃ k, p ⬝ᵥ lastFirst V k ≠ 0 := by
    by_contra hcon
    push Not at hcon
    have hz : Vᵀ *ᵥ ![p 1, p 2, p 3, p 0] = 0 := by
      ext k
      have := hcon k
      rw [dot4] at this
      simp [lastFirst] at this
      simp [Matrix.mulVec, dotProduct, Fin.sum_univ_four]
      linarith
    have hv : V * Vᵀ = 1 := mul_eq_one_comm.1 he.1
    have h0 : (![p 1, p 2, p 3, p 0] : Vec 4) = 0 := by
      have := congrArg (fun x => V *ᵥ x) hz
      simp only [mulVec_mulVec, hv, one_mulVec, mulVec_zero] at this
      exact this
    have a0 := congrFun h0 0
    have a1 := congrFun h0 1
    have a2 := congrFun h0 2
    have a3 := congrFun h0 3
    simp at a0 a1 a2 a3
    rw [dot4, a0, a1, a2, a3] at h1
    simp at h1
  have one_of : ∀ m, p ⬝ᵥ lastFirst V m ≠ 0 → w m = 1 := by
    intro m hm
    have := smul_dot_eq (hc m).2 p
    rw [h1, dotProduct_comm (lastFirst V m) p] at this
    have h3 : (3 * w m + 1 - 4) * (p ⬝ᵥ lastFirst V m) = 0 := by linarith
    rcases mul_eq_zero.1 h3 with h | h
    · linarith
    · exact absurd h hm
  have hm : 1 ≤ w (argmax w) := by
    have := argmax_spec w k
    rw [one_of k hk] at this
    exact this
  obtain ⟨m, hmd⟩ : ∃ m, m = argmax w := ⟨_, rfl⟩
  rw [← hmd] at hm ⊢
  have hsq := smul_dot_eq (hc m).2 (lastFirst V m)
  rw [(hc m).1] at hsq
  have hne : p ⬝ᵥ lastFirst V m ≠ 0 := by
    intro h
    rw [h] at hsq
    linarith
  have hw := one_of m hne
  rw [hw] at hsq
  have hpm : (p ⬝ᵥ lastFirst V m - 1) * (p ⬝ᵥ lastFirst V m + 1) = 0 := by linarith
  have he2 := (hc m).2
  rw [hw] at he2
  rcases mul_eq_zero.1 hpm with h | h
  · left
    ext i
    have := he2 i
    rw [show p ⬝ᵥ lastFirst V m = 1 by linarith] at this
    linarith
  · right
    ext i
    have := he2 i
    rw [show p ⬝ᵥ lastFirst V m = -1 by linarith] at this
    rw [Pi.neg_apply]
    linarith

theorem wide_neg (q : Vec 4) : wide (-q) = wide q := by
  unfold wide
  apply lit_congr <;> simp

/-- The quaternion of a rotation is a unit quaternion with the rotation as its matrix, and its first entry is not negative. -/
theorem C118_from_matrix (eigh : Mat 4 → Vec 4 × Mat 4) (he : ∀ K, IsEigh K (eigh K).1 (eigh K).2) (empty : Vec 4)
    (M : Mat 4) (R : Mat 3) (hM : Turns M R) (hR : IsRot R) :
    ∃ q, fromMatrix eigh empty M false = some q ∧ q ⬝ᵥ q = 1 ∧ 0 ≤ q 0 ∧ quaternionMatrix q = M := by
  rw [turns_iff] at hM
  subst hM
  obtain ⟨p, h1, h2⟩ := wide_exists hR
  refine ⟨positive (lastFirst (eigh (kMatrix (homogeneous R))).2 (argmax (eigh (kMatrix (homogeneous R))).1)), rfl, ?_⟩
  obtain ⟨p1, -, p3, p4⟩ := positive_spec (lastFirst (eigh (kMatrix (homogeneous R))).2 (argmax (eigh (kMatrix (homogeneous R))).1))
  rcases eigen_best h1 h2 (he _) with h | h
  · rw [h] at p1 p3 p4 ⊢
    exact ⟨p3.trans h1, p1, unit_matrix (p3.trans h1) (p4.trans h2)⟩
  · rw [h] at p1 p3 p4 ⊢
    have : (-p) ⬝ᵥ (-p) = 1 := by simpa using h1
    exact ⟨p3.trans this, p1, unit_matrix (p3.trans this) (p4.trans ((wide_neg p).trans h2))⟩

/-- There are functions that do what is promised of `eigh`. -/
theorem C118_eigh_exists : ∃ eigh : Mat 4 → Vec 4 × Mat 4, ∀ K, IsEigh K (eigh K).1 (eigh K).2 := by
  have key : ∀ K : Mat 4, ∃ p : Vec 4 × Mat 4, IsEigh K p.1 p.2 := by
    intro K
    have hA : (Matrix.of (fun i j => if j ≤ i then K i j else K j i) : Mat 4).IsHermitian := by
      ext i j
      simp only [conjTranspose_apply, of_apply, star_trivial]
      by_cases h1 : i ≤ j <;> by_cases h2 : j ≤ i
      · rw [if_pos h1, if_pos h2, le_antisymm h1 h2]
      · rw [if_pos h1, if_neg h2]
      · rw [if_neg h1, if_pos h2]
      · exact absurd (le_of_lt (not_le.1 h1)) h2
    refine ⟨(hA.eigenvalues, (hA.eigenvectorUnitary : Mat 4)), ?_, ?_⟩
    · have := Unitary.star_mul_self_of_mem hA.eigenvectorUnitary.2
      simpa [star_eq_conjTranspose] using this
    · ext i j
      have := congrFun (hA.mulVec_eigenvectorBasis j) i
      rw [Matrix.mul_diagonal, Matrix.mul_apply]
      simp only [IsHermitian.eigenvectorUnitary_apply]
      rw [mul_comm]
      exact this
  exact ⟨fun K => (key K).choose, fun K => (key K).choose_spec⟩

theorem trace_homogeneous (R : Mat 3) : (homogeneous R).trace = gramOf R 0 0 := by
  simp [Matrix.trace, Fin.sum_univ_four, homogeneous, gramOf]; ring

/-- For precise matrices the faster algorithm has the same answers, as long as the trace of the rotation is positive. -/
theorem C118_precise (eigh : Mat 4 → Vec 4 × Mat 4) (empty : Vec 4) (M : Mat 4) (R : Mat 3) (hM : Turns M R) (hR : IsRot R)
    (ht : 0 < R 0 0 + R 1 1 + R 2 2) :
    ∃ q, fromMatrix eigh empty M true = some q ∧ q ⬝ᵥ q = 1 ∧ 0 < q 0 ∧ quaternionMatrix q = M := by
  rw [turns_iff] at hM
  subst hM
  have hg : 1 < gramOf R 0 0 := by simp [gramOf]; linarith
  have h0 : 0 < gramOf R 0 0 := by linarith
  obtain ⟨h1, h2⟩ := wide_exists_pos hR h0
  have hp : 0 < ((0.5 / Real.sqrt (gramOf R 0 0)) • gramOf R 0) 0 := by
    rw [Pi.smul_apply, smul_eq_mul]
    have := Real.sqrt_pos.2 h0
    positivity
  refine ⟨(0.5 / Real.sqrt (gramOf R 0 0)) • gramOf R 0, ?_, h1, hp, unit_matrix h1 h2⟩
  unfold fromMatrix fromPrecise
  rw [if_pos rfl, trace_homogeneous]
  have h33 : homogeneous R 3 3 = 1 := rfl
  simp only [h33]
  rw [if_pos hg]
  unfold scaleRoot
  rw [mul_one, if_pos h0, Option.map_some]
  have he : (![gramOf R 0 0, homogeneous R 2 1 - homogeneous R 1 2, homogeneous R 0 2 - homogeneous R 2 0,
      homogeneous R 1 0 - homogeneous R 0 1] : Vec 4) = gramOf R 0 := by
    apply vec4_ext <;> simp [homogeneous, gramOf]
  rw [he]
  unfold positive
  rw [if_neg (not_lt.2 hp.le)]

/-- Otherwise the first entry of an answer is a multiple of what was in memory before the call. -/
theorem C118_precise_memory (eigh : Mat 4 → Vec 4 × Mat 4) (empty q : Vec 4) (M : Mat 4) (R : Mat 3) (hM : Turns M R)
    (ht : R 0 0 + R 1 1 + R 2 2 ≤ 0) (h : fromMatrix eigh empty M true = some q) :
    ∃ c : ℝ, 0 < c ∧ ∀ x : ℝ, ∃ q', fromMatrix eigh (Function.update empty 0 x) M true = some q' ∧ q' 0 = c * |x| := by
  rw [turns_iff] at hM
  subst hM
  have hg : ¬ gramOf R 0 0 > 1 := by simp [gramOf]; linarith
  have h33 : homogeneous R 3 3 = 1 := rfl
  have hpiv : (pivot (homogeneous R)).1 ≠ 0 ∧ (pivot (homogeneous R)).2.1 ≠ 0 ∧ (pivot (homogeneous R)).2.2 ≠ 0 := by
    unfold pivot
    by_cases h1 : homogeneous R 1 1 > homogeneous R 0 0
    · simp only [h1, if_true]
      split <;> simp
    · simp only [h1, if_false]
      split <;> simp
  obtain ⟨⟨i, j, k⟩, hp⟩ : ∃ p, p = pivot (homogeneous R) := ⟨_, rfl⟩
  rw [← hp] at hpiv
  have hv : ∀ e : Vec 4, fromMatrix eigh e (homogeneous R) true =
      (scaleRoot (Function.update (Function.update (Function.update (Function.update e i
        (homogeneous R i i - (homogeneous R j j + homogeneous R k k) + homogeneous R 3 3)) j
        (homogeneous R i j + homogeneous R j i)) k (homogeneous R k i + homogeneous R i k)) 3
        (homogeneous R k j - homogeneous R j k))
        (homogeneous R i i - (homogeneous R j j + homogeneous R k k) + homogeneous R 3 3) 1).map positive := by
    intro e
    unfold fromMatrix fromPrecise
    rw [if_pos rfl, trace_homogeneous]
    simp only [h33, if_neg hg, ← hp]
  rw [hv] at h
  simp only [hv]
  obtain ⟨t, htd⟩ : ∃ t, t = homogeneous R i i - (homogeneous R j j + homogeneous R k k) + homogeneous R 3 3 := ⟨_, rfl⟩
  rw [← htd] at h ⊢
  unfold scaleRoot at h ⊢
  rw [mul_one] at h ⊢
  by_cases hpos : 0 < t
  · simp only [if_pos hpos, Option.map_some]
    have hs := Real.sqrt_pos.2 hpos
    refine ⟨0.5 / Real.sqrt t, by positivity, fun x => ⟨_, rfl, ?_⟩⟩
    have h3 : (3 : Fin 4) ≠ 0 := by decide
    unfold positive
    obtain ⟨c, hc⟩ : ∃ c, c = 0.5 / Real.sqrt t := ⟨_, rfl⟩
    have hcp : 0 < c := by rw [hc]; positivity
    rw [← hc]
    simp only [Pi.smul_apply, Function.update_of_ne h3.symm, Function.update_of_ne hpiv.1.symm,
      Function.update_of_ne hpiv.2.1.symm, Function.update_of_ne hpiv.2.2.symm, Function.update_self, smul_eq_mul]
    by_cases hx : c * x < 0
    · rw [if_pos hx, Pi.neg_apply]
      simp only [Pi.smul_apply, Function.update_of_ne h3.symm, Function.update_of_ne hpiv.1.symm,
        Function.update_of_ne hpiv.2.1.symm, Function.update_of_ne hpiv.2.2.symm, Function.update_self, smul_eq_mul]
      have : x < 0 := by by_contra hn; exact absurd hx (not_lt.2 (mul_nonneg hcp.le (not_lt.1 hn)))
      rw [abs_of_neg this]; ring
    · rw [if_neg hx]
      simp only [Pi.smul_apply, Function.update_of_ne h3.symm, Function.update_of_ne hpiv.1.symm,
        Function.update_of_ne hpiv.2.1.symm, Function.update_of_ne hpiv.2.2.symm, Function.update_self, smul_eq_mul]
      have : 0 ≤ x := by by_contra hn; exact hx (mul_neg_of_pos_of_neg hcp (not_le.1 hn))
      rw [abs_of_nonneg this]
  · simp [if_neg hpos] at h

/-- For the half turn about `z` the faster algorithm finds the identity, and for the half turn about `x` it fails. -/
theorem C118_precise_wrong (eigh : Mat 4 → Vec 4 × Mat 4) (empty : Vec 4) (M N : Mat 4)
    (hM : Turns M !![-1, 0, 0; 0, -1, 0; 0, 0, 1]) (hN : Turns N !![1, 0, 0; 0, -1, 0; 0, 0, -1]) :
    (∃ q, fromMatrix eigh empty M true = some q ∧ q 1 = 0 ∧ q 2 = 0 ∧ q 3 = 0 ∧ quaternionMatrix q = 1) ∧
      fromMatrix eigh empty N true = none := by
  rw [turns_iff] at hM hN
  subst hM hN
  constructor
  · have hz : ∀ q : Vec 4, q 1 = 0 → q 2 = 0 → q 3 = 0 → quaternionMatrix q = 1 := by
      intro q h1 h2 h3
      by_cases h : q ⬝ᵥ q < (2 : ℝ) ^ (-50 : ℤ)
      · exact C118_tiny q h
      · have hle := not_lt.1 h
        rw [← eps_val] at hle
        have hp : 0 < q ⬝ᵥ q := lt_of_lt_of_le eps_pos hle
        have hn := dot4 q q
        rw [h1, h2, h3] at hn
        rw [matrix_eq q hle, ← homogeneous_one]
        congr 1
        rw [hn] at hp ⊢
        have : q 0 ≠ 0 := by intro h0; rw [h0] at hp; simp at hp
        ext i j
        fin_cases i <;> fin_cases j <;> simp [wide, h1, h2, h3] <;> field_simp
    refine ⟨positive ((0.5 / Real.sqrt 2) •
      Function.update (Function.update (Function.update (Function.update empty 3 2) 1 0) 2 0) 3 0), ?_, ?_, ?_, ?_, hz _ ?_ ?_ ?_⟩
    · have ht : ¬ (homogeneous !![-1, 0, 0; 0, -1, 0; 0, 0, 1]).trace > homogeneous !![-1, 0, 0; 0, -1, 0; 0, 0, 1] 3 3 := by
        rw [trace_homogeneous]; simp [gramOf, homogeneous]
      have hp : pivot (homogeneous !![-1, 0, 0; 0, -1, 0; 0, 0, 1]) = (3, 1, 2) := by
        unfold pivot
        simp [homogeneous]
      unfold fromMatrix fromPrecise
      rw [if_pos rfl]
      simp only [if_neg ht, hp]
      unfold scaleRoot
      have h2 : (1 : ℝ) + 1 = 2 := by norm_num
      simp [homogeneous, h2]
    all_goals
      unfold positive
      split <;> simp [Function.update]
  · have ht : ¬ (homogeneous !![1, 0, 0; 0, -1, 0; 0, 0, -1]).trace > homogeneous !![1, 0, 0; 0, -1, 0; 0, 0, -1] 3 3 := by
      rw [trace_homogeneous]; simp [gramOf, homogeneous]
    have hp : pivot (homogeneous !![1, 0, 0; 0, -1, 0; 0, 0, -1]) = (1, 2, 3) := by
      unfold pivot
      have h1 : ¬ (-1 : ℝ) > 1 := by norm_num
      simp [homogeneous, h1]
    unfold fromMatrix fromPrecise
    rw [if_pos rfl]
    simp only [if_neg ht, hp]
    unfold scaleRoot
    simp [homogeneous]

theorem same_unit {p q : Vec 4} (hp : p ⬝ᵥ p = 1) (hq : q ⬝ᵥ q = 1) (h : quaternionMatrix p = quaternionMatrix q) (hp0 : 0 ≤ p 0)
    (hq0 : 0 < q 0) : p = q := by
  obtain ⟨s, hs, rfl⟩ := (C118_same p q (by rw [hp]; norm_num) (by rw [hq]; norm_num)).1 h
  rw [smul_dotProduct, dotProduct_smul, hq, smul_eq_mul, smul_eq_mul, mul_one] at hp
  rw [Pi.smul_apply, smul_eq_mul] at hp0
  have : 0 ≤ s := by
    by_contra hn
    exact absurd hp0 (not_le.2 (mul_neg_of_neg_of_pos (not_le.1 hn) hq0))
  have : s = 1 := by nlinarith
  rw [this, one_smul]

/-- A unit quaternion with a positive first entry comes back from its matrix; one of more than a quarter of a turn only from
the slower algorithm. -/
theorem C118_round (eigh : Mat 4 → Vec 4 × Mat 4) (he : ∀ K, IsEigh K (eigh K).1 (eigh K).2) (empty q : Vec 4)
    (hq : q ⬝ᵥ q = 1) (h0 : 0 < q 0) :
    fromMatrix eigh empty (quaternionMatrix q) false = some q ∧
      (1 < 4 * q 0 ^ 2 → fromMatrix eigh empty (quaternionMatrix q) true = some q) := by
  have hw := wide_rot q (by rw [hq]; norm_num)
  rw [hq, inv_one, one_smul] at hw
  have hm : quaternionMatrix q = homogeneous (wide q) := unit_matrix hq rfl
  constructor
  · obtain ⟨p, h1, h2, h3, h4⟩ := C118_from_matrix eigh he empty _ _ ((turns_iff _ _).2 hm) hw
    rw [h1, same_unit h2 hq h4 h3 h0]
  · intro h
    obtain ⟨p, h1, h2, h3, h4⟩ := C118_precise eigh empty _ _ ((turns_iff _ _).2 hm) hw (by
      rw [dot4] at hq
      simp [wide]
      nlinarith)
    rw [h1, same_unit h2 hq h4 h3.le h0]

/-! ### Quaternions of turns -/

/-- The quaternion of a turn about an axis is a unit quaternion, whose matrix is the one of `rotation_matrix`. -/
theorem C118_axis (angle : ℝ) (axis : Vec 3) (h : Real.sqrt (axis ⬝ᵥ axis) > (2 : ℝ) ^ (-50 : ℤ)) :
    aboutAxis angle axis ⬝ᵥ aboutAxis angle axis = 1 ∧
      Turns (quaternionMatrix (aboutAxis angle axis)) (rotationMatrix angle axis) := by
  rw [← eps_val] at h
  obtain ⟨n, hn⟩ : ∃ n, n = Real.sqrt (axis ⬝ᵥ axis) := ⟨_, rfl⟩
  have hn' : AlignPrior.norm axis = n := hn.symm
  have hp : 0 < n := by rw [hn]; exact lt_trans eps_pos h
  have hsq : n ^ 2 = axis 0 * axis 0 + axis 1 * axis 1 + axis 2 * axis 2 := by
    rw [hn, Real.sq_sqrt (by simp [dotProduct, Fin.sum_univ_three]; nlinarith [mul_self_nonneg (axis 0), mul_self_nonneg (axis 1), mul_self_nonneg (axis 2)])]
    simp [dotProduct, Fin.sum_univ_three]
  rw [← hn] at h
  have hq : aboutAxis angle axis = ![Real.cos (angle / 2), Real.sin (angle / 2) / n * axis 0, Real.sin (angle / 2) / n * axis 1,
      Real.sin (angle / 2) / n * axis 2] := by
    unfold aboutAxis
    simp only [hn', if_pos h]
    rfl
  have hcs := Real.cos_sq_add_sin_sq (angle / 2)
  obtain ⟨c, hc⟩ : ∃ c, c = Real.cos (angle / 2) := ⟨_, rfl⟩
  obtain ⟨s, hs⟩ : ∃ s, s = Real.sin (angle / 2) := ⟨_, rfl⟩
  have e1 : Real.cos angle = 2 * c ^ 2 - 1 := by
    rw [hc, ← Real.cos_two_mul]; congr 1; ring
  have e2 : Real.sin angle = 2 * s * c := by
    rw [hc, hs, ← Real.sin_two_mul]; congr 1; ring
  rw [← hc, ← hs] at hcs hq
  have hu : aboutAxis angle axis ⬝ᵥ aboutAxis angle axis = 1 := by
    rw [hq, dot4]
    simp
    field_simp
    linear_combination n ^ 2 * hcs - s ^ 2 * hsq
  refine ⟨hu, ?_⟩
  rw [turns_iff]
  apply unit_matrix hu
  rw [hq, mat_eta (rotationMatrix angle axis)]
  unfold wide rotationMatrix
  simp only [hn', e1, e2]
  apply lit_congr <;> simp [vecMulVec_apply, diagonal] <;> field_simp
  · linear_combination (2 * axis 0 ^ 2 - n ^ 2) * hcs + (s ^ 2) * hsq
  · linear_combination (2 * axis 0 * axis 1) * hcs
  · linear_combination (2 * axis 0 * axis 2) * hcs
  · linear_combination (2 * axis 0 * axis 1) * hcs
  · linear_combination (2 * axis 1 ^ 2 - n ^ 2) * hcs + (s ^ 2) * hsq
  · linear_combination (2 * axis 1 * axis 2) * hcs
  · linear_combination (2 * axis 0 * axis 2) * hcs
  · linear_combination (2 * axis 1 * axis 2) * hcs
  · linear_combination (2 * axis 2 ^ 2 - n ^ 2) * hcs + (s ^ 2) * hsq

/-- An axis that is too short is taken as it is, whatever the angle. -/
theorem C118_axis_short (angle : ℝ) (axis : Vec 3) (h : Real.sqrt (axis ⬝ᵥ axis) ≤ (2 : ℝ) ^ (-50 : ℤ)) :
    aboutAxis angle axis = ![Real.cos (angle / 2), axis 0, axis 1, axis 2] := by
  rw [← eps_val] at h
  unfold aboutAxis
  have hn : ¬ AlignPrior.norm axis > eps := not_lt.2 h
  simp only [if_neg hn]

/-- The quaternion of a turn about one of the axes. -/
noncomputable def half (i : Fin 3) (t : ℝ) : Vec 4 :=
  match i with
  | 0 => ![Real.cos (t / 2), Real.sin (t / 2), 0, 0]
  | 1 => ![Real.cos (t / 2), 0, Real.sin (t / 2), 0]
  | 2 => ![Real.cos (t / 2), 0, 0, Real.sin (t / 2)]

theorem half_unit (i : Fin 3) (t : ℝ) : half i t ⬝ᵥ half i t = 1 := by
  have := Real.cos_sq_add_sin_sq (t / 2)
  rw [dot4]
  fin_cases i <;> simp [half] <;> linarith

theorem half_turn (i : Fin 3) (t : ℝ) : wide (half i t) = turn i t := by
  have hcs := Real.cos_sq_add_sin_sq (t / 2)
  have e1 : Real.cos t = 2 * Real.cos (t / 2) ^ 2 - 1 := by
    rw [← Real.cos_two_mul]; congr 1; ring
  have e2 : Real.sin t = 2 * Real.sin (t / 2) * Real.cos (t / 2) := by
    rw [← Real.sin_two_mul]; congr 1; ring
  unfold wide
  fin_cases i <;> simp only [turn, half, e1, e2] <;> apply lit_congr <;> simp <;> linarith

theorem fromEuler_static (f : Fin 3) (p r : Bool) (x y z : ℝ) :
    fromEuler x y z ⟨f, p, r, false⟩ =
      multiply (multiply (half (if r then f else (Axes.third ⟨f, p, r, false⟩)) z) (half (Axes.second ⟨f, p, r, false⟩) y))
        (half f x) := by
  unfold fromEuler eulerHalf
  cases p <;> cases r <;> fin_cases f <;>
    simp only [Bool.false_eq_true, if_false, if_true, Fin.zero_eta, Fin.mk_one, Fin.reduceFinMk, Real.cos_neg, Real.sin_neg,
      Axes.second, Axes.third, nextAxis, neg_div] <;>
    simp only [Fin.val_zero, Fin.val_one, Fin.val_two, Nat.reduceAdd, Nat.reduceEqDiff, Nat.reduceSub, if_false, if_true,
      OfNat.ofNat_ne_zero, one_ne_zero, zero_ne_one, OfNat.ofNat_eq_ofNat, half, multiply, slot] <;>
    apply vec4_ext <;> simp <;> ring

theorem fromEuler_rotating (f : Fin 3) (p r : Bool) (x y z : ℝ) :
    fromEuler x y z ⟨f, p, r, true⟩ = fromEuler z y x ⟨f, p, r, false⟩ := rfl

/-- The quaternion of three angles is a unit quaternion with the matrix of the turns that the letters of the axes name. -/
theorem C118_euler (name : String) (a : Axes) (h : axesOf name = some a) (x y z : ℝ) :
    fromEuler x y z a ⬝ᵥ fromEuler x y z a = 1 ∧ Turns (quaternionMatrix (fromEuler x y z a)) (spelled name x y z) := by
  rw [← C106_euler_names name a h]
  obtain ⟨f, p, r, fr⟩ := a
  have key : ∀ x y z : ℝ, fromEuler x y z ⟨f, p, r, false⟩ ⬝ᵥ fromEuler x y z ⟨f, p, r, false⟩ = 1 ∧
      wide (fromEuler x y z ⟨f, p, r, false⟩) = eulerMatrix x y z ⟨f, p, r, false⟩ := by
    intro x y z
    rw [fromEuler_static, euler_static, norm_mul, norm_mul, wide_mul, wide_mul]
    simp only [half_unit, half_turn, mul_one, and_self]
  have key2 : fromEuler x y z ⟨f, p, r, fr⟩ ⬝ᵥ fromEuler x y z ⟨f, p, r, fr⟩ = 1 ∧
      wide (fromEuler x y z ⟨f, p, r, fr⟩) = eulerMatrix x y z ⟨f, p, r, fr⟩ := by
    cases fr
    · exact key x y z
    · have := key z y x
      exact this
  exact ⟨key2.1, (turns_iff _ _).2 (unit_matrix key2.1 key2.2)⟩

/-- The angles of a quaternion name its matrix, away from gimbal lock or exactly in it. -/
theorem C118_euler_angles (name : String) (a : Axes) (h : axesOf name = some a) (q : Vec 4)
    (hq : (2 : ℝ) ^ (-50 : ℤ) ≤ q ⬝ᵥ q) (R : Mat 3) (hR : Turns (quaternionMatrix q) R)
    (hl : lockEntry name R ^ 2 = 1 ∨ Real.sqrt (1 - lockEntry name R ^ 2) > (2 : ℝ) ^ (-50 : ℤ)) (x y z : ℝ)
    (e : eulerFromQuaternion q a = (x, y, z)) : spelled name x y z = R := by
  obtain ⟨R', h1, h2, -⟩ := C118_matrix q hq
  rw [turns_iff] at hR h1
  have : R = R' := homogeneous_inj (hR.symm.trans h1)
  subst this
  unfold eulerFromQuaternion at e
  rw [hR, block_homogeneous] at e
  exact C106_euler_inverse name a h R h2 hl x y z e

/-! ### Interpolation -/

theorem unitVector_unit (q : Vec 4) (h : q ≠ 0) : unitVector q ⬝ᵥ unitVector q = 1 := by
  have hp : 0 < q ⬝ᵥ q := by
    have h0 : 0 ≤ q ⬝ᵥ q := by rw [dot4]; nlinarith [mul_self_nonneg (q 0), mul_self_nonneg (q 1), mul_self_nonneg (q 2), mul_self_nonneg (q 3)]
    rcases h0.lt_or_eq with h1 | h1
    · exact h1
    · exact absurd (dotProduct_self_eq_zero.1 h1.symm) h
  unfold unitVector
  rw [smul_dotProduct, dotProduct_smul, smul_eq_mul, smul_eq_mul]
  have h1 := Real.mul_self_sqrt hp.le
  have h2 := Real.sqrt_pos.2 hp
  field_simp
  linarith

theorem unitVector_of_unit (q : Vec 4) (h : q ⬝ᵥ q = 1) : unitVector q = q := by
  unfold unitVector
  rw [h, Real.sqrt_one, div_one, one_smul]

theorem unit_dot_le {a b : Vec 4} (ha : a ⬝ᵥ a = 1) (hb : b ⬝ᵥ b = 1) : |a ⬝ᵥ b| ≤ 1 := by
  rw [dot4] at ha hb ⊢
  rw [abs_le]
  constructor
  · nlinarith [sq_nonneg (a 0 + b 0), sq_nonneg (a 1 + b 1), sq_nonneg (a 2 + b 2), sq_nonneg (a 3 + b 3)]
  · nlinarith [sq_nonneg (a 0 - b 0), sq_nonneg (a 1 - b 1), sq_nonneg (a 2 - b 2), sq_nonneg (a 3 - b 3)]

/-- At 0 and at 1 the interpolation is at the first and at the second quaternion, brought to unit length, whatever the number
of extra half turns. -/
theorem C118_slerp_ends (p q : Vec 4) (spin : ℤ) (shortest : Bool) :
    slerp p q 0 spin shortest = (1 / Real.sqrt (p ⬝ᵥ p)) • p ∧ slerp p q 1 spin shortest = (1 / Real.sqrt (q ⬝ᵥ q)) • q := by
  unfold slerp
  constructor
  · rw [if_pos rfl]; rfl
  · rw [if_neg one_ne_zero, if_pos rfl]; rfl

theorem angle_guard {d θ : ℝ} (h : |d| ≤ 1 - eps) (hc : |Real.cos θ| = |d|) : ¬ |θ| < eps ∧ Real.sin θ ≠ 0 := by
  have he := eps_pos
  have he1 := eps_lt_one
  constructor
  · intro ht
    have h1 := Real.one_sub_sq_div_two_le_cos (x := θ)
    have h2 : θ ^ 2 < eps ^ 2 := sq_lt_sq' (abs_lt.1 ht).1 (abs_lt.1 ht).2
    have h3 : Real.cos θ ≤ |d| := by rw [← hc]; exact le_abs_self _
    nlinarith
  · intro hs
    have h1 := Real.cos_sq_add_sin_sq θ
    rw [hs, ← sq_abs, hc] at h1
    have h2 := abs_nonneg d
    nlinarith

theorem slerp_step (a b : Vec 4) (f : ℝ) (spin : ℤ) (shortest : Bool) (ha : a ⬝ᵥ a = 1) (hb : b ⬝ᵥ b = 1) (h0 : f ≠ 0)
    (h1 : f ≠ 1) (hd : |a ⬝ᵥ b| ≤ 1 - eps) (c : Vec 4) (hc : c = if shortest = true ∧ a ⬝ᵥ b < 0 then -b else b) :
    slerp a b f spin shortest = combine a c f (Real.arccos (a ⬝ᵥ c) + spin * Real.pi) ∧ c ⬝ᵥ c = 1 ∧ |a ⬝ᵥ c| ≤ 1 - eps ∧
      Real.cos (Real.arccos (a ⬝ᵥ c)) = a ⬝ᵥ c := by
  have hcc : c ⬝ᵥ c = 1 := by rw [hc]; split <;> simp [hb]
  have hac : |a ⬝ᵥ c| = |a ⬝ᵥ b| := by rw [hc]; split <;> simp
  have hle := unit_dot_le ha hcc
  have hcos : Real.cos (Real.arccos (a ⬝ᵥ c)) = a ⬝ᵥ c := Real.cos_arccos (abs_le.1 hle).1 (abs_le.1 hle).2
  refine ⟨?_, hcc, by rw [hac]; exact hd, hcos⟩
  have hflat : ¬ |(|a ⬝ᵥ b| - 1)| < eps := by
    have := neg_abs_le (|a ⬝ᵥ b| - 1)
    intro h
    linarith
  have hab : (if shortest = true ∧ a ⬝ᵥ b < 0 then -(a ⬝ᵥ b) else a ⬝ᵥ b) = a ⬝ᵥ c := by
    rw [hc]; split <;> simp
  have hg := (angle_guard (θ := Real.arccos (a ⬝ᵥ c) + spin * Real.pi) hd (by
    rw [Real.cos_add_int_mul_pi, hcos, abs_mul, hac]
    rcases Int.even_or_odd spin with h | h
    · rw [h.neg_one_zpow]; simp
    · rw [h.neg_one_zpow]; simp)).1
  unfold slerp
  simp only [unitVector_of_unit a ha, unitVector_of_unit b hb, if_neg h0, if_neg h1, if_neg hflat, hab, ← hc, if_neg hg]

/-- Between two unit quaternions that are not parallel the interpolation is a unit quaternion in their plane, at the fraction
of the angle between them from the first one; with an even number of extra half turns it goes around as many times. -/
theorem C118_slerp (a b : Vec 4) (f : ℝ) (turns : ℤ) (shortest : Bool) (ha : a ⬝ᵥ a = 1) (hb : b ⬝ᵥ b = 1) (h0 : f ≠ 0)
    (h1 : f ≠ 1) (hd : |a ⬝ᵥ b| ≤ 1 - (2 : ℝ) ^ (-50 : ℤ)) (c : Vec 4)
    (hc : c = if shortest = true ∧ a ⬝ᵥ b < 0 then -b else b) (θ : ℝ)
    (hθ : θ = Real.arccos (a ⬝ᵥ c) + turns * (2 * Real.pi)) (q : Vec 4) (hq : q = slerp a b f (2 * turns) shortest) :
    q ⬝ᵥ q = 1 ∧ a ⬝ᵥ q = Real.cos (f * θ) ∧ c ⬝ᵥ q = Real.cos ((1 - f) * θ) ∧ (∃ x y : ℝ, q = x • a + y • c) ∧
      (shortest = true → 0 ≤ Real.arccos (a ⬝ᵥ c) ∧ Real.arccos (a ⬝ᵥ c) ≤ Real.pi / 2) := by
  rw [← eps_val] at hd
  obtain ⟨e, hcc, hac, hcos⟩ := slerp_step a b f (2 * turns) shortest ha hb h0 h1 hd c hc
  have hth : Real.arccos (a ⬝ᵥ c) + ((2 * turns : ℤ) : ℝ) * Real.pi = θ := by
    rw [hθ]; push_cast; ring
  rw [hth, ← hq] at e
  have hct : Real.cos θ = a ⬝ᵥ c := by rw [hθ, Real.cos_add_int_mul_two_pi, hcos]
  have hs := (angle_guard (θ := θ) hac (by rw [hct])).2
  have s1 : Real.sin ((1 - f) * θ) = Real.sin θ * Real.cos (f * θ) - Real.cos θ * Real.sin (f * θ) := by
    rw [← Real.sin_sub]; congr 1; ring
  have s2 : Real.sin (f * θ) = Real.sin θ * Real.cos ((1 - f) * θ) - Real.cos θ * Real.sin ((1 - f) * θ) := by
    rw [← Real.sin_sub]; congr 1; ring
  have s3 : Real.sin ((1 - f) * θ) * Real.cos (f * θ) + Real.cos ((1 - f) * θ) * Real.sin (f * θ) = Real.sin θ := by
    rw [← Real.sin_add]; congr 1; ring
  have ea : a ⬝ᵥ q = Real.cos (f * θ) := by
    rw [e]
    unfold combine
    rw [dotProduct_add, dotProduct_smul, dotProduct_smul, ha, ← hct, smul_eq_mul, smul_eq_mul]
    field_simp
    linear_combination s1
  have ec : c ⬝ᵥ q = Real.cos ((1 - f) * θ) := by
    rw [e]
    unfold combine
    rw [dotProduct_add, dotProduct_smul, dotProduct_smul, hcc, dotProduct_comm c a, ← hct, smul_eq_mul, smul_eq_mul]
    field_simp
    linear_combination s2
  refine ⟨?_, ea, ec, ⟨_, _, e⟩, ?_⟩
  · have hv : ∀ v : Vec 4, q ⬝ᵥ v = (Real.sin ((1 - f) * θ) * (1 / Real.sin θ)) * (a ⬝ᵥ v) +
        (Real.sin (f * θ) * (1 / Real.sin θ)) * (c ⬝ᵥ v) := by
      intro v
      rw [e]
      unfold combine
      rw [add_dotProduct, smul_dotProduct, smul_dotProduct, smul_eq_mul, smul_eq_mul]
    have := hv q
    rw [this, ea, ec]
    field_simp
    linear_combination s3
  · intro hsh
    refine ⟨Real.arccos_nonneg _, ?_⟩
    rw [Real.arccos_le_pi_div_two]
    rw [hc]
    by_cases h : a ⬝ᵥ b < 0
    · rw [if_pos ⟨hsh, h⟩, dotProduct_neg]; linarith
    · rw [if_neg (fun hh => h hh.2)]; exact not_lt.1 h

/-- With one extra half turn the interpolation is not a unit quaternion: half way between two unit quaternions at an acute
angle it is longer. -/
theorem C118_slerp_half_turn (a b : Vec 4) (shortest : Bool) (ha : a ⬝ᵥ a = 1) (hb : b ⬝ᵥ b = 1) (h0 : 0 < a ⬝ᵥ b)
    (hd : a ⬝ᵥ b ≤ 1 - (2 : ℝ) ^ (-50 : ℤ)) (q : Vec 4) (hq : q = slerp a b (1 / 2) 1 shortest) :
    q ⬝ᵥ q = (1 + a ⬝ᵥ b) / (1 - a ⬝ᵥ b) ∧ 1 < q ⬝ᵥ q := by
  rw [← eps_val] at hd
  have hc : b = if shortest = true ∧ a ⬝ᵥ b < 0 then -b else b := by
    rw [if_neg (fun h => absurd h.2 (not_lt.2 h0.le))]
  obtain ⟨e, hcc, hac, hcos⟩ := slerp_step a b (1 / 2) 1 shortest ha hb (by norm_num) (by norm_num) (by rw [abs_of_pos h0]; exact hd) b hc
  obtain ⟨d, hdd⟩ : ∃ d, d = a ⬝ᵥ b := ⟨_, rfl⟩
  rw [← hdd] at e hac hcos hd h0 ⊢
  obtain ⟨t, ht⟩ : ∃ t, t = Real.arccos d := ⟨_, rfl⟩
  rw [← ht] at e hcos
  have h1d : 0 < 1 - d := by have := eps_pos; linarith
  have e1 : Real.sin ((1 - 1 / 2) * (t + ((1 : ℤ) : ℝ) * Real.pi)) = Real.cos (t / 2) := by
    rw [show (1 - 1 / 2) * (t + ((1 : ℤ) : ℝ) * Real.pi) = t / 2 + Real.pi / 2 by push_cast; ring, Real.sin_add_pi_div_two]
  have e2 : Real.sin (1 / 2 * (t + ((1 : ℤ) : ℝ) * Real.pi)) = Real.cos (t / 2) := by
    rw [show 1 / 2 * (t + ((1 : ℤ) : ℝ) * Real.pi) = t / 2 + Real.pi / 2 by push_cast; ring, Real.sin_add_pi_div_two]
  have e3 : Real.sin (t + ((1 : ℤ) : ℝ) * Real.pi) = -Real.sin t := by
    rw [show t + ((1 : ℤ) : ℝ) * Real.pi = t + Real.pi by push_cast; ring, Real.sin_add_pi]
  have e4 : Real.cos (t / 2) ^ 2 = (1 + d) / 2 := by
    rw [Real.cos_sq, show 2 * (t / 2) = t by ring, hcos]; ring
  have e5 : Real.sin t ^ 2 = 1 - d ^ 2 := by
    rw [Real.sin_sq, hcos]
  have hs : Real.sin t ≠ 0 := by
    intro h
    rw [h] at e5
    nlinarith
  have hv : q ⬝ᵥ q = (1 + d) / (1 - d) := by
    rw [hq, e]
    unfold combine
    simp only [e1, e2, e3]
    rw [add_dotProduct, dotProduct_add, dotProduct_add, smul_dotProduct, smul_dotProduct, smul_dotProduct, smul_dotProduct,
      dotProduct_smul, dotProduct_smul, dotProduct_smul, dotProduct_smul, ha, hb, dotProduct_comm b a, ← hdd]
    simp only [smul_eq_mul]
    rw [eq_div_iff h1d.ne']
    field_simp
    rw [e4, e5]
    ring
  refine ⟨hv, ?_⟩
  rw [hv, lt_div_iff₀ h1d]
  linarith

/-- Between quaternions that are parallel, or opposite, the interpolation stays at the first one. -/
theorem C118_slerp_parallel (a b : Vec 4) (f : ℝ) (spin : ℤ) (shortest : Bool) (ha : a ⬝ᵥ a = 1) (hb : b ⬝ᵥ b = 1)
    (h1 : f ≠ 1) (hd : 1 - (2 : ℝ) ^ (-50 : ℤ) < |a ⬝ᵥ b|) : slerp a b f spin shortest = a := by
  rw [← eps_val] at hd
  have hle := unit_dot_le ha hb
  have hflat : |(|a ⬝ᵥ b| - 1)| < eps := by
    rw [abs_lt]; constructor <;> linarith [eps_pos]
  unfold slerp
  simp only [unitVector_of_unit a ha, unitVector_of_unit b hb, if_neg h1, hflat, if_true, ite_self]

/-- Only the direction of the two quaternions matters, and along the shorter way not the sign of the second one. -/
theorem C118_slerp_sign (p q : Vec 4) (f : ℝ) (spin : ℤ) (shortest : Bool) (s t : ℝ) (hs : 0 < s) (ht : 0 < t) (hp : p ≠ 0)
    (hq : q ≠ 0) :
    slerp (s • p) (t • q) f spin shortest = slerp p q f spin shortest ∧
      (f ≠ 1 → p ⬝ᵥ q ≠ 0 → slerp p (-q) f spin true = slerp p q f spin true) := by
  have hu : ∀ (s : ℝ) (p : Vec 4), 0 < s → unitVector (s • p) = unitVector p := by
    intro s p hs
    unfold unitVector
    rw [smul_dotProduct, dotProduct_smul, smul_smul, smul_eq_mul, smul_eq_mul, ← mul_assoc, Real.sqrt_mul (by positivity),
      Real.sqrt_mul_self hs.le]
    congr 1
    rw [one_div, mul_inv, one_div]
    field_simp
  constructor
  · unfold slerp
    rw [hu s p hs, hu t q ht]
  · intro h1 hpq
    have hn : unitVector (-q) = -unitVector q := by
      unfold unitVector
      rw [neg_dotProduct, dotProduct_neg, neg_neg, smul_neg]
    have hne : unitVector p ⬝ᵥ unitVector q ≠ 0 := by
      have e1 := unitVector_unit p hp
      have e2 := unitVector_unit q hq
      unfold unitVector at e1 e2 ⊢
      rw [smul_dotProduct, dotProduct_smul, smul_eq_mul, smul_eq_mul] at e1 e2 ⊢
      refine mul_ne_zero ?_ (mul_ne_zero ?_ hpq)
      · intro h; rw [h] at e1; simp at e1
      · intro h; rw [h] at e2; simp at e2
    unfold slerp
    rw [hn]
    obtain ⟨a, ha⟩ : ∃ a, a = unitVector p := ⟨_, rfl⟩
    obtain ⟨b, hb⟩ : ∃ b, b = unitVector q := ⟨_, rfl⟩
    rw [← ha, ← hb] at hne ⊢
    simp only [dotProduct_neg, abs_neg, true_and, if_neg h1]
    rcases lt_or_gt_of_ne hne with h | h
    · have h2 : ¬ (-(a ⬝ᵥ b) < 0) := by linarith
      simp only [if_pos h, if_neg h2]
    · have h2 : -(a ⬝ᵥ b) < 0 := by linarith
      have h3 : ¬ (a ⬝ᵥ b < 0) := by linarith
      simp only [if_pos h2, if_neg h3, neg_neg]

/-! ### Random quaternions -/

/-- Three numbers, the first of them between 0 and 1, give a unit quaternion and a rotation. -/
theorem C118_random (rand : Vec 3) (h0 : 0 ≤ rand 0) (h1 : rand 0 ≤ 1) :
    randomQuaternion rand ⬝ᵥ randomQuaternion rand = 1 ∧
      ∃ R, Turns (randomRotationMatrix rand) R ∧ Turns (quaternionMatrix (randomQuaternion rand)) R ∧ IsRot R := by
  have hu : randomQuaternion rand ⬝ᵥ randomQuaternion rand = 1 := by
    unfold randomQuaternion
    rw [dot4]
    simp only [cons_val]
    have e1 := Real.mul_self_sqrt h0
    have e2 := Real.mul_self_sqrt (sub_nonneg.2 h1)
    have e3 := Real.cos_sq_add_sin_sq (Real.pi * 2 * rand 1)
    have e4 := Real.cos_sq_add_sin_sq (Real.pi * 2 * rand 2)
    linear_combination (Real.sqrt (rand 0) * Real.sqrt (rand 0)) * e4 + (Real.sqrt (1 - rand 0) * Real.sqrt (1 - rand 0)) * e3 + e1 + e2
  refine ⟨hu, ?_⟩
  obtain ⟨R, h1, h2, -⟩ := C118_matrix (randomQuaternion rand) (by rw [hu]; norm_num)
  exact ⟨R, h1, h1, h2⟩

/-- Every unit quaternion, that is every rotation, can come out of the random numbers. -/
theorem C118_random_all (q : Vec 4) (hq : q ⬝ᵥ q = 1) :
    ∃ rand : Vec 3, (∀ i, 0 ≤ rand i ∧ rand i ≤ 1) ∧ randomQuaternion rand = q := by
  rw [dot4] at hq
  have hpi := Real.pi_pos
  have h0 : 0 ≤ q 0 ^ 2 + q 3 ^ 2 := by positivity
  have h1 : 0 ≤ q 2 ^ 2 + q 1 ^ 2 := by positivity
  refine ⟨![q 0 ^ 2 + q 3 ^ 2, Int.fract (Verif.Geo.arctan2 (q 1) (q 2) / (Real.pi * 2)),
    Int.fract (Verif.Geo.arctan2 (q 3) (q 0) / (Real.pi * 2))], ?_, ?_⟩
  · intro i
    fin_cases i
    · constructor
      · exact h0
      · show q 0 ^ 2 + q 3 ^ 2 ≤ 1
        nlinarith
    · exact ⟨Int.fract_nonneg _, (Int.fract_lt_one _).le⟩
    · exact ⟨Int.fract_nonneg _, (Int.fract_lt_one _).le⟩
  · have e : ∀ x : ℝ, Real.pi * 2 * Int.fract (x / (Real.pi * 2)) = x - (⌊x / (Real.pi * 2)⌋ : ℤ) * (2 * Real.pi) := by
      intro x
      unfold Int.fract
      field_simp
    unfold randomQuaternion
    simp only [cons_val, e, Real.cos_sub_int_mul_two_pi, Real.sin_sub_int_mul_two_pi]
    rw [show 1 - (q 0 ^ 2 + q 3 ^ 2) = q 2 ^ 2 + q 1 ^ 2 by linarith]
    have a1 := Geo.cos_arctan2 (q 2) (q 1)
    have a2 := Geo.sin_arctan2 (q 2) (q 1)
    have a3 := Geo.cos_arctan2 (q 0) (q 3)
    have a4 := Geo.sin_arctan2 (q 0) (q 3)
    apply vec4_ext <;> simp only [cons_val] <;> rw [mul_comm] <;> assumption

/-! ### Examples -/

/-- A quaternion with a matrix. -/
example : (2 : ℝ) ^ (-50 : ℤ) ≤ (![1, 2, 3, 4] : Vec 4) ⬝ᵥ ![1, 2, 3, 4] := by rw [dot4]; simp; norm_num

/-- A tiny quaternion. -/
example : (![0, (2 : ℝ) ^ (-26 : ℤ), 0, 0] : Vec 4) ⬝ᵥ ![0, (2 : ℝ) ^ (-26 : ℤ), 0, 0] < (2 : ℝ) ^ (-50 : ℤ) := by
  rw [dot4]; simp; norm_num

/-- Two different quaternions of one rotation. -/
example : quaternionMatrix ![1, 2, 3, 4] = quaternionMatrix ![-2, -4, -6, -8] := by
  rw [C118_same _ _ (by rw [dot4]; simp; norm_num) (by rw [dot4]; simp; norm_num)]
  refine ⟨-1 / 2, by norm_num, ?_⟩
  apply vec4_ext <;> simp <;> norm_num

/-- A rotation for the slower algorithm, that the faster one does not know. -/
example : Turns (homogeneous (turn 2 Real.pi)) (turn 2 Real.pi) ∧ IsRot (turn 2 Real.pi) ∧
    turn 2 Real.pi 0 0 + turn 2 Real.pi 1 1 + turn 2 Real.pi 2 2 ≤ 0 := by
  refine ⟨(turns_iff _ _).2 rfl, turn_rot _ _, ?_⟩
  simp [turn]

/-- A rotation for both. -/
example : 0 < turn 2 (Real.pi / 2) 0 0 + turn 2 (Real.pi / 2) 1 1 + turn 2 (Real.pi / 2) 2 2 := by simp [turn]

/-- Two unit quaternions to go between. -/
example : (![1, 0, 0, 0] : Vec 4) ⬝ᵥ ![1, 0, 0, 0] = 1 ∧ (![3 / 5, 4 / 5, 0, 0] : Vec 4) ⬝ᵥ ![3 / 5, 4 / 5, 0, 0] = 1 ∧
    (![1, 0, 0, 0] : Vec 4) ⬝ᵥ ![3 / 5, 4 / 5, 0, 0] = 3 / 5 := by
  refine ⟨?_, ?_, ?_⟩ <;> rw [dot4] <;> simp <;> norm_num

/-- Half way between them. -/
example (q : Vec 4) (hq : q = slerp ![1, 0, 0, 0] ![3 / 5, 4 / 5, 0, 0] (1 / 2) 1 true) : q ⬝ᵥ q = 4 := by
  have hd : (![1, 0, 0, 0] : Vec 4) ⬝ᵥ ![3 / 5, 4 / 5, 0, 0] = 3 / 5 := by rw [dot4]; simp
  have := (C118_slerp_half_turn ![1, 0, 0, 0] ![3 / 5, 4 / 5, 0, 0] true (by rw [dot4]; simp) (by rw [dot4]; simp; norm_num)
    (by rw [hd]; norm_num) (by rw [hd]; norm_num) q hq).1
  rw [this, hd]; norm_num

end Verif.Quaternions
