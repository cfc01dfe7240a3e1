import Mathlib.Geometry.Euclidean.Angle.Unoriented.Basic
import Mathlib.Analysis.InnerProductSpace.PiL2
import Mathlib.LinearAlgebra.Matrix.Adjugate
import Mathlib.Analysis.InnerProductSpace.GramSchmidtOrtho
import Mathlib.Analysis.SpecialFunctions.Complex.Arg
import Mathlib.Topology.Order.Compact
import Mathlib.Tactic.FinCases
import Mathlib.Tactic.Linarith
import Mathlib.Tactic.FieldSimp
import Mathlib.Tactic.LinearCombination
import Mathlib.Tactic.NormNum
import Verif.Model.Factor
import Verif.Props.Superimpose

/-!
C121: the factorisations of camera matrices and homographies.
-/
set_option linter.unusedSectionVars false
set_option linter.unusedSimpArgs false
set_option linter.unusedVariables false
namespace Verif.Factor
open Matrix Verif.Superimpose

/-! ### Specification -/

/-- Zero below the diagonal. -/
def Upper (A : Mat 3) : Prop := ∀ i j, j < i → A i j = 0

/-- The promise of `numpy.linalg.qr`. -/
def IsQr (qr : Mat 3 → Mat 3 × Mat 3) : Prop :=
  ∀ A, (qr A).1ᵀ * (qr A).1 = 1 ∧ Upper (qr A).2 ∧ A = (qr A).1 * (qr A).2

/-- A calibration matrix: upper triangular, positive on the diagonal, one in the corner. -/
def IsCalib (K : Mat 3) : Prop := Upper K ∧ (∀ i, 0 < K i i) ∧ K 2 2 = 1

/-- The camera matrix `P` is, up to the factor `c`, that of a camera with calibration `K` at the pose `R, t`. -/
def Factors (P : Cam) (c : ℝ) (K R : Mat 3) (t : Vec 3) : Prop :=
  ∀ x : Vec 3, P *ᵥ ![x 0, x 1, x 2, 1] = c • (K *ᵥ (R *ᵥ x + t))

/-- The calibration matrix of a camera of focal length `f`. -/
def focalMatrix (f : ℝ) : Mat 3 := !![f, 0, 0; 0, f, 0; 0, 0, 1]

/-- The promise of the vector of the smallest singular value: of length one, made least by the matrix. -/
def IsSmallest (smallest : Matrix (Fin 6) (Fin 2) ℝ → Vec 2) : Prop :=
  ∀ A, smallest A ⬝ᵥ smallest A = 1 ∧
    ∀ w : Vec 2, w ⬝ᵥ w = 1 → (A *ᵥ smallest A) ⬝ᵥ (A *ᵥ smallest A) ≤ (A *ᵥ w) ⬝ᵥ (A *ᵥ w)

/-- Sum of the squares of the differences of the entries. -/
def sqDist (A B : Mat 3) : ℝ := ∑ i, ∑ j, (A i j - B i j) ^ 2

/-! ### Decomposition of a camera matrix -/

theorem rev_mul (A B : Mat 3) : (A.submatrix id Fin.rev) * (B.submatrix Fin.rev id) = A * B := by
  ext i j
  simp only [mul_apply, submatrix_apply, id]
  exact (Equiv.sum_comp (Fin.revPerm (n := 3)) (fun k => A i k * B k j))

/-- C121: the factorisation of a square matrix into a triangular and an orthogonal one. -/
theorem C121_rq {qr : Mat 3 → Mat 3 × Mat 3} (h : IsQr qr) (A : Mat 3) :
    A = (rq qr A).1 * (rq qr A).2 ∧ Upper (rq qr A).1 ∧ (rq qr A).2ᵀ * (rq qr A).2 = 1 := by
  obtain ⟨h1, h2, h3⟩ := h (flipud A)ᵀ
  unfold rq
  simp only
  generalize qr (flipud A)ᵀ = d at h1 h2 h3
  refine ⟨?_, ?_, ?_⟩
  · rw [rev_mul]
    have e : flipud A = d.2ᵀ * d.1ᵀ := by rw [← transpose_mul, ← h3, transpose_transpose]
    have e2 : flipud d.2ᵀ * d.1ᵀ = flipud (d.2ᵀ * d.1ᵀ) := rfl
    rw [e2, ← e]
    ext i j
    simp [flipud]
  · intro i j hij
    simp only [flipud, submatrix_apply, transpose_apply, id]
    refine h2 _ _ ?_
    rw [Fin.lt_def] at hij ⊢
    simp only [Fin.val_rev]
    omega
  · have e : (d.1ᵀ.submatrix Fin.rev id)ᵀ = d.1.submatrix id Fin.rev := by
      ext i j; rfl
    rw [e, rev_mul, mul_eq_one_comm]
    exact h1

theorem upper_det {K : Mat 3} (h : Upper K) : K.det = K 0 0 * K 1 1 * K 2 2 := by
  rw [det_fin_three, h 1 0 (by decide), h 2 0 (by decide), h 2 1 (by decide)]
  ring

theorem sq_inj {a b : ℝ} (ha : 0 < a) (hb : 0 < b) (h : a * a = b * b) : a = b := by
  nlinarith [mul_self_eq_mul_self_iff.1 h]

theorem upper_eq {K L : Mat 3} (hK : Upper K) (hL : Upper L) (pK : ∀ i, 0 < K i i) (pL : ∀ i, 0 < L i i)
    (e : K * Kᵀ = L * Lᵀ) : K = L := by
  have m := fun i j => congrFun (congrFun e i) j
  have m00 := m 0 0
  have m01 := m 0 1
  have m02 := m 0 2
  have m11 := m 1 1
  have m12 := m 1 2
  have m22 := m 2 2
  simp only [mul_apply, Fin.sum_univ_three, transpose_apply] at m00 m01 m02 m11 m12 m22
  have k10 : K 1 0 = 0 := hK 1 0 (by decide)
  have k20 : K 2 0 = 0 := hK 2 0 (by decide)
  have k21 : K 2 1 = 0 := hK 2 1 (by decide)
  have l10 : L 1 0 = 0 := hL 1 0 (by decide)
  have l20 : L 2 0 = 0 := hL 2 0 (by decide)
  have l21 : L 2 1 = 0 := hL 2 1 (by decide)
  rw [k10, l10] at m01 m11 m12
  rw [k20, k21, l20, l21] at m22 m02 m12
  have e22 : K 2 2 = L 2 2 := sq_inj (pK 2) (pL 2) (by linarith)
  have c2 := (pL 2).ne'
  rw [e22] at m12 m02
  have e12 : K 1 2 = L 1 2 := mul_right_cancel₀ c2 (by linarith)
  have e02 : K 0 2 = L 0 2 := mul_right_cancel₀ c2 (by linarith)
  rw [e12] at m11 m01
  have e11 : K 1 1 = L 1 1 := sq_inj (pK 1) (pL 1) (by linarith)
  rw [e11, e02] at m01
  have e01 : K 0 1 = L 0 1 := mul_right_cancel₀ (pL 1).ne' (by linarith)
  rw [e01, e02] at m00
  have e00 : K 0 0 = L 0 0 := sq_inj (pK 0) (pL 0) (by linarith)
  ext i j
  fin_cases i <;> fin_cases j <;> simp [e00, e01, e02, e11, e12, e22, k10, k20, k21, l10, l20, l21]

theorem factors_iff (P : Cam) (c : ℝ) (K R : Mat 3) (t : Vec 3) :
    Factors P c K R t ↔ left P = c • (K * R) ∧ right P = c • (K *ᵥ t) := by
  have key : ∀ x : Vec 3, P *ᵥ ![x 0, x 1, x 2, 1] = left P *ᵥ x + right P := by
    intro x
    ext i
    simp [mulVec, dotProduct, Fin.sum_univ_three, Fin.sum_univ_four, left, right]
  unfold Factors
  simp only [key]
  constructor
  · intro h
    have h0 := h 0
    simp only [mulVec_zero, zero_add] at h0
    refine ⟨?_, h0⟩
    refine Matrix.ext_of_mulVec_single (fun i => ?_)
    have h1 := h (Pi.single i 1)
    rw [h0, mulVec_add, smul_add, add_left_inj, mulVec_mulVec, ← smul_mulVec] at h1
    exact h1
  · rintro ⟨h1, h2⟩ x
    rw [h1, h2, smul_mulVec, mulVec_add, smul_add, mulVec_mulVec]

theorem signs_sq {K : Mat 3} (h : ∀ i, K i i ≠ 0) : signs K * signs K = 1 := by
  unfold signs
  rw [diagonal_mul_diagonal, ← diagonal_one]
  congr 1
  funext i
  rcases lt_or_gt_of_ne (h i) with h | h
  · simp [sign_neg h]
  · simp [sign_pos h]

theorem mul_signs (K : Mat 3) (i j : Fin 3) : (K * signs K) i j = K i j * (SignType.sign (K j j) : ℝ) := by
  unfold signs
  rw [mul_diagonal]

theorem signs_diag (K : Mat 3) (i : Fin 3) : (K * signs K) i i = |K i i| := by
  rw [mul_signs]
  exact self_mul_sign _

/-- The parts of the decomposition. -/
theorem krt_parts {qr : Mat 3 → Mat 3 × Mat 3} (h : IsQr qr) (P : Cam) :
    ∃ K Q : Mat 3, Upper K ∧ (∀ i, 0 ≤ K i i) ∧ (K.det = 0 ↔ (left P).det = 0) ∧
      ((left P).det ≠ 0 → (∀ i, 0 < K i i) ∧ Qᵀ * Q = 1 ∧ left P = K * Q) ∧
      krtFromP qr P = if K.det = 0 then none else
        some ((1 / K 2 2) • K, if Q.det < 0 then -Q else Q, if Q.det < 0 then -(K⁻¹ *ᵥ right P) else K⁻¹ *ᵥ right P) := by
  obtain ⟨h1, h2, h3⟩ := C121_rq h (left P)
  generalize hd : rq qr (left P) = d at h1 h2 h3
  have hu : Upper (d.1 * signs d.1) := by
    intro i j hij
    rw [mul_signs, h2 i j hij, zero_mul]
  have hdet : (left P).det = d.1.det * d.2.det := by rw [← det_mul, ← h1]
  have hq : d.2.det ≠ 0 := by
    rcases orth_det h3 with e | e <;> rw [e] <;> norm_num
  have hk : (d.1 * signs d.1).det = |d.1 0 0| * |d.1 1 1| * |d.1 2 2| := by
    rw [upper_det hu, signs_diag, signs_diag, signs_diag]
  have hz : (d.1 * signs d.1).det = 0 ↔ (left P).det = 0 := by
    rw [hk, hdet, upper_det h2]
    simp [hq]
  refine ⟨d.1 * signs d.1, signs d.1 * d.2, hu, ?_, hz, ?_, ?_⟩
  · intro i
    rw [signs_diag]
    exact abs_nonneg _
  · intro hne
    have hne' : ∀ i, d.1 i i ≠ 0 := by
      intro i e
      apply hne
      rw [hdet, upper_det h2]
      fin_cases i <;> simp at e <;> simp [e]
    refine ⟨?_, ?_, ?_⟩
    · intro i
      rw [signs_diag]
      exact abs_pos.2 (hne' i)
    · have e : (signs d.1)ᵀ = signs d.1 := by unfold signs; rw [diagonal_transpose]
      rw [transpose_mul, e, Matrix.mul_assoc, ← Matrix.mul_assoc (signs d.1), signs_sq hne', Matrix.one_mul, h3]
    · rw [Matrix.mul_assoc, ← Matrix.mul_assoc (signs d.1), signs_sq hne', Matrix.one_mul, ← h1]
  · unfold krtFromP
    simp only [hd, solve]
    by_cases hc : (d.1 * signs d.1).det = 0
    · rw [if_pos hc, if_pos hc]
    · rw [if_neg hc, if_neg hc]
      by_cases hR : (signs d.1 * d.2).det < 0
      · simp only [if_pos hR]
      · simp only [if_neg hR]

/-- C121: a camera matrix is decomposed exactly when its left block is regular (otherwise `LinAlgError`), into a
calibration matrix, a rotation and a translation that give it back up to a factor. -/
theorem C121_decompose {qr : Mat 3 → Mat 3 × Mat 3} (h : IsQr qr) (P : Cam) :
    ((krtFromP qr P).isSome ↔ (P.submatrix id ![0, 1, 2]).det ≠ 0) ∧
    ∀ K R t, krtFromP qr P = some (K, R, t) → IsCalib K ∧ IsRot R ∧ ∃ c ≠ 0, Factors P c K R t := by
  have hl : P.submatrix id ![0, 1, 2] = left P := by
    ext i j
    fin_cases j <;> rfl
  rw [hl]
  obtain ⟨K, Q, hu, hnn, hz, hp, e⟩ := krt_parts h P
  rw [e]
  constructor
  · by_cases hc : K.det = 0
    · simp [hc, hz.1 hc]
    · simp [hc, mt hz.2 hc]
  · intro K' R t h'
    by_cases hc : K.det = 0
    · rw [if_pos hc] at h'; cases h'
    rw [if_neg hc] at h'
    obtain ⟨hpos, ho, hPL⟩ := hp (mt hz.2 hc)
    simp only [Option.some.injEq, Prod.mk.injEq] at h'
    obtain ⟨rfl, rfl, rfl⟩ := h'
    have hk2 := hpos 2
    have hKi : K * K⁻¹ = 1 := mul_nonsing_inv _ (isUnit_iff_ne_zero.2 hc)
    refine ⟨⟨?_, ?_, ?_⟩, ?_, ?_⟩
    · intro i j hij
      rw [Matrix.smul_apply, hu i j hij, smul_zero]
    · intro i
      rw [Matrix.smul_apply, smul_eq_mul]
      exact mul_pos (by positivity) (hpos i)
    · rw [Matrix.smul_apply, smul_eq_mul, one_div_mul_cancel hk2.ne']
    · split
      · next hn =>
        refine ⟨by rw [transpose_neg, neg_mul_neg, ho], ?_⟩
        rcases orth_det ho with e | e
        · linarith
        · rw [det_neg, e]; norm_num
      · next hn =>
        refine ⟨ho, ?_⟩
        rcases orth_det ho with e | e
        · exact e
        · rw [e] at hn; norm_num at hn
    · by_cases hn : Q.det < 0
      · simp only [if_pos hn]
        refine ⟨-(K 2 2), neg_ne_zero.2 hk2.ne', (factors_iff _ _ _ _ _).2 ⟨?_, ?_⟩⟩
        · rw [hPL, Matrix.smul_mul, mul_neg, smul_neg, smul_neg, smul_smul]
          rw [neg_mul, mul_one_div_cancel hk2.ne', neg_smul, one_smul, neg_neg]
        · rw [smul_mulVec, mulVec_neg, mulVec_mulVec, hKi, one_mulVec, smul_neg, smul_neg, smul_smul]
          rw [neg_mul, mul_one_div_cancel hk2.ne', neg_smul, one_smul, neg_neg]
      · simp only [if_neg hn]
        refine ⟨K 2 2, hk2.ne', (factors_iff _ _ _ _ _).2 ⟨?_, ?_⟩⟩
        · rw [hPL, Matrix.smul_mul, smul_smul, mul_one_div_cancel hk2.ne', one_smul]
        · rw [smul_mulVec, mulVec_mulVec, hKi, one_mulVec, smul_smul, mul_one_div_cancel hk2.ne', one_smul]

/-- C121: the calibration, rotation and translation of a camera are found again from its matrix, whatever factor,
positive or negative, the matrix is multiplied with. -/
theorem C121_recover {qr : Mat 3 → Mat 3 × Mat 3} (h : IsQr qr) {P : Cam} {c : ℝ} {K R : Mat 3} {t : Vec 3}
    (hc : c ≠ 0) (hK : IsCalib K) (hR : IsRot R) (hP : Factors P c K R t) : krtFromP qr P = some (K, R, t) := by
  obtain ⟨e1, e2⟩ := (factors_iff _ _ _ _ _).1 hP
  obtain ⟨L, Q, hu, hnn, hz, hp, e⟩ := krt_parts h P
  have hKd : K.det ≠ 0 := by
    rw [upper_det hK.1]
    exact (mul_pos (mul_pos (hK.2.1 0) (hK.2.1 1)) (hK.2.1 2)).ne'
  have hd : (left P).det ≠ 0 := by
    rw [e1, det_smul, det_mul, hR.2]
    simp [hc, hKd]
  obtain ⟨hpos, ho, hPL⟩ := hp hd
  rw [e, if_neg (mt hz.1 hd)]
  have hKK : K⁻¹ * K = 1 := nonsing_inv_mul _ (isUnit_iff_ne_zero.2 hKd)
  have hRR : R * Rᵀ = 1 := mul_eq_one_comm.1 hR.1
  have hQQ : Q * Qᵀ = 1 := mul_eq_one_comm.1 ho
  have hL : L = |c| • K := by
    refine upper_eq hu ?_ hpos ?_ ?_
    · intro i j hij
      rw [Matrix.smul_apply, hK.1 i j hij, smul_zero]
    · intro i
      rw [Matrix.smul_apply, smul_eq_mul]
      exact mul_pos (abs_pos.2 hc) (hK.2.1 i)
    · have a1 : left P * (left P)ᵀ = L * Lᵀ := by
        rw [hPL, transpose_mul, Matrix.mul_assoc, ← Matrix.mul_assoc Q, hQQ, Matrix.one_mul]
      have a2 : left P * (left P)ᵀ = (c * c) • (K * Kᵀ) := by
        rw [e1, transpose_smul, transpose_mul, Matrix.smul_mul, Matrix.mul_smul, smul_smul, Matrix.mul_assoc,
          ← Matrix.mul_assoc R, hRR, Matrix.one_mul]
      rw [← a1, a2, transpose_smul, Matrix.smul_mul, Matrix.mul_smul, smul_smul, abs_mul_abs_self]
  have hca := abs_pos.2 hc
  have hLi : L⁻¹ = |c|⁻¹ • K⁻¹ := by
    refine inv_eq_left_inv ?_
    rw [hL, Matrix.smul_mul, Matrix.mul_smul, smul_smul, inv_mul_cancel₀ hca.ne', one_smul, hKK]
  have hQ : Q = (|c|⁻¹ * c) • R := by
    have : |c| • (K * Q) = c • (K * R) := by
      rw [← Matrix.smul_mul, ← hL, ← hPL, e1]
    have h2 := congrArg (fun M => |c|⁻¹ • (K⁻¹ * M)) this
    simp only [Matrix.mul_smul, smul_smul, inv_mul_cancel₀ hca.ne', one_smul, ← Matrix.mul_assoc, hKK, Matrix.one_mul] at h2
    exact h2
  have ht : L⁻¹ *ᵥ right P = (|c|⁻¹ * c) • t := by
    rw [hLi, e2, smul_mulVec, mulVec_smul, smul_smul, mulVec_mulVec, hKK, one_mulVec]
  have hk : (1 / L 2 2) • L = K := by
    rw [hL, Matrix.smul_apply, hK.2.2, smul_eq_mul, mul_one, smul_smul, one_div_mul_cancel hca.ne', one_smul]
  rw [hk, ht]
  rcases lt_or_gt_of_ne hc with hc' | hc'
  · have es : |c|⁻¹ * c = -1 := by
      rw [abs_of_neg hc']; field_simp
    rw [es] at hQ ⊢
    have : Q.det < 0 := by
      rw [hQ, det_smul, hR.2]; norm_num
    rw [if_pos this, if_pos this, hQ]
    simp
  · have es : |c|⁻¹ * c = 1 := by
      rw [abs_of_pos hc']; field_simp
    rw [es, one_smul] at hQ
    rw [es, one_smul]
    have : ¬ Q.det < 0 := by
      rw [hQ, hR.2]; norm_num
    rw [if_neg this, if_neg this, hQ]

/-- C121: `P_from_KRt` makes the matrix of the camera. -/
theorem C121_matrix (K R : Mat 3) (t : Vec 3) : Factors (pFromKRt K R t) 1 K R t := by
  rw [factors_iff]
  constructor
  · ext i j
    simp [left, pFromKRt]
  · ext i
    have : pFromKRt K R t i (Fin.last 3) = (K *ᵥ t) i := by simp only [pFromKRt, Fin.lastCases_last]
    rw [one_smul]
    exact this

/-! ### Angle -/

/-- C121: the angle of two vectors is the Euclidean angle, and `nan` exactly when one of them is zero. -/
theorem C121_angle {n : ℕ} (u v : Vec n) :
    (vectorAngle u v = none ↔ u = 0 ∨ v = 0) ∧
    (u ≠ 0 → v ≠ 0 → vectorAngle u v = some (InnerProductGeometry.angle (WithLp.toLp 2 u) (WithLp.toLp 2 v))) := by
  have hz : (u ⬝ᵥ u) * (v ⬝ᵥ v) = 0 ↔ u = 0 ∨ v = 0 := by
    rw [mul_eq_zero, dotProduct_self_eq_zero, dotProduct_self_eq_zero]
  unfold vectorAngle
  constructor
  · by_cases h : (u ⬝ᵥ u) * (v ⬝ᵥ v) = 0
    · simp only [if_pos h, true_iff]
      exact hz.1 h
    · simp only [if_neg h, reduceCtorEq, false_iff]
      exact mt hz.2 h
  · intro hu hv
    have h : ¬ (u ⬝ᵥ u) * (v ⬝ᵥ v) = 0 := by rw [hz]; tauto
    rw [if_neg h]
    have e : (u ⬝ᵥ v) / Real.sqrt ((u ⬝ᵥ u) * (v ⬝ᵥ v)) =
        inner ℝ (WithLp.toLp 2 u : EuclideanSpace ℝ (Fin n)) (WithLp.toLp 2 v) /
          (‖(WithLp.toLp 2 u : EuclideanSpace ℝ (Fin n))‖ * ‖(WithLp.toLp 2 v : EuclideanSpace ℝ (Fin n))‖) := by
      have hn : ∀ w : Vec n, ‖(WithLp.toLp 2 w : EuclideanSpace ℝ (Fin n))‖ = Real.sqrt (w ⬝ᵥ w) := by
        intro w
        rw [EuclideanSpace.norm_eq]
        congr 1
        simp [dotProduct, sq]
      rw [hn, hn, Real.sqrt_mul (by exact dot_self_nonneg u)]
      congr 1
      simp [PiLp.inner_apply, dotProduct, mul_comm]
    have hb := abs_le.1 (abs_real_inner_div_norm_mul_norm_le_one
      (WithLp.toLp 2 u : EuclideanSpace ℝ (Fin n)) (WithLp.toLp 2 v))
    rw [← e] at hb
    rw [min_eq_right hb.2, max_eq_right hb.1]
    unfold InnerProductGeometry.angle
    rw [← e]

/-! ### Homographies of a turning camera -/

theorem focal_calib (f : ℝ) : calib f = focalMatrix f := by
  unfold calib focalMatrix
  ext i j
  fin_cases i <;> fin_cases j <;> simp

theorem focal_inv {f : ℝ} (hf : f ≠ 0) : (focalMatrix f)⁻¹ = focalMatrix (1 / f) := by
  refine inv_eq_left_inv ?_
  unfold focalMatrix
  ext i j
  fin_cases i <;> fin_cases j <;> simp [mul_apply, Fin.sum_univ_three, hf]

theorem focal_det (f : ℝ) : (focalMatrix f).det = f * f := by
  rw [det_fin_three]
  simp [focalMatrix]

theorem homography_det {f : ℝ} (hf : f ≠ 0) {R : Mat 3} (hR : IsRot R) (c : ℝ) :
    (c • (focalMatrix f * R * (focalMatrix f)⁻¹)).det = c ^ 3 := by
  rw [det_smul, det_mul, det_mul, hR.2, focal_inv hf, focal_det, focal_det]
  simp only [Fintype.card_fin]
  field_simp

/-- The entries of the homography. -/
theorem homography_entries {f : ℝ} (hf : f ≠ 0) (R : Mat 3) :
    focalMatrix f * R * (focalMatrix f)⁻¹ =
      !![R 0 0, R 0 1, f * R 0 2; R 1 0, R 1 1, f * R 1 2; R 2 0 / f, R 2 1 / f, R 2 2] := by
  rw [focal_inv hf]
  unfold focalMatrix
  ext i j
  fin_cases i <;> fin_cases j <;> simp [mul_apply, vecMul, dotProduct, Fin.sum_univ_three] <;> field_simp

/-- C121: the focal length of a turning camera is found from its homography, multiplied with any positive factor,
when the turn does not keep the line of sight; with a factor that is not positive the result is `nan`. -/
theorem C121_focal {smallest : Matrix (Fin 6) (Fin 2) ℝ → Vec 2} (h : IsSmallest smallest) {f : ℝ} (hf : 0 < f)
    {R : Mat 3} (hR : IsRot R) (c : ℝ) :
    (0 < c → R *ᵥ ![0, 0, 1] ≠ ![0, 0, 1] → R *ᵥ ![0, 0, 1] ≠ -![0, 0, 1] →
      focalFromHomography smallest (c • (focalMatrix f * R * (focalMatrix f)⁻¹)) = some f) ∧
    (c ≤ 0 → focalFromHomography smallest (c • (focalMatrix f * R * (focalMatrix f)⁻¹)) = none) := by
  have hdet := homography_det hf.ne' hR c
  constructor
  · intro hc hp hm
    have hc3 : 0 < c ^ 3 := by positivity
    have hroot : (c ^ 3) ^ ((1 : ℝ) / 3) = c := by
      rw [← Real.rpow_natCast, ← Real.rpow_mul hc.le]
      norm_num
    unfold focalFromHomography unitDet
    rw [hdet, if_neg (not_le.2 hc3), hroot, smul_smul, one_div_mul_cancel hc.ne', one_smul, Option.bind_some]
    rw [homography_entries hf.ne']
    have hRR : R * Rᵀ = 1 := mul_eq_one_comm.1 hR.1
    have m := fun i j => congrFun (congrFun hRR i) j
    simp only [mul_apply, Fin.sum_univ_three, transpose_apply] at m
    have m00 := m 0 0
    have m01 := m 0 1
    have m02 := m 0 2
    have m11 := m 1 1
    have m12 := m 1 2
    have m22 := m 2 2
    simp at m00 m01 m02 m11 m12 m22
    have col : R 0 2 ^ 2 + R 1 2 ^ 2 + R 2 2 ^ 2 = 1 := by
      have := congrFun (congrFun hR.1 2) 2
      simp [mul_apply, Fin.sum_univ_three] at this
      linarith
    have h22 : R 2 2 ^ 2 ≠ 1 := by
      intro e
      have e0 : R 0 2 = 0 := by nlinarith
      have e1 : R 1 2 = 0 := by nlinarith
      have hv : R *ᵥ ![0, 0, 1] = ![0, 0, R 2 2] := by
        ext i
        fin_cases i <;> simp [mulVec, dotProduct, Fin.sum_univ_three, e0, e1]
      rcases sq_eq_one_iff.1 e with e2 | e2
      · exact hp (by rw [hv, e2])
      · exact hm (by rw [hv, e2]; ext i; fin_cases i <;> simp)
    obtain ⟨A, hA⟩ : ∃ A, A = focalSystem !![R 0 0, R 0 1, f * R 0 2; R 1 0, R 1 1, f * R 1 2; R 2 0 / f, R 2 1 / f, R 2 2] :=
      ⟨_, rfl⟩
    rw [← hA]
    have hAv : ∀ v : Vec 2, A *ᵥ v = (v 0 - f ^ 2 * v 1) • ![-(R 0 2 * R 0 2), -(R 0 2 * R 1 2), -(R 0 2 * R 2 2) / f,
        -(R 1 2 * R 1 2), -(R 1 2 * R 2 2) / f, (1 - R 2 2 * R 2 2) / f ^ 2] := by
      intro v
      rw [hA]
      have hf' := hf.ne'
      ext i
      fin_cases i <;> simp [focalSystem, mulVec, dotProduct, Fin.sum_univ_two]
      · linear_combination v 0 * m00
      · linear_combination v 0 * m01
      · field_simp
        linear_combination v 0 * m02
      · linear_combination v 0 * m11
      · field_simp
        linear_combination v 0 * m12
      · field_simp
        linear_combination v 0 * m22
    obtain ⟨s1, s2⟩ := h A
    have hker : (A *ᵥ smallest A) ⬝ᵥ (A *ᵥ smallest A) ≤ 0 := by
      obtain ⟨k, hk⟩ : ∃ k, k = Real.sqrt (f ^ 4 + 1) := ⟨_, rfl⟩
      have hk2 : k ^ 2 = f ^ 4 + 1 := by rw [hk]; exact Real.sq_sqrt (by positivity)
      have hkp : 0 < k := by rw [hk]; positivity
      have := s2 ![f ^ 2 / k, 1 / k] (by
        simp [dotProduct, Fin.sum_univ_two]
        field_simp
        linarith)
      rw [hAv ![f ^ 2 / k, 1 / k]] at this
      have z : (![f ^ 2 / k, 1 / k] : Vec 2) 0 - f ^ 2 * (![f ^ 2 / k, 1 / k] : Vec 2) 1 = 0 := by
        simp
        field_simp
        ring
      rw [z, zero_smul, zero_dotProduct] at this
      exact this
    have hAz : A *ᵥ smallest A = 0 := by
      rw [← dotProduct_self_eq_zero]
      exact le_antisymm hker (dot_self_nonneg _)
    rw [hAv] at hAz
    have h5 := congrFun hAz 5
    simp [hf.ne'] at h5
    have hv : smallest A 0 = f ^ 2 * smallest A 1 := by
      rcases h5 with h5 | h5
      · linarith
      · exact absurd (by nlinarith) h22
    simp only [dotProduct, Fin.sum_univ_two] at s1
    have hne : smallest A 1 ≠ 0 := by
      intro e
      rw [hv, e] at s1
      norm_num at s1
    unfold rootOf
    rw [hv, mul_div_cancel_right₀ _ hne, if_neg (by
      rintro (e | e)
      · exact hne e
      · nlinarith), Real.sqrt_sq hf.le]
  · intro hc
    unfold focalFromHomography unitDet
    rw [hdet, if_pos (by
      have : 0 ≤ (-c) ^ 3 := pow_nonneg (by linarith) 3
      nlinarith)]
    rfl

/-- C121: a turn that keeps the line of sight says nothing about the focal length: all focal lengths have the
same homography. -/
theorem C121_focal_blind {R : Mat 3} (hR : IsRot R)
    (hk : R *ᵥ ![0, 0, 1] = ![0, 0, 1] ∨ R *ᵥ ![0, 0, 1] = -![0, 0, 1]) {f : ℝ} (hf : f ≠ 0) :
    focalMatrix f * R * (focalMatrix f)⁻¹ = R := by
  have hv : R 0 2 = 0 ∧ R 1 2 = 0 ∧ R 2 2 ^ 2 = 1 := by
    rcases hk with e | e <;>
    · have e0 := congrFun e 0
      have e1 := congrFun e 1
      have e2 := congrFun e 2
      simp [mulVec, dotProduct, Fin.sum_univ_three] at e0 e1 e2
      exact ⟨e0, e1, by rw [e2]; norm_num⟩
  have hRR : R * Rᵀ = 1 := mul_eq_one_comm.1 hR.1
  have m22 := congrFun (congrFun hRR 2) 2
  simp [mul_apply, Fin.sum_univ_three] at m22
  have h20 : R 2 0 = 0 := by nlinarith
  have h21 : R 2 1 = 0 := by nlinarith
  rw [homography_entries hf]
  ext i j
  fin_cases i <;> fin_cases j <;> simp [hv.1, hv.2.1, h20, h21]

theorem sqDist_eq (A B : Mat 3) : sqDist A B = (Aᵀ * A).trace + (Bᵀ * B).trace - 2 * (Bᵀ * A).trace := by
  simp only [sqDist, Matrix.trace, Matrix.diag, mul_apply, transpose_apply, Fin.sum_univ_three]
  ring

/-- C121: the projection is the nearest orthogonal matrix; it is a rotation when the determinant is positive and
a reflection when it is negative. -/
theorem C121_project {svd : Mat 3 → Svd 3} (h : ∀ A, IsSvd A (svd A)) (A : Mat 3) :
    (project svd A)ᵀ * project svd A = 1 ∧
    (∀ Q : Mat 3, Qᵀ * Q = 1 → sqDist A (project svd A) ≤ sqDist A Q) ∧
    (0 < A.det → IsRot (project svd A)) ∧ (A.det < 0 → (project svd A).det = -1) := by
  have ho := det_sq_svd (h A)
  have hdet : A.det = (project svd A).det * ∏ i, (svd A).s i := by
    conv_lhs => rw [(h A).eq]
    unfold project
    rw [det_mul, det_mul, det_mul, det_diagonal]
    ring
  have hpos : 0 ≤ ∏ i, (svd A).s i := Finset.prod_nonneg (fun i _ => (h A).pos i)
  refine ⟨ho, ?_, ?_, ?_⟩
  · intro Q hQ
    rw [sqDist_eq, sqDist_eq, hQ]
    have e1 : (project svd A)ᵀ * project svd A = 1 := ho
    rw [e1]
    have : (Qᵀ * A).trace ≤ ((project svd A)ᵀ * A).trace := by
      rw [trace_svd (h A), trace_svd (h A)]
      refine Finset.sum_le_sum (fun i _ => mul_le_mul_of_nonneg_left ?_ ((h A).pos i))
      have e2 : (svd A).vh * (project svd A)ᵀ * (svd A).u = 1 := by
        unfold project
        rw [transpose_mul, ← Matrix.mul_assoc, (h A).vh, Matrix.one_mul, (h A).u]
      rw [e2, one_apply_eq]
      refine orth_entry ?_ i i
      rw [transpose_mul, transpose_mul, transpose_transpose]
      calc (svd A).uᵀ * (Q * (svd A).vhᵀ) * ((svd A).vh * Qᵀ * (svd A).u)
          = (svd A).uᵀ * (Q * ((svd A).vhᵀ * (svd A).vh) * Qᵀ) * (svd A).u := by simp only [Matrix.mul_assoc]
        _ = 1 := by
          rw [mul_eq_one_comm.1 (h A).vh, Matrix.mul_one, mul_eq_one_comm.1 hQ, Matrix.mul_one, (h A).u]
    linarith
  · intro hd
    refine ⟨ho, ?_⟩
    rcases orth_det ho with e | e
    · exact e
    · unfold project at hdet
      rw [e] at hdet
      linarith
  · intro hd
    rcases orth_det ho with e | e
    · unfold project at hdet
      rw [e] at hdet
      linarith
    · exact e

/-- The projection of a multiple of an orthogonal matrix. -/
theorem project_smul {svd : Mat 3 → Svd 3} (h : ∀ A, IsSvd A (svd A)) {Q : Mat 3} (hQ : Qᵀ * Q = 1) {c : ℝ}
    (hc : 0 < c) : project svd (c • Q) = Q := by
  obtain ⟨ho, hn, _⟩ := C121_project h (c • Q)
  have h1 := hn Q hQ
  rw [sqDist_eq, sqDist_eq, ho, hQ, Matrix.mul_smul (project svd (c • Q))ᵀ, Matrix.mul_smul Qᵀ, hQ, trace_smul c (_ * Q),
    trace_smul c 1, smul_eq_mul, smul_eq_mul] at h1
  have h2 : (1 : Mat 3).trace ≤ ((project svd (c • Q))ᵀ * Q).trace := by
    by_contra hlt
    have := mul_lt_mul_of_pos_left (not_le.1 hlt) hc
    linarith
  have h3 : sqDist Q (project svd (c • Q)) ≤ 0 := by
    rw [sqDist_eq, ho, hQ]
    linarith
  unfold sqDist at h3
  have h4 : ∀ i j, (Q i j - project svd (c • Q) i j) ^ 2 ≤ 0 := by
    intro i j
    refine le_trans ?_ h3
    refine le_trans ?_ (Finset.single_le_sum (f := fun i => ∑ j, (Q i j - project svd (c • Q) i j) ^ 2)
      (fun i _ => Finset.sum_nonneg (fun j _ => sq_nonneg _)) (Finset.mem_univ i))
    exact Finset.single_le_sum (f := fun j => (Q i j - project svd (c • Q) i j) ^ 2)
      (fun j _ => sq_nonneg _) (Finset.mem_univ j)
  ext i j
  nlinarith [h4 i j, sq_nonneg (Q i j - project svd (c • Q) i j)]

/-- C121: the rotation between two cameras at the same place is found from their homography when it is multiplied
with a positive factor; with a negative factor the result is its negative, which is not a rotation. -/
theorem C121_rotation {svd : Mat 3 → Svd 3} (h : ∀ A, IsSvd A (svd A)) {f1 f2 : ℝ} (h1 : f1 ≠ 0) (h2 : f2 ≠ 0)
    {R : Mat 3} (hR : IsRot R) (c : ℝ) :
    (0 < c → rFromHomography svd (c • (focalMatrix f2 * R * (focalMatrix f1)⁻¹)) f1 f2 = some R) ∧
    (c < 0 → rFromHomography svd (c • (focalMatrix f2 * R * (focalMatrix f1)⁻¹)) f1 f2 = some (-R) ∧ ¬ IsRot (-R)) := by
  have hd : ∀ f : ℝ, f ≠ 0 → (focalMatrix f).det ≠ 0 := fun f hf => by
    rw [focal_det]; exact mul_ne_zero hf hf
  have e : (focalMatrix f2)⁻¹ * (c • (focalMatrix f2 * R * (focalMatrix f1)⁻¹)) * focalMatrix f1 = c • R := by
    rw [Matrix.mul_smul, Matrix.smul_mul]
    congr 1
    have i1 : (focalMatrix f1)⁻¹ * focalMatrix f1 = 1 := nonsing_inv_mul _ (isUnit_iff_ne_zero.2 (hd f1 h1))
    have i2 : (focalMatrix f2)⁻¹ * focalMatrix f2 = 1 := nonsing_inv_mul _ (isUnit_iff_ne_zero.2 (hd f2 h2))
    calc (focalMatrix f2)⁻¹ * (focalMatrix f2 * R * (focalMatrix f1)⁻¹) * focalMatrix f1
        = ((focalMatrix f2)⁻¹ * focalMatrix f2) * R * ((focalMatrix f1)⁻¹ * focalMatrix f1) := by
          simp only [Matrix.mul_assoc]
      _ = R := by rw [i1, i2, Matrix.one_mul, Matrix.mul_one]
  unfold rFromHomography
  simp only [focal_calib]
  rw [if_neg (hd f2 h2), e]
  constructor
  · intro hc
    rw [project_smul h hR.1 hc]
  · intro hc
    have : c • R = (-c) • (-R) := by rw [smul_neg, neg_smul, neg_neg]
    rw [this, project_smul h (by rw [transpose_neg, neg_mul_neg, hR.1]) (neg_pos.2 hc)]
    refine ⟨rfl, fun h' => ?_⟩
    have := h'.2
    rw [det_neg, hR.2] at this
    norm_num at this

/-! ### The promises of NumPy can be kept -/

/-- Every matrix has a QR decomposition. -/
theorem C121_qr_exists : ∃ qr, IsQr qr := by
  have key : ∀ A : Mat 3, ∃ d : Mat 3 × Mat 3, d.1ᵀ * d.1 = 1 ∧ Upper d.2 ∧ A = d.1 * d.2 := by
    intro A
    let f : Fin 3 → EuclideanSpace ℝ (Fin 3) := fun j => WithLp.toLp 2 (fun i => A i j)
    let b := InnerProductSpace.gramSchmidtOrthonormalBasis (𝕜 := ℝ) (by simp) f
    have hb : ∀ i j, inner ℝ (b i) (b j) = if i = j then (1 : ℝ) else 0 := fun i j =>
      (orthonormal_iff_ite.1 b.orthonormal) i j
    have ht : ∀ i j, i < j → inner ℝ (b j) (f i) = 0 := fun i j hij =>
      InnerProductSpace.gramSchmidtOrthonormalBasis_inv_triangular _ f hij
    let Q : Mat 3 := fun i j => b j i
    have hQ : Qᵀ * Q = 1 := by
      ext i j
      have := hb i j
      simp only [PiLp.inner_apply, RCLike.inner_apply, conj_trivial] at this
      rw [one_apply, ← this, mul_apply]
      exact Finset.sum_congr rfl (fun k _ => mul_comm (b i k) (b j k))
    refine ⟨(Q, Qᵀ * A), hQ, ?_, ?_⟩
    · intro i j hij
      have := ht j i hij
      simp only [PiLp.inner_apply, RCLike.inner_apply, conj_trivial, f] at this
      simp only [mul_apply, transpose_apply, Q]
      rw [← this]
      exact Finset.sum_congr rfl (fun k _ => mul_comm _ _)
    · simp only [← Matrix.mul_assoc]
      rw [mul_eq_one_comm.1 hQ, Matrix.one_mul]
  choose g hg using key
  exact ⟨g, hg⟩

/-- Every system has a vector of length one that it makes least. -/
theorem C121_smallest_exists : ∃ smallest, IsSmallest smallest := by
  have key : ∀ A : Matrix (Fin 6) (Fin 2) ℝ, ∃ v : Vec 2, v ⬝ᵥ v = 1 ∧
      ∀ w : Vec 2, w ⬝ᵥ w = 1 → (A *ᵥ v) ⬝ᵥ (A *ᵥ v) ≤ (A *ᵥ w) ⬝ᵥ (A *ᵥ w) := by
    intro A
    let g : ℝ → ℝ := fun t => (A *ᵥ ![Real.cos t, Real.sin t]) ⬝ᵥ (A *ᵥ ![Real.cos t, Real.sin t])
    have hg : Continuous g := by
      have : g = fun t => ∑ i, (A i 0 * Real.cos t + A i 1 * Real.sin t) * (A i 0 * Real.cos t + A i 1 * Real.sin t) := by
        funext t
        simp [g, mulVec, dotProduct, Fin.sum_univ_two]
      rw [this]
      fun_prop
    obtain ⟨t, _, ht⟩ := (isCompact_Icc (a := -Real.pi) (b := Real.pi)).exists_isMinOn
      ⟨0, by constructor <;> linarith [Real.pi_pos]⟩ hg.continuousOn
    refine ⟨![Real.cos t, Real.sin t], ?_, ?_⟩
    · simp [dotProduct, Fin.sum_univ_two]
      nlinarith [Real.cos_sq_add_sin_sq t]
    · intro w hw
      simp only [dotProduct, Fin.sum_univ_two] at hw
      have hz : ‖(⟨w 0, w 1⟩ : ℂ)‖ = 1 := by
        rw [Complex.norm_def, Complex.normSq_mk, Real.sqrt_eq_one]
        linarith
      have hne : (⟨w 0, w 1⟩ : ℂ) ≠ 0 := by
        intro e
        rw [e, norm_zero] at hz
        norm_num at hz
      have h1 := Complex.cos_arg hne
      have h2 := Complex.sin_arg (⟨w 0, w 1⟩ : ℂ)
      rw [hz, div_one] at h1 h2
      have h3 := ht (a := Complex.arg ⟨w 0, w 1⟩) ⟨(Complex.neg_pi_lt_arg _).le, Complex.arg_le_pi _⟩
      simp only [Set.mem_setOf_eq, g, h1, h2] at h3
      have e : ![w 0, w 1] = w := by
        ext i
        fin_cases i <;> rfl
      rw [e] at h3
      exact h3
  choose g hg using key
  exact ⟨g, hg⟩

/-- A quarter turn about the first axis, a rotation that does not keep the line of sight. -/
def quarterX : Mat 3 := !![1, 0, 0; 0, 0, -1; 0, 1, 0]

theorem quarterX_rot : IsRot quarterX := by
  constructor
  · ext i j
    fin_cases i <;> fin_cases j <;> simp [quarterX, mul_apply, Fin.sum_univ_three]
  · rw [det_fin_three]
    simp [quarterX]

/-- The camera of the docstring (with a negative factor) meets the hypotheses of `C121_recover`. -/
example : ∃ (qr : Mat 3 → Mat 3 × Mat 3) (P : Cam), IsQr qr ∧
    krtFromP qr P = some (!![1, 2, 3; 0, 4, 5; 0, 0, 1], quarterX, ![1, 2, 3]) := by
  obtain ⟨qr, h⟩ := C121_qr_exists
  refine ⟨qr, (-2 : ℝ) • pFromKRt !![1, 2, 3; 0, 4, 5; 0, 0, 1] quarterX ![1, 2, 3], h, ?_⟩
  refine C121_recover h (c := -2) (by norm_num) ⟨?_, ?_, rfl⟩ quarterX_rot ?_
  · intro i j hij
    fin_cases i <;> fin_cases j <;> simp at hij ⊢
  · intro i
    fin_cases i <;> simp
  · intro x
    have := C121_matrix !![1, 2, 3; 0, 4, 5; 0, 0, 1] quarterX ![1, 2, 3] x
    rw [smul_mulVec, this, one_smul]

/-- The homography of a camera turned a quarter about its first axis gives its focal length. -/
example : ∃ smallest, IsSmallest smallest ∧
    focalFromHomography smallest ((3 : ℝ) • (focalMatrix (4 / 5) * quarterX * (focalMatrix (4 / 5))⁻¹)) = some (4 / 5) := by
  obtain ⟨s, h⟩ := C121_smallest_exists
  refine ⟨s, h, (C121_focal h (by norm_num) quarterX_rot 3).1 (by norm_num) ?_ ?_⟩ <;>
  · intro e
    have := congrFun e 2
    simp [quarterX, mulVec, dotProduct, Fin.sum_univ_three] at this

/-- The hypothesis of `C121_project` and `C121_rotation` can be met. -/
example : ∃ svd : Mat 3 → Svd 3, (∀ A, IsSvd A (svd A)) ∧
    rFromHomography svd ((-1 : ℝ) • (focalMatrix 1 * quarterX * (focalMatrix 1)⁻¹)) 1 1 = some (-quarterX) := by
  obtain ⟨svd, h⟩ := C88_svd 3
  exact ⟨svd, h, ((C121_rotation h one_ne_zero one_ne_zero quarterX_rot (-1)).2 (by norm_num)).1⟩

end Verif.Factor
