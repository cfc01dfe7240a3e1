import Verif.Model.PlaneMotion
import Verif.Props.RelativePose

/-!
# C100 — Camera motions of a plane homography
-/
set_option linter.unusedSectionVars false
set_option linter.unusedSimpArgs false
set_option linter.unusedVariables false
namespace Verif.PlaneMotion
open Verif.Depthmap Matrix
open Verif.Superimpose (Svd IsRot IsSvd)
open Verif.AlignPrior (cross)
open Verif.RelativePose (vec_ext dot3)

/-! ### Specification -/

/-- The homography `H = d R - t nᵀ` of a motion and a plane `n · X + d = 0`. -/
def IsHomography (H : M3) (m : Motion) : Prop := H = m.d • m.R - vecMulVec m.t m.n

/-- Singular values that are not nearly equal. -/
def Separated (D : Svd 3) : Prop := D.s 1 ≠ 0 ∧ 1.0001 * D.s 1 ≤ D.s 0 ∧ 1.0001 * D.s 2 ≤ D.s 1

/-! ### In the frame of the decomposition -/

/-- The two coordinates of the normal in the frame. -/
structure Coord (d1 d2 d3 x1 x3 : ℝ) : Prop where
  h2 : d2 ≠ 0
  h13 : d1 ^ 2 - d3 ^ 2 ≠ 0
  e1 : x1 ^ 2 * (d1 ^ 2 - d3 ^ 2) = d1 ^ 2 - d2 ^ 2
  e3 : x3 ^ 2 * (d1 ^ 2 - d3 ^ 2) = d2 ^ 2 - d3 ^ 2

theorem Coord.unit {d1 d2 d3 x1 x3 : ℝ} (h : Coord d1 d2 d3 x1 x3) : x1 ^ 2 + x3 ^ 2 = 1 := by
  apply mul_right_cancel₀ h.h13
  linear_combination h.e1 + h.e3

theorem Coord.mix {d1 d2 d3 x1 x3 : ℝ} (h : Coord d1 d2 d3 x1 x3) : d3 ^ 2 * x1 ^ 2 + d1 ^ 2 * x3 ^ 2 = d2 ^ 2 := by
  apply mul_right_cancel₀ h.h13
  linear_combination d3 ^ 2 * h.e1 + d1 ^ 2 * h.e3

theorem rotP_rot {d1 d2 d3 x1 x3 : ℝ} (h : Coord d1 d2 d3 x1 x3) : IsRot (rotP d1 d2 d3 x1 x3) := by
  have hu := h.unit
  have hm := h.mix
  have h2 := h.h2
  have key : ((d3 * x1 ^ 2 + d1 * x3 ^ 2) / d2) ^ 2 + ((d1 - d3) * (x1 * x3 / d2)) ^ 2 = 1 := by
    field_simp
    linear_combination (d3 ^ 2 * x1 ^ 2 + d1 ^ 2 * x3 ^ 2) * hu + hm
  obtain ⟨c, hc⟩ : ∃ c, c = (d3 * x1 ^ 2 + d1 * x3 ^ 2) / d2 := ⟨_, rfl⟩
  obtain ⟨s, hs⟩ : ∃ s, s = (d1 - d3) * (x1 * x3 / d2) := ⟨_, rfl⟩
  rw [← hc, ← hs] at key
  unfold rotP
  simp only
  rw [← hc, ← hs]
  constructor
  · ext i j
    rw [Matrix.mul_apply, Fin.sum_univ_three, transpose_apply, transpose_apply, transpose_apply]
    fin_cases i <;> fin_cases j <;> simp <;> linarith
  · rw [det_fin_three]
    simp
    linarith

theorem rotN_rot {d1 d2 d3 x1 x3 : ℝ} (h : Coord d1 d2 d3 x1 x3) : IsRot (rotN d1 d2 d3 x1 x3) := by
  have hu := h.unit
  have hm := h.mix
  have h2 := h.h2
  have key : ((d3 * x1 ^ 2 - d1 * x3 ^ 2) / d2) ^ 2 + ((d1 + d3) * (x1 * x3 / d2)) ^ 2 = 1 := by
    field_simp
    linear_combination (d3 ^ 2 * x1 ^ 2 + d1 ^ 2 * x3 ^ 2) * hu + hm
  obtain ⟨c, hc⟩ : ∃ c, c = (d3 * x1 ^ 2 - d1 * x3 ^ 2) / d2 := ⟨_, rfl⟩
  obtain ⟨s, hs⟩ : ∃ s, s = (d1 + d3) * (x1 * x3 / d2) := ⟨_, rfl⟩
  rw [← hc, ← hs] at key
  unfold rotN
  simp only
  rw [← hc, ← hs]
  constructor
  · ext i j
    rw [Matrix.mul_apply, Fin.sum_univ_three, transpose_apply, transpose_apply, transpose_apply]
    fin_cases i <;> fin_cases j <;> simp <;> linarith
  · rw [det_fin_three]
    simp
    linarith

theorem homP {d1 d2 d3 x1 x3 : ℝ} (h : Coord d1 d2 d3 x1 x3) :
    diagonal ![d1, d2, d3] = d2 • rotP d1 d2 d3 x1 x3 + vecMulVec ((d1 - d3) • ![x1, 0, -x3]) ![x1, 0, x3] := by
  have hu := h.unit
  have h2 := h.h2
  ext i j
  fin_cases i <;> fin_cases j <;> simp [rotP, vecMulVec, diagonal_apply] <;> field_simp
  · linear_combination -d1 * hu
  · ring
  · ring
  · linear_combination -d3 * hu

theorem homN {d1 d2 d3 x1 x3 : ℝ} (h : Coord d1 d2 d3 x1 x3) :
    diagonal ![d1, d2, d3] = (-d2) • rotN d1 d2 d3 x1 x3 + vecMulVec ((d1 + d3) • ![x1, 0, x3]) ![x1, 0, x3] := by
  have hu := h.unit
  have h2 := h.h2
  ext i j
  fin_cases i <;> fin_cases j <;> simp [rotN, vecMulVec, diagonal_apply] <;> field_simp
  · linear_combination -d1 * hu
  · ring
  · ring
  · linear_combination -d3 * hu

theorem outer_frame (A B : M3) (u v : V3) : vecMulVec (A *ᵥ u) (Bᵀ *ᵥ v) = A * vecMulVec u v * B := by
  rw [vecMulVec_eq Unit, vecMulVec_eq Unit, mulVec_transpose, replicateCol_mulVec, replicateRow_vecMul]
  simp only [Matrix.mul_assoc]

theorem det_sq {U : M3} (h : Uᵀ * U = 1) : U.det * U.det = 1 := by
  have := congrArg Matrix.det h
  rwa [det_mul, det_transpose, det_one] at this

theorem sign_sq {H : M3} {D : Svd 3} (h : IsSvd H D) : (D.u.det * D.vh.det) * (D.u.det * D.vh.det) = 1 := by
  have h1 := det_sq h.u
  have h2 := det_sq (mul_eq_one_comm.1 h.vh)
  linear_combination D.vh.det * D.vh.det * h1 + h2

/-- A rotation of the frame gives a rotation. -/
theorem frame_rot {H : M3} {D : Svd 3} (h : IsSvd H D) {Q : M3} (hQ : IsRot Q) : IsRot ((D.u.det * D.vh.det) • (D.u * Q * D.vh)) := by
  have hs := sign_sq h
  obtain ⟨s, hsd⟩ : ∃ s, s = D.u.det * D.vh.det := ⟨_, rfl⟩
  rw [← hsd] at hs ⊢
  have hv : D.vhᵀ * D.vh = 1 := mul_eq_one_comm.1 h.vh
  constructor
  · have : (D.u * Q * D.vh)ᵀ * (D.u * Q * D.vh) = 1 := by
      rw [transpose_mul, transpose_mul]
      calc D.vhᵀ * (Qᵀ * D.uᵀ) * (D.u * Q * D.vh) = D.vhᵀ * (Qᵀ * (D.uᵀ * D.u) * Q) * D.vh := by simp only [Matrix.mul_assoc]
        _ = 1 := by rw [h.u, Matrix.mul_one, hQ.1, Matrix.mul_one, hv]
    rw [transpose_smul, Matrix.smul_mul, Matrix.mul_smul, smul_smul, this, hs, one_smul]
  · rw [det_smul, det_mul, det_mul, hQ.2, mul_one, ← hsd, Fintype.card_fin]
    calc s ^ 3 * s = (s * s) * (s * s) := by ring
      _ = 1 := by rw [hs, one_mul]

theorem frame_eq {H : M3} {D : Svd 3} (h : IsSvd H D) {Q : M3} {δ : ℝ} {tp np : V3} {x1 x3 : ℝ}
    (hd : diagonal D.s = δ • Q + vecMulVec tp np) :
    IsHomography H ⟨(D.u.det * D.vh.det) • (D.u * Q * D.vh), D.u *ᵥ tp, -(D.vhᵀ *ᵥ np), (D.u.det * D.vh.det) * δ⟩ := by
  unfold IsHomography
  simp only
  rw [smul_smul, show D.u.det * D.vh.det * δ * (D.u.det * D.vh.det) = (D.u.det * D.vh.det * (D.u.det * D.vh.det)) * δ by ring, sign_sq h, one_mul]
  conv_lhs => rw [h.eq, hd]
  rw [vecMulVec_neg, sub_neg_eq_add, outer_frame, Matrix.mul_add, Matrix.add_mul, Matrix.mul_smul, Matrix.smul_mul]

theorem sv_eq (D : Svd 3) : D.s = ![D.s 0, D.s 1, D.s 2] := by
  funext i; fin_cases i <;> rfl

theorem signs_coord {H : M3} {D : Svd 3} (h : IsSvd H D) (hs : Separated D) {x : ℝ × ℝ} (hx : x ∈ signs D) :
    Coord (D.s 0) (D.s 1) (D.s 2) x.1 x.2 := by
  obtain ⟨h2, h01, h12⟩ := hs
  have p0 := h.pos 0
  have p1 := h.pos 1
  have p2 := h.pos 2
  have hpos : 0 < D.s 1 := lt_of_le_of_ne p1 (Ne.symm h2)
  have h13 : 0 < D.s 0 ^ 2 - D.s 2 ^ 2 := by nlinarith
  have a1 : absX1 D ^ 2 * (D.s 0 ^ 2 - D.s 2 ^ 2) = D.s 0 ^ 2 - D.s 1 ^ 2 := by
    unfold absX1
    rw [Real.sq_sqrt (div_nonneg (by nlinarith) h13.le), div_mul_cancel₀ _ h13.ne']
  have a3 : absX3 D ^ 2 * (D.s 0 ^ 2 - D.s 2 ^ 2) = D.s 1 ^ 2 - D.s 2 ^ 2 := by
    unfold absX3
    rw [Real.sq_sqrt (div_nonneg (by nlinarith) h13.le), div_mul_cancel₀ _ h13.ne']
  simp only [signs, List.mem_cons, List.not_mem_nil, or_false] at hx
  rcases hx with rfl | rfl | rfl | rfl
  · exact ⟨h2, h13.ne', a1, a3⟩
  · exact ⟨h2, h13.ne', a1, by simpa using a3⟩
  · exact ⟨h2, h13.ne', by simpa using a1, a3⟩
  · exact ⟨h2, h13.ne', by simpa using a1, by simpa using a3⟩

theorem motions_some {svd : M3 → Svd 3} {H : M3} {l : List Motion} (h : motions svd H = some l) :
    ¬ near ((svd H).s 0) ((svd H).s 1) ∧ ¬ near ((svd H).s 1) ((svd H).s 2) ∧
      l = (signs (svd H)).flatMap (fun x => pairOf (svd H) x.1 x.2) := by
  unfold motions at h
  split at h
  · exact absurd h (by simp)
  · rename_i hn
    rw [not_or] at hn
    exact ⟨hn.1, hn.2, (Option.some.inj h).symm⟩

theorem separated_of {H : M3} {D : Svd 3} (h : IsSvd H D) (h0 : D.s 1 ≠ 0) (h1 : ¬ near (D.s 0) (D.s 1)) (h2 : ¬ near (D.s 1) (D.s 2)) : Separated D := by
  have p1 := lt_of_le_of_ne (h.pos 1) (Ne.symm h0)
  unfold near at h1 h2
  push Not at h1 h2
  refine ⟨h0, ?_, ?_⟩
  · have := h1 h0
    rwa [le_div_iff₀ p1] at this
  · by_cases h3 : D.s 2 = 0
    · rw [h3]; linarith
    · have := h2 h3
      rwa [le_div_iff₀ (lt_of_le_of_ne (h.pos 2) (Ne.symm h3))] at this

/-- **Every motion returned** is a rotation, a translation and a plane with a unit normal whose homography is the given one. -/
theorem C100_sound (svd : M3 → Svd 3) (H : M3) (hd : IsSvd H (svd H)) (h0 : (svd H).s 1 ≠ 0) (l : List Motion) (h : motions svd H = some l)
    (m : Motion) (hm : m ∈ l) : IsRot m.R ∧ m.n ⬝ᵥ m.n = 1 ∧ H = m.d • m.R - vecMulVec m.t m.n := by
  obtain ⟨n1, n2, rfl⟩ := motions_some h
  have hsep := separated_of hd h0 n1 n2
  obtain ⟨x, hx, hm⟩ := List.mem_flatMap.1 hm
  have hc := signs_coord hd hsep hx
  have hn : (-((svd H).vhᵀ *ᵥ ![x.1, 0, x.2])) ⬝ᵥ (-((svd H).vhᵀ *ᵥ ![x.1, 0, x.2])) = 1 := by
    rw [neg_dotProduct_neg, dotProduct_mulVec, vecMul_transpose, mulVec_mulVec, hd.vh, one_mulVec, dot3]
    have := hc.unit
    simp
    linarith
  unfold pairOf at hm
  simp only [List.mem_cons, List.not_mem_nil, or_false] at hm
  rcases hm with rfl | rfl
  · refine ⟨frame_rot hd (rotP_rot hc), hn, ?_⟩
    exact frame_eq (x1 := 0) (x3 := 0) hd (by rw [sv_eq]; exact homP hc)
  · refine ⟨frame_rot hd (rotN_rot hc), hn, ?_⟩
    have := frame_eq (x1 := 0) (x3 := 0) hd (Q := rotN _ _ _ x.1 x.2) (δ := -(svd H).s 1) (by rw [sv_eq]; exact homN hc)
    unfold IsHomography at this
    simp only at this ⊢
    rw [show -((svd H).u.det * (svd H).vh.det * (svd H).s 1) = (svd H).u.det * (svd H).vh.det * -(svd H).s 1 by ring]
    exact this

/-- Points of the plane of a motion are mapped as by the motion. -/
theorem C100_plane (svd : M3 → Svd 3) (H : M3) (hd : IsSvd H (svd H)) (h0 : (svd H).s 1 ≠ 0) (l : List Motion) (h : motions svd H = some l)
    (m : Motion) (hm : m ∈ l) (X : V3) (hX : m.n ⬝ᵥ X + m.d = 0) : H *ᵥ X = m.d • (m.R *ᵥ X + m.t) := by
  obtain ⟨-, -, e⟩ := C100_sound svd H hd h0 l h m hm
  rw [e, sub_mulVec, smul_mulVec, vecMulVec_mulVec, smul_add]
  have : m.n ⬝ᵥ X = -m.d := by linarith
  rw [this]
  funext i
  simp

/-! ### Completeness -/

/-- The normal and distance of the plane in the frame. -/
theorem frame_normal {d1 d2 d3 δ : ℝ} {Q : M3} {t n : V3} (hp : 0 ≤ d3) (h12 : d2 < d1) (h23 : d3 < d2) (hQ : Qᵀ * Q = 1) (hn : n ⬝ᵥ n = 1)
    (h : diagonal ![d1, d2, d3] = δ • Q - vecMulVec t n) : δ ^ 2 = d2 ^ 2 ∧ n 1 = 0 ∧ Coord d1 d2 d3 (n 0) (n 2) := by
  have hv : ∀ v w : V3, n ⬝ᵥ v = 0 → n ⬝ᵥ w = 0 →
      (diagonal ![d1, d2, d3] *ᵥ v) ⬝ᵥ (diagonal ![d1, d2, d3] *ᵥ w) = δ ^ 2 * (v ⬝ᵥ w) := by
    intro v w h1 h2
    have e : ∀ v, n ⬝ᵥ v = 0 → diagonal ![d1, d2, d3] *ᵥ v = δ • (Q *ᵥ v) := by
      intro v h1
      rw [h, sub_mulVec, smul_mulVec, vecMulVec_mulVec, h1]
      simp
    rw [e v h1, e w h2, smul_dotProduct, dotProduct_smul, dotProduct_mulVec, ← mulVec_transpose, mulVec_mulVec, hQ, one_mulVec]
    simp only [smul_eq_mul]
    ring
  have q1 := hv ![n 1, -n 0, 0] ![n 1, -n 0, 0] (by rw [dot3]; simp; ring) (by rw [dot3]; simp; ring)
  have q2 := hv ![n 2, 0, -n 0] ![n 2, 0, -n 0] (by rw [dot3]; simp; ring) (by rw [dot3]; simp; ring)
  have q3 := hv ![0, n 2, -n 1] ![0, n 2, -n 1] (by rw [dot3]; simp; ring) (by rw [dot3]; simp; ring)
  rw [dot3, dot3] at q1 q2 q3
  simp [mulVec_diagonal] at q1 q2 q3
  rw [dot3] at hn
  have p1 : 0 < d1 ^ 2 - d2 ^ 2 := by nlinarith
  have p3 : 0 < d2 ^ 2 - d3 ^ 2 := by nlinarith
  have hδ : δ ^ 2 = d2 ^ 2 := by
    rcases lt_trichotomy (δ ^ 2) (d2 ^ 2) with hlt | heq | hgt
    · exfalso
      -- both first values are above
      have e : (d1 ^ 2 - δ ^ 2) * (n 1) ^ 2 + (d2 ^ 2 - δ ^ 2) * (n 0) ^ 2 = 0 := by linear_combination q1
      have a : 0 < d1 ^ 2 - δ ^ 2 := by linarith
      have b : 0 < d2 ^ 2 - δ ^ 2 := by linarith
      have z1 : n 1 ^ 2 = 0 := by
        have := mul_nonneg a.le (sq_nonneg (n 1)); have := mul_nonneg b.le (sq_nonneg (n 0))
        have : (d1 ^ 2 - δ ^ 2) * (n 1) ^ 2 = 0 := by linarith
        exact (mul_eq_zero.1 this).resolve_left a.ne'
      have z0 : n 0 ^ 2 = 0 := by
        have := mul_nonneg a.le (sq_nonneg (n 1)); have := mul_nonneg b.le (sq_nonneg (n 0))
        have : (d2 ^ 2 - δ ^ 2) * (n 0) ^ 2 = 0 := by linarith
        exact (mul_eq_zero.1 this).resolve_left b.ne'
      have e2 : (d1 ^ 2 - δ ^ 2) * (n 2) ^ 2 + (d3 ^ 2 - δ ^ 2) * (n 0) ^ 2 = 0 := by linear_combination q2
      have z2 : n 2 ^ 2 = 1 := by nlinarith
      rw [z0, z2] at e2
      linarith
    · exact heq
    · exfalso
      have e : (d2 ^ 2 - δ ^ 2) * (n 2) ^ 2 + (d3 ^ 2 - δ ^ 2) * (n 1) ^ 2 = 0 := by linear_combination q3
      have a : 0 < δ ^ 2 - d2 ^ 2 := by linarith
      have b : 0 < δ ^ 2 - d3 ^ 2 := by linarith
      have z2 : n 2 ^ 2 = 0 := by
        have := mul_nonneg a.le (sq_nonneg (n 2)); have := mul_nonneg b.le (sq_nonneg (n 1))
        have : (δ ^ 2 - d2 ^ 2) * (n 2) ^ 2 = 0 := by linarith
        exact (mul_eq_zero.1 this).resolve_left a.ne'
      have z1 : n 1 ^ 2 = 0 := by
        have := mul_nonneg a.le (sq_nonneg (n 2)); have := mul_nonneg b.le (sq_nonneg (n 1))
        have : (δ ^ 2 - d3 ^ 2) * (n 1) ^ 2 = 0 := by linarith
        exact (mul_eq_zero.1 this).resolve_left b.ne'
      have e2 : (d1 ^ 2 - δ ^ 2) * (n 2) ^ 2 + (d3 ^ 2 - δ ^ 2) * (n 0) ^ 2 = 0 := by linear_combination q2
      have z0 : n 0 ^ 2 = 1 := by nlinarith
      rw [z0, z2] at e2
      linarith
  have hn1 : n 1 = 0 := by
    have e : (d1 ^ 2 - d2 ^ 2) * (n 1) ^ 2 = 0 := by rw [hδ] at q1; linear_combination q1
    exact pow_eq_zero_iff two_ne_zero |>.1 ((mul_eq_zero.1 e).resolve_left p1.ne')
  rw [hδ] at q2
  rw [hn1] at hn
  refine ⟨hδ, hn1, ⟨by linarith, by linarith, ?_, ?_⟩⟩
  · linear_combination -q2 + (d1 ^ 2 - d2 ^ 2) * hn
  · linear_combination q2 + (d2 ^ 2 - d3 ^ 2) * hn

theorem cols_ext {A B : M3} (h : ∀ j, A *ᵥ Pi.single j 1 = B *ᵥ Pi.single j 1) : A = B := by
  ext i j
  have := congrFun (h j) i
  simpa [mulVec_single_one] using this

/-- The rotation and the translation in the frame. -/
theorem frame_rotation {d1 d2 d3 δ ε : ℝ} {Q : M3} {t n : V3} (hQ : IsRot Q) (hc : Coord d1 d2 d3 (n 0) (n 2)) (hn1 : n 1 = 0)
    (hε : ε * ε = 1) (hδ : δ = ε * d2) (h : diagonal ![d1, d2, d3] = δ • Q - vecMulVec t n) :
    Q *ᵥ Pi.single 0 1 = ![(ε * d1 * n 2 ^ 2 + d3 * n 0 ^ 2) / d2, 0, (d1 - ε * d3) * n 0 * n 2 / d2] ∧
    Q *ᵥ Pi.single 1 1 = ![0, ε, 0] ∧
    Q *ᵥ Pi.single 2 1 = ![(d3 - ε * d1) * n 0 * n 2 / d2, 0, (ε * d3 * n 0 ^ 2 + d1 * n 2 ^ 2) / d2] ∧
    t = ![(ε * d3 - d1) * n 0, 0, (ε * d1 - d3) * n 2] := by
  have h2 := hc.h2
  have hu := hc.unit
  have hε0 : ε ≠ 0 := by rintro rfl; norm_num at hε
  have hδ0 : δ ≠ 0 := by rw [hδ]; exact mul_ne_zero hε0 h2
  have hinv : 1 / δ = ε / d2 := by rw [hδ]; field_simp; linarith
  have e : ∀ v, n ⬝ᵥ v = 0 → Q *ᵥ v = (ε / d2) • (diagonal ![d1, d2, d3] *ᵥ v) := by
    intro v h1
    have : diagonal ![d1, d2, d3] *ᵥ v = δ • (Q *ᵥ v) := by
      rw [h, sub_mulVec, smul_mulVec, vecMulVec_mulVec, h1]
      simp
    rw [this, smul_smul, ← hinv, one_div_mul_cancel hδ0, one_smul]
  have q1 : Q *ᵥ ![0, 1, 0] = ![0, ε, 0] := by
    rw [e _ (by rw [dot3, hn1]; simp)]
    apply vec_ext <;> simp [mulVec_diagonal]
    field_simp
  have qw : Q *ᵥ ![n 2, 0, -n 0] = ![ε * d1 * n 2 / d2, 0, -(ε * d3 * n 0 / d2)] := by
    rw [e _ (by rw [dot3, hn1]; simp; ring)]
    apply vec_ext <;> simp [mulVec_diagonal] <;> field_simp
  have hncross : n = cross ![n 2, 0, -n 0] ![0, 1, 0] := by
    apply vec_ext <;> simp [cross, hn1]
  have qn : Q *ᵥ n = ![d3 * n 0 / d2, 0, d1 * n 2 / d2] := by
    conv_lhs => rw [hncross]
    rw [← GpsBias.rot_cross hQ, q1, qw]
    apply vec_ext <;> simp [cross] <;> field_simp
    · linear_combination (d3 * n 0) * hε
    · linear_combination (d1 * n 2) * hε
  have s0 : (Pi.single 0 1 : V3) = n 2 • ![n 2, 0, -n 0] + n 0 • n := by
    apply vec_ext <;> simp [hn1]
    · linarith
    · ring
  have s2 : (Pi.single 2 1 : V3) = (-n 0) • ![n 2, 0, -n 0] + n 2 • n := by
    apply vec_ext <;> simp [hn1]
    · ring
    · linarith
  have s1 : (Pi.single 1 1 : V3) = ![0, 1, 0] := by
    apply vec_ext <;> simp
  refine ⟨?_, ?_, ?_, ?_⟩
  · rw [s0, mulVec_add, mulVec_smul, mulVec_smul, qw, qn]
    apply vec_ext <;> simp <;> field_simp <;> ring
  · rw [s1, q1]
  · rw [s2, mulVec_add, mulVec_smul, mulVec_smul, qw, qn]
    apply vec_ext <;> simp <;> field_simp <;> ring
  · have hnn : n ⬝ᵥ n = 1 := by rw [dot3, hn1]; linarith
    have : t = δ • (Q *ᵥ n) - diagonal ![d1, d2, d3] *ᵥ n := by
      rw [h, sub_mulVec, smul_mulVec, vecMulVec_mulVec, hnn]
      simp
    rw [this, qn, hδ]
    apply vec_ext <;> simp [mulVec_diagonal, hn1] <;> field_simp

theorem second_ne {D : Svd 3} {Q : M3} {t n : V3} {δ : ℝ} (hQ : IsRot Q) (hδ : δ ≠ 0) (hnn : n ⬝ᵥ n = 1) (hdesc : D.s 2 ≤ D.s 1) (hpos : 0 ≤ D.s 2)
    (h : diagonal ![D.s 0, D.s 1, D.s 2] = δ • Q - vecMulVec t n) : D.s 1 ≠ 0 := by
  intro h1
  have h2 : D.s 2 = 0 := by linarith
  have hz : ∀ v : V3, n ⬝ᵥ v = 0 → v 0 = 0 → v = 0 := by
    intro v hv h0
    have e : diagonal ![D.s 0, D.s 1, D.s 2] *ᵥ v = δ • (Q *ᵥ v) := by
      rw [h, sub_mulVec, smul_mulVec, vecMulVec_mulVec, hv]
      simp
    have e0 : diagonal ![D.s 0, D.s 1, D.s 2] *ᵥ v = 0 := by
      apply vec_ext <;> simp [mulVec_diagonal, h0, h1, h2]
    rw [e0] at e
    have hq : Q *ᵥ v = 0 := (smul_eq_zero.1 e.symm).resolve_left hδ
    have : v = Qᵀ *ᵥ (Q *ᵥ v) := by rw [mulVec_mulVec, hQ.1, one_mulVec]
    rw [this, hq, mulVec_zero]
  have v1 := hz ![0, n 2, -n 1] (by rw [dot3]; simp; ring) rfl
  have e2 : n 2 = 0 := by simpa using congrFun v1 1
  have e1 : n 1 = 0 := by simpa using congrFun v1 2
  have v2 := hz ![0, 1, 0] (by rw [dot3]; simp [e1]) rfl
  simpa using congrFun v2 1

/-- A motion in the frame of the decomposition. -/
theorem to_frame {D : Svd 3} {H : M3} {m : Motion} (hd : IsSvd H D) (hR : IsRot m.R) (hn : m.n ⬝ᵥ m.n = 1)
    (hH : H = m.d • m.R - vecMulVec m.t m.n) : ∃ (Q : M3) (t n : V3), IsRot Q ∧ m.R = (D.u.det * D.vh.det) • (D.u * Q * D.vh) ∧
      m.t = D.u *ᵥ t ∧ m.n = D.vhᵀ *ᵥ n ∧ n ⬝ᵥ n = 1 ∧ (D.u.det * D.vh.det) * (D.u.det * D.vh.det) = 1 ∧
      diagonal ![D.s 0, D.s 1, D.s 2] = ((D.u.det * D.vh.det) * m.d) • Q - vecMulVec t n := by
  have hs := sign_sq hd
  obtain ⟨s, hsd⟩ : ∃ s, s = D.u.det * D.vh.det := ⟨_, rfl⟩
  rw [← hsd] at hs
  have hv : D.vhᵀ * D.vh = 1 := mul_eq_one_comm.1 hd.vh
  have hu : D.u * D.uᵀ = 1 := mul_eq_one_comm.1 hd.u
  obtain ⟨Q, hQd⟩ : ∃ Q, Q = s • (D.uᵀ * m.R * D.vhᵀ) := ⟨_, rfl⟩
  have hQ : IsRot Q := by
    have hd' : IsSvd (D.uᵀ * diagonal D.s * D.vhᵀ) ⟨D.uᵀ, D.s, D.vhᵀ⟩ :=
      ⟨by rw [transpose_transpose]; exact hu, by rw [transpose_transpose]; exact hv, hd.pos, hd.desc, rfl⟩
    have := frame_rot hd' hR
    simp only [det_transpose] at this
    rw [← hsd, ← hQd] at this
    exact this
  have hRQ : m.R = s • (D.u * Q * D.vh) := by
    rw [hQd, Matrix.mul_smul, Matrix.smul_mul, smul_smul, hs, one_smul]
    calc m.R = (D.u * D.uᵀ) * m.R * (D.vhᵀ * D.vh) := by rw [hu, hv, Matrix.one_mul, Matrix.mul_one]
      _ = D.u * (D.uᵀ * m.R * D.vhᵀ) * D.vh := by simp only [Matrix.mul_assoc]
  obtain ⟨t, ht⟩ : ∃ t, t = D.uᵀ *ᵥ m.t := ⟨_, rfl⟩
  obtain ⟨n, hnd⟩ : ∃ n, n = D.vh *ᵥ m.n := ⟨_, rfl⟩
  have hmt : m.t = D.u *ᵥ t := by rw [ht, mulVec_mulVec, hu, one_mulVec]
  have hmn : m.n = D.vhᵀ *ᵥ n := by rw [hnd, mulVec_mulVec, hv, one_mulVec]
  have hnn : n ⬝ᵥ n = 1 := by
    rw [hmn, dotProduct_mulVec, vecMul_transpose, mulVec_mulVec, hd.vh, one_mulVec] at hn
    exact hn
  have hdiag : diagonal ![D.s 0, D.s 1, D.s 2] = (s * m.d) • Q - vecMulVec t n := by
    rw [← sv_eq]
    have e1 : diagonal D.s = D.uᵀ * H * D.vhᵀ := by
      rw [hd.eq]
      calc diagonal D.s = (D.uᵀ * D.u) * diagonal D.s * (D.vh * D.vhᵀ) := by rw [hd.u, hd.vh, Matrix.one_mul, Matrix.mul_one]
        _ = _ := by simp only [Matrix.mul_assoc]
    rw [e1]
    conv_lhs => rw [hH]
    rw [Matrix.mul_sub, Matrix.sub_mul, Matrix.mul_smul, Matrix.smul_mul, ← outer_frame, transpose_transpose, ← ht, ← hnd, hQd, smul_smul,
      show s * m.d * s = (s * s) * m.d by ring, hs, one_mul]
  subst hsd
  exact ⟨Q, t, n, hQ, hRQ, hmt, hmn, hnn, hs, hdiag⟩

/-- **No motion is missed**: the motion of every rotation, translation and plane with the given homography is returned, when the singular
values are not nearly equal. -/
theorem C100_complete (svd : M3 → Svd 3) (H : M3) (hd : IsSvd H (svd H)) (m : Motion) (hR : IsRot m.R) (hn : m.n ⬝ᵥ m.n = 1) (hd0 : m.d ≠ 0)
    (hH : H = m.d • m.R - vecMulVec m.t m.n) (h0 : 1.0001 * (svd H).s 1 ≤ (svd H).s 0) (h1 : 1.0001 * (svd H).s 2 ≤ (svd H).s 1) :
    ∃ l, motions svd H = some l ∧ m ∈ l := by
  obtain ⟨D, hD⟩ : ∃ D, D = svd H := ⟨_, rfl⟩
  rw [← hD] at hd h0 h1
  obtain ⟨Q, t, n, hQ, hRQ, hmt, hmn, hnn, hs, hdiag⟩ := to_frame hd hR hn hH
  have h2 := second_ne hQ (mul_ne_zero (by rintro h; rw [h] at hs; norm_num at hs) hd0) hnn (hd.desc 1 2 (by decide)) (hd.pos 2) hdiag
  obtain ⟨s, hsd⟩ : ∃ s, s = D.u.det * D.vh.det := ⟨_, rfl⟩
  rw [← hsd] at hs hRQ hdiag
  have pos1 := lt_of_le_of_ne (hd.pos 1) (Ne.symm h2)
  have d12 : D.s 1 < D.s 0 := by nlinarith
  have d23 : D.s 2 < D.s 1 := by have := hd.pos 2; nlinarith
  obtain ⟨k1, k2, k3⟩ := frame_normal (hd.pos 2) d12 d23 hQ.1 hnn hdiag
  -- the signs of the coordinates
  have c13 : 0 < D.s 0 ^ 2 - D.s 2 ^ 2 := by have := hd.pos 2; nlinarith
  have x1 : n 0 = absX1 D ∨ n 0 = -absX1 D := by
    apply sq_eq_sq_iff_eq_or_eq_neg.1
    unfold absX1
    rw [Real.sq_sqrt (div_nonneg (by nlinarith [hd.pos 1]) c13.le), eq_div_iff c13.ne', k3.e1]
  have x3 : n 2 = absX3 D ∨ n 2 = -absX3 D := by
    apply sq_eq_sq_iff_eq_or_eq_neg.1
    unfold absX3
    rw [Real.sq_sqrt (div_nonneg (by nlinarith [hd.pos 2]) c13.le), eq_div_iff c13.ne', k3.e3]
  have hsig : (-n 0, -n 2) ∈ signs D := by
    unfold signs
    rcases x1 with h | h <;> rcases x3 with h' | h' <;> rw [h, h'] <;> simp
  refine ⟨(signs (svd H)).flatMap (fun x => pairOf (svd H) x.1 x.2), ?_, ?_⟩
  · unfold motions
    rw [← hD, if_neg]
    rw [not_or]
    constructor
    · rintro ⟨-, hlt⟩
      rw [div_lt_iff₀ pos1] at hlt
      linarith
    · rintro ⟨h3, hlt⟩
      rw [div_lt_iff₀ (lt_of_le_of_ne (hd.pos 2) (Ne.symm h3))] at hlt
      linarith
  · rw [← hD]
    refine List.mem_flatMap.2 ⟨(-n 0, -n 2), hsig, ?_⟩
    have hnv : m.n = -(D.vhᵀ *ᵥ ![-n 0, 0, -n 2]) := by
      rw [hmn, ← mulVec_neg]
      congr 1
      apply vec_ext <;> simp [k2]
    have hmd : m.d = s * (s * m.d) := by rw [← mul_assoc, hs, one_mul]
    unfold pairOf
    simp only [List.mem_cons, List.not_mem_nil, or_false]
    rcases sq_eq_sq_iff_eq_or_eq_neg.1 k1 with hδ | hδ
    · left
      obtain ⟨r0, r1, r2, r3⟩ := frame_rotation (ε := 1) hQ k3 k2 (by norm_num) (by rw [hδ, one_mul]) hdiag
      have hQe : Q = rotP (D.s 0) (D.s 1) (D.s 2) (-n 0) (-n 2) := by
        apply cols_ext
        intro j
        fin_cases j
        · refine r0.trans ?_
          apply vec_ext <;> simp [rotP, mulVec_single_one] <;> ring
        · refine r1.trans ?_
          apply vec_ext <;> simp [rotP, mulVec_single_one]
        · refine r2.trans ?_
          apply vec_ext <;> simp [rotP, mulVec_single_one] <;> ring
      ext1
      · rw [← hsd, ← hQe]; exact hRQ
      · show m.t = _
        rw [hmt, r3]
        congr 1
        apply vec_ext <;> simp <;> ring
      · exact hnv
      · show m.d = _
        rw [← hsd, ← hδ]; exact hmd
    · right
      obtain ⟨r0, r1, r2, r3⟩ := frame_rotation (ε := -1) hQ k3 k2 (by norm_num) (by rw [hδ]; ring) hdiag
      have hQe : Q = rotN (D.s 0) (D.s 1) (D.s 2) (-n 0) (-n 2) := by
        apply cols_ext
        intro j
        fin_cases j
        · refine r0.trans ?_
          apply vec_ext <;> simp [rotN, mulVec_single_one] <;> ring
        · refine r1.trans ?_
          apply vec_ext <;> simp [rotN, mulVec_single_one]
        · refine r2.trans ?_
          apply vec_ext <;> simp [rotN, mulVec_single_one] <;> ring
      ext1
      · rw [← hsd, ← hQe]; exact hRQ
      · show m.t = _
        rw [hmt, r3]
        congr 1
        apply vec_ext <;> simp <;> ring
      · exact hnv
      · show m.d = _
        rw [← hsd]
        rw [hδ] at hmd
        linarith

/-- Eight motions are returned. -/
theorem C100_count (svd : M3 → Svd 3) (H : M3) (l : List Motion) (h : motions svd H = some l) : l.length = 8 := by
  obtain ⟨-, -, rfl⟩ := motions_some h
  rfl

/-- Nothing is returned exactly when a singular value is within one ten thousandth of the next. -/
theorem C100_none_iff (svd : M3 → Svd 3) (H : M3) (hd : IsSvd H (svd H)) : motions svd H = none ↔
    ((svd H).s 1 ≠ 0 ∧ (svd H).s 0 < 1.0001 * (svd H).s 1) ∨ ((svd H).s 2 ≠ 0 ∧ (svd H).s 1 < 1.0001 * (svd H).s 2) := by
  have e : ∀ a b : ℝ, 0 ≤ b → (near a b ↔ b ≠ 0 ∧ a < 1.0001 * b) := by
    intro a b hb
    unfold near
    constructor
    · rintro ⟨h1, h2⟩
      rw [div_lt_iff₀ (lt_of_le_of_ne hb (Ne.symm h1))] at h2
      exact ⟨h1, h2⟩
    · rintro ⟨h1, h2⟩
      refine ⟨h1, ?_⟩
      rwa [div_lt_iff₀ (lt_of_le_of_ne hb (Ne.symm h1))]
  rw [← e _ _ (hd.pos 1), ← e _ _ (hd.pos 2)]
  unfold motions
  by_cases hc : near ((svd H).s 0) ((svd H).s 1) ∨ near ((svd H).s 1) ((svd H).s 2)
  · rw [if_pos hc]; simp [hc]
  · rw [if_neg hc]; simp [hc]

/-- A camera that only turns, or moves along the normal of the plane, gives nothing: two singular values are equal. -/
theorem C100_perpendicular (svd : M3 → Svd 3) (H : M3) (hd : IsSvd H (svd H)) (R : M3) (n : V3) (d k : ℝ) (hR : IsRot R) (hn : n ⬝ᵥ n = 1)
    (hd0 : d ≠ 0) (hH : H = d • R - vecMulVec (k • (R *ᵥ n)) n) : motions svd H = none := by
  obtain ⟨D, hD⟩ : ∃ D, D = svd H := ⟨_, rfl⟩
  by_contra hne
  rw [C100_none_iff svd H hd, ← hD] at hne
  rw [← hD] at hd
  push Not at hne
  obtain ⟨c1, c2⟩ := hne
  obtain ⟨Q, t, n', hQ, hRQ, hmt, hmn, hnn, hs, hdiag⟩ := to_frame (m := ⟨R, k • (R *ᵥ n), n, d⟩) hd hR hn hH
  simp only at hRQ hmt hmn hdiag
  have hs0 : D.u.det * D.vh.det ≠ 0 := by rintro h; rw [h] at hs; norm_num at hs
  have h2 := second_ne hQ (mul_ne_zero hs0 hd0) hnn (hd.desc 1 2 (by decide)) (hd.pos 2) hdiag
  have pos1 := lt_of_le_of_ne (hd.pos 1) (Ne.symm h2)
  have d12 : D.s 1 < D.s 0 := by have := c1 h2; nlinarith
  have d23 : D.s 2 < D.s 1 := by
    by_cases h3 : D.s 2 = 0
    · rw [h3]; exact pos1
    · have := c2 h3; have := lt_of_le_of_ne (hd.pos 2) (Ne.symm h3); nlinarith
  obtain ⟨k1, k2, k3⟩ := frame_normal (hd.pos 2) d12 d23 hQ.1 hnn hdiag
  obtain ⟨ε, hε, hδ⟩ : ∃ ε : ℝ, ε * ε = 1 ∧ D.u.det * D.vh.det * d = ε * D.s 1 := by
    rcases sq_eq_sq_iff_eq_or_eq_neg.1 k1 with h | h
    · exact ⟨1, by norm_num, by rw [h]; ring⟩
    · exact ⟨-1, by norm_num, by rw [h]; ring⟩
  obtain ⟨r0, r1, r2, r3⟩ := frame_rotation hQ k3 k2 hε hδ hdiag
  have hu := k3.unit
  -- the translation along the turned normal
  have ht : t = (k * (D.u.det * D.vh.det)) • (Q *ᵥ n') := by
    have e1 : D.uᵀ *ᵥ (k • (R *ᵥ n)) = t := by rw [hmt, mulVec_mulVec, hd.u, one_mulVec]
    rw [← e1, hmn]
    conv_lhs => rw [hRQ]
    rw [mulVec_smul, smul_mulVec, mulVec_smul, smul_smul]
    congr 1
    rw [mulVec_mulVec, mulVec_mulVec]
    congr 1
    calc D.uᵀ * (D.u * Q * D.vh) * D.vhᵀ = (D.uᵀ * D.u) * Q * (D.vh * D.vhᵀ) := by simp only [Matrix.mul_assoc]
      _ = Q := by rw [hd.u, hd.vh, Matrix.one_mul, Matrix.mul_one]
  have hn' : n' = n' 0 • (Pi.single 0 1 : V3) + n' 2 • (Pi.single 2 1 : V3) := by
    apply vec_ext <;> simp [k2]
  have hQn : Q *ᵥ n' = ![D.s 2 * n' 0 / D.s 1, 0, D.s 0 * n' 2 / D.s 1] := by
    conv_lhs => rw [hn']
    rw [mulVec_add, mulVec_smul, mulVec_smul, r0, r2]
    apply vec_ext <;> simp <;> field_simp
    · linear_combination (D.s 2 * n' 0) * hu
    · linear_combination (D.s 0 * n' 2) * hu
  rw [hQn, r3] at ht
  have t0 := congrFun ht 0
  have t2 := congrFun ht 2
  simp at t0 t2
  have p1 : 0 < D.s 0 ^ 2 - D.s 1 ^ 2 := by nlinarith
  have p3 : 0 < D.s 1 ^ 2 - D.s 2 ^ 2 := by have := hd.pos 2; nlinarith
  have n0 : n' 0 ≠ 0 := by
    intro h; have := k3.e1; rw [h] at this; norm_num at this; linarith
  have n2 : n' 2 ≠ 0 := by
    intro h; have := k3.e3; rw [h] at this; norm_num at this; linarith
  obtain ⟨K, hK⟩ : ∃ K, K = k * (D.u.det * D.vh.det) := ⟨_, rfl⟩
  rw [← hK] at t0 t2
  have a0 : (ε * D.s 2 - D.s 0) * D.s 1 = K * D.s 2 := by
    field_simp at t0
    linear_combination t0
  have a2 : (ε * D.s 0 - D.s 2) * D.s 1 = K * D.s 0 := by
    field_simp at t2
    linear_combination t2
  have : (D.s 0 ^ 2 - D.s 2 ^ 2) * D.s 1 = 0 := by linear_combination (-D.s 0) * a0 + (D.s 2) * a2
  rcases mul_eq_zero.1 this with h | h
  · linarith
  · exact h2 h

/-- The decomposition of a diagonal homography. -/
noncomputable def exSvd : Svd 3 := ⟨1, ![3, 2, 1], 1⟩

theorem exSvd_is : IsSvd (diagonal ![3, 2, 1]) exSvd := by
  refine ⟨by simp [exSvd], by simp [exSvd], ?_, ?_, by simp [exSvd]⟩
  · intro i; fin_cases i <;> simp [exSvd]
  · intro i j hij; fin_cases i <;> fin_cases j <;> simp [exSvd] at hij ⊢ <;> norm_num

/-- The hypotheses hold in a concrete case: eight motions, of one homography. -/
example : ∃ l, motions (fun _ => exSvd) (diagonal ![3, 2, 1]) = some l ∧ l.length = 8 ∧
    ∀ m ∈ l, IsRot m.R ∧ diagonal ![3, 2, 1] = m.d • m.R - vecMulVec m.t m.n := by
  have h0 : exSvd.s 0 = 3 := rfl
  have h1 : exSvd.s 1 = 2 := rfl
  have h2 : exSvd.s 2 = 1 := rfl
  cases h : motions (fun _ => exSvd) (diagonal ![3, 2, 1]) with
  | none =>
    rw [C100_none_iff _ _ exSvd_is] at h
    rw [h0, h1, h2] at h
    rcases h with h | h <;> norm_num at h
  | some l =>
    refine ⟨l, rfl, C100_count _ _ _ h, fun m hm => ?_⟩
    obtain ⟨a, -, b⟩ := C100_sound _ _ exSvd_is (by rw [h1]; norm_num) l h m hm
    exact ⟨a, b⟩

end Verif.PlaneMotion
