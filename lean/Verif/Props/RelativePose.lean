import Verif.Model.RelativePose
import Verif.Props.Triangulation
import Verif.Props.GpsBias

/-!
# C98 — The relative pose of two views
-/
set_option linter.unusedSectionVars false
set_option linter.unusedSimpArgs false
set_option linter.unusedVariables false
namespace Verif.RelativePose
open Verif.Triangulation hiding cross
open Verif.Depthmap Matrix
open Verif.Superimpose (Svd IsRot IsSvd)
open Verif.AlignPrior (cross)
open Verif.GpsBias (rot_cross rot_dot)

/-! ### Specification -/

/-- `E` is, up to a factor, the essential matrix of the pose `y = R x + t`: `E v` is along `t × R v`. -/
def EssentialOf (E R : M3) (t : V3) (c : ℝ) : Prop := ∀ v : V3, E *ᵥ v = c • cross t (R *ᵥ v)

/-- The two bearings look at one point, in front of both cameras. -/
def Seen (R : M3) (t : V3) (q : V3 × V3) : Prop :=
  q.1 ⬝ᵥ q.1 = 1 ∧ q.2 ⬝ᵥ q.2 = 1 ∧ ∃ d1 d2 : ℝ, 0 < d1 ∧ 0 < d2 ∧ R *ᵥ (d1 • q.1) + t = d2 • q.2

/-- The angle of the two rays in the pose is at least that of a sine of 1e-5. -/
def Apart (R : M3) (q : V3 × V3) : Prop :=
  1 / 10 ^ 5 ≤ Real.sin (InnerProductGeometry.angle (pt q.1) (pt (Rᵀ *ᵥ q.2)))

/-! ### Vectors -/

theorem dot3 (u v : V3) : u ⬝ᵥ v = u 0 * v 0 + u 1 * v 1 + u 2 * v 2 := by
  simp [dotProduct, Fin.sum_univ_three]

theorem vec_ext {u v : V3} (h0 : u 0 = v 0) (h1 : u 1 = v 1) (h2 : u 2 = v 2) : u = v := by
  funext i
  fin_cases i
  · exact h0
  · exact h1
  · exact h2

theorem cross_smul_left (k : ℝ) (u v : V3) : cross (k • u) v = k • cross u v := by
  apply vec_ext <;> simp [cross] <;> ring

theorem cross_smul_right (k : ℝ) (u v : V3) : cross u (k • v) = k • cross u v := by
  apply vec_ext <;> simp [cross] <;> ring

theorem cross_anti (u v : V3) : cross u v = -cross v u := by
  apply vec_ext <;> simp [cross] <;> ring

/-- Lagrange. -/
theorem cross_dot_cross (t u v : V3) : cross t u ⬝ᵥ cross t v = (t ⬝ᵥ t) * (u ⬝ᵥ v) - (t ⬝ᵥ u) * (t ⬝ᵥ v) := by
  simp only [dot3, cross, Matrix.cons_val_zero, Matrix.cons_val_one, Matrix.cons_val]
  ring

theorem rot_row_dot {A : M3} (h : IsRot A) (i j : Fin 3) : A i ⬝ᵥ A j = if i = j then 1 else 0 := by
  have h2 : A * Aᵀ = 1 := mul_eq_one_comm.1 h.1
  have := congrFun (congrFun h2 i) j
  rw [Matrix.mul_apply, Matrix.one_apply] at this
  exact this

theorem rot_transpose {A : M3} (h : IsRot A) : IsRot Aᵀ :=
  ⟨by rw [transpose_transpose]; exact mul_eq_one_comm.1 h.1, by rw [det_transpose]; exact h.2⟩

theorem rot_rows {A : M3} (h : IsRot A) : cross (A 0) (A 1) = A 2 ∧ cross (A 1) (A 2) = A 0 ∧ cross (A 2) (A 0) = A 1 := by
  have hr := rot_cross (rot_transpose h)
  have e : ∀ i : Fin 3, Aᵀ *ᵥ Pi.single i 1 = A i := by
    intro i
    funext k
    rw [mulVec_single_one]
    rfl
  refine ⟨?_, ?_, ?_⟩
  · rw [← e 0, ← e 1, hr, ← e 2]
    congr 1
    apply vec_ext <;> simp [cross]
  · rw [← e 1, ← e 2, hr, ← e 0]
    congr 1
    apply vec_ext <;> simp [cross]
  · rw [← e 2, ← e 0, hr, ← e 1]
    congr 1
    apply vec_ext <;> simp [cross]

theorem rot_cols {A : M3} (h : IsRot A) : cross (fun i => A i 0) (fun i => A i 1) = (fun i => A i 2) ∧
    cross (fun i => A i 1) (fun i => A i 2) = (fun i => A i 0) ∧ cross (fun i => A i 2) (fun i => A i 0) = (fun i => A i 1) :=
  rot_rows (rot_transpose h)

/-- Coordinates in the rows of a rotation. -/
theorem rot_expand {A : M3} (h : IsRot A) (x : V3) : x = (A 0 ⬝ᵥ x) • A 0 + (A 1 ⬝ᵥ x) • A 1 + (A 2 ⬝ᵥ x) • A 2 := by
  have e : x = Aᵀ *ᵥ (A *ᵥ x) := by rw [mulVec_mulVec, h.1, one_mulVec]
  conv_lhs => rw [e]
  funext i
  simp only [mulVec, dot3, Matrix.transpose_apply, Pi.add_apply, Pi.smul_apply, smul_eq_mul]
  ring

/-! ### The signs of the singular bases -/

theorem det_pm {A : M3} (h : Aᵀ * A = 1) : A.det = 1 ∨ A.det = -1 := by
  have := congrArg Matrix.det h
  rw [det_mul, det_transpose, det_one] at this
  exact mul_self_eq_one_iff.1 this

theorem fixU_eq (U : M3) : fixU U = U * (if U.det < 0 then diagonal ![1, 1, -1] else 1) := by
  unfold fixU
  split
  · ext i j
    rw [mul_diagonal]
    fin_cases j <;> simp
  · rw [Matrix.mul_one]

theorem fixVt_eq (V : M3) : fixVt V = (if V.det < 0 then diagonal ![1, 1, -1] else 1) * V := by
  unfold fixVt
  split
  · ext i j
    rw [diagonal_mul]
    fin_cases i <;> simp
  · rw [Matrix.one_mul]

theorem diag_sq : (diagonal ![1, 1, -1] : M3) * diagonal ![1, 1, -1] = 1 := by
  rw [diagonal_mul_diagonal, ← diagonal_one]
  congr 1
  funext i
  fin_cases i <;> simp

theorem diag_det : (diagonal ![1, 1, -1] : M3).det = -1 := by
  rw [det_diagonal, Fin.prod_univ_three]
  simp

theorem fixU_rot {U : M3} (h : Uᵀ * U = 1) : IsRot (fixU U) := by
  rw [fixU_eq]
  rcases det_pm h with h1 | h1
  · rw [if_neg (by rw [h1]; norm_num), Matrix.mul_one]
    exact ⟨h, h1⟩
  · rw [if_pos (by rw [h1]; norm_num)]
    constructor
    · rw [transpose_mul, diagonal_transpose, Matrix.mul_assoc, ← Matrix.mul_assoc Uᵀ, h, Matrix.one_mul, diag_sq]
    · rw [det_mul, h1, diag_det]; norm_num

theorem fixVt_rot {V : M3} (h : V * Vᵀ = 1) : IsRot (fixVt V) := by
  rw [fixVt_eq]
  have h' : Vᵀ * V = 1 := mul_eq_one_comm.1 h
  rcases det_pm h' with h1 | h1
  · rw [if_neg (by rw [h1]; norm_num), Matrix.one_mul]
    exact ⟨h', h1⟩
  · rw [if_pos (by rw [h1]; norm_num)]
    constructor
    · rw [transpose_mul, diagonal_transpose, Matrix.mul_assoc, ← Matrix.mul_assoc (diagonal _), diag_sq, Matrix.one_mul, h']
    · rw [det_mul, h1, diag_det]; norm_num

theorem fixU_col (U : M3) (i : Fin 3) (j : Fin 3) (h : j ≠ 2) : fixU U i j = U i j := by
  unfold fixU
  split
  · simp [h]
  · rfl

theorem fixVt_row (V : M3) (i : Fin 3) (h : i ≠ 2) : fixVt V i = V i := by
  unfold fixVt
  split
  · funext j; simp [h]
  · rfl

theorem svd_row {E : M3} {d : Svd 3} (h : IsSvd E d) (i : Fin 3) : E *ᵥ d.vh i = d.s i • (fun k => d.u k i) := by
  have e : d.vh *ᵥ d.vh i = Pi.single i 1 := by
    funext k
    have := congrFun (congrFun h.vh k) i
    rw [Matrix.mul_apply, Matrix.one_apply] at this
    rw [Pi.single_apply]
    exact this
  rw [h.eq, ← mulVec_mulVec, e, ← mulVec_mulVec]
  funext k
  rw [mulVec_single_one]
  show (d.u *ᵥ fun m => diagonal d.s m i) k = _
  have : (fun m => diagonal d.s m i) = Pi.single i (d.s i) := by
    funext m
    rw [diagonal_apply, Pi.single_apply]
    split <;> simp_all
  rw [this, mulVec_single]
  simp [mul_comm]

/-! ### The four poses -/

/-- The matrix of the turn in the plane of the first two singular vectors. -/
def turn (δ : ℝ) : M3 := !![0, δ, 0; -δ, 0, 0; 0, 0, 1]

theorem W_turn : W = turn (-1) := by unfold W turn; simp
theorem Wt_turn : Wᵀ = turn 1 := by
  unfold W turn
  ext i j
  fin_cases i <;> fin_cases j <;> simp

theorem turn_mul_apply (U V : M3) (hV : IsRot V) (δ : ℝ) :
    (U * turn δ * V) *ᵥ V 0 = (-δ) • (fun k => U k 1) ∧ (U * turn δ * V) *ᵥ V 1 = δ • (fun k => U k 0) ∧
      (U * turn δ * V) *ᵥ V 2 = (fun k => U k 2) := by
  have e : ∀ i, V *ᵥ V i = Pi.single i 1 := by
    intro i
    funext k
    rw [Pi.single_apply]
    exact rot_row_dot hV k i
  simp only [← mulVec_mulVec, e]
  refine ⟨?_, ?_, ?_⟩ <;>
  · funext k
    simp [mulVec, dot3, turn, mul_comm]

theorem eq_turn {R U V : M3} (hV : IsRot V) {δ : ℝ} (h0 : R *ᵥ V 0 = (-δ) • (fun k => U k 1))
    (h1 : R *ᵥ V 1 = δ • (fun k => U k 0)) (h2 : R *ᵥ V 2 = (fun k => U k 2)) : R = U * turn δ * V := by
  obtain ⟨t0, t1, t2⟩ := turn_mul_apply U V hV δ
  have : ∀ x : V3, R *ᵥ x = (U * turn δ * V) *ᵥ x := by
    intro x
    rw [rot_expand hV x]
    simp only [mulVec_add, mulVec_smul, h0, h1, h2, t0, t1, t2]
  ext i j
  have := congrFun (this (Pi.single j 1)) i
  simpa [mulVec_single_one] using this

/-- The singular values and vectors of an essential matrix. -/
theorem essential_frame {E R : M3} {t : V3} {c : ℝ} {d : Svd 3} (hE : EssentialOf E R t c) (hR : IsRot R) (ht : t ⬝ᵥ t = 1)
    (hc : c ≠ 0) (hd : IsSvd E d) :
    ∃ δ ε : ℝ, (δ = 1 ∨ δ = -1) ∧ (ε = 1 ∨ ε = -1) ∧ t = ε • (fun k => fixU d.u k 2) ∧
      R = fixU d.u * turn δ * fixVt d.vh := by
  have hU := fixU_rot hd.u
  have hV := fixVt_rot hd.vh
  set U := fixU d.u with hUd
  set V := fixVt d.vh with hVd
  -- the images of the right singular vectors
  have hvv : ∀ i j : Fin 3, d.vh i ⬝ᵥ d.vh j = if i = j then 1 else 0 := by
    intro i j
    have := congrFun (congrFun hd.vh i) j
    rw [Matrix.mul_apply, Matrix.one_apply] at this
    exact this
  have huu : ∀ i j : Fin 3, (fun k => d.u k i) ⬝ᵥ (fun k => d.u k j) = if i = j then 1 else 0 := by
    intro i j
    have := congrFun (congrFun hd.u i) j
    rw [Matrix.mul_apply, Matrix.one_apply] at this
    exact this
  set a : Fin 3 → ℝ := fun i => t ⬝ᵥ (R *ᵥ d.vh i) with ha
  have hsa : ∀ i, d.s i ^ 2 = c ^ 2 * (1 - a i ^ 2) := by
    intro i
    have h1 := svd_row hd i
    have h2 : (E *ᵥ d.vh i) ⬝ᵥ (E *ᵥ d.vh i) = d.s i ^ 2 := by
      rw [h1, smul_dotProduct, dotProduct_smul, huu]; simp; ring
    rw [hE, smul_dotProduct, dotProduct_smul, cross_dot_cross, rot_dot hR, hvv, ht] at h2
    simp only [if_true, smul_eq_mul] at h2
    rw [← h2, ha]; ring
  have haa : ∀ i j, i ≠ j → a i * a j = 0 := by
    intro i j hij
    have h2 : (E *ᵥ d.vh i) ⬝ᵥ (E *ᵥ d.vh j) = 0 := by
      rw [svd_row hd i, svd_row hd j, smul_dotProduct, dotProduct_smul, huu, if_neg hij]; simp
    rw [hE, hE, smul_dotProduct, dotProduct_smul, cross_dot_cross, rot_dot hR, hvv, if_neg hij] at h2
    simp only [smul_eq_mul, mul_zero, zero_sub] at h2
    have h3 : c * c * (a i * a j) = 0 := by rw [ha]; linarith
    exact (mul_eq_zero.1 h3).resolve_left (mul_ne_zero hc hc)
  have hsum : a 0 ^ 2 + a 1 ^ 2 + a 2 ^ 2 = 1 := by
    have hx : ∀ i, a i = d.vh i ⬝ᵥ (Rᵀ *ᵥ t) := by
      intro i
      rw [ha]
      simp only
      rw [dotProduct_mulVec, dotProduct_comm, ← mulVec_transpose]
    have h1 : (d.vh *ᵥ (Rᵀ *ᵥ t)) ⬝ᵥ (d.vh *ᵥ (Rᵀ *ᵥ t)) = 1 := by
      rw [dotProduct_mulVec, vecMul_mulVec, mul_eq_one_comm.1 hd.vh, vecMul_one, rot_dot (rot_transpose hR), ht]
    rw [dot3] at h1
    rw [hx, hx, hx]
    simp only [mulVec] at h1 ⊢
    linarith
  have h01 := haa 0 1 (by decide)
  have h02 := haa 0 2 (by decide)
  have h12 := haa 1 2 (by decide)
  have hs01 := hd.desc 0 1 (by decide)
  have hs12 := hd.desc 1 2 (by decide)
  have hp := hd.pos
  have hc2 : 0 < c ^ 2 := by positivity
  -- the last one is the translation
  have ha0 : a 0 = 0 := by
    by_contra h
    have h1 : a 1 = 0 := (mul_eq_zero.1 h01).resolve_left h
    have h2 : a 2 = 0 := (mul_eq_zero.1 h02).resolve_left h
    have e0 := hsa 0
    have e1 := hsa 1
    rw [h1, h2] at hsum
    rw [h1] at e1
    have : d.s 0 ^ 2 = 0 := by rw [e0]; nlinarith
    have h0 : d.s 0 = 0 := by simpa using this
    have := hp 1
    have h3 : d.s 1 = 0 := by linarith
    rw [h3] at e1
    nlinarith
  have ha1 : a 1 = 0 := by
    by_contra h
    have h2 : a 2 = 0 := (mul_eq_zero.1 h12).resolve_left h
    have e0 := hsa 1
    have e1 := hsa 2
    rw [ha0, h2] at hsum
    rw [h2] at e1
    have : d.s 1 ^ 2 = 0 := by rw [e0]; nlinarith
    have h0 : d.s 1 = 0 := by simpa using this
    have := hp 2
    have h3 : d.s 2 = 0 := by linarith
    rw [h3] at e1
    nlinarith
  have hs : ∀ i : Fin 3, i ≠ 2 → a i = 0 → d.s i = |c| := by
    intro i _ h
    have := hsa i
    rw [h] at this
    rw [← Real.sqrt_sq (hp i), this, ← Real.sqrt_sq_eq_abs]
    congr 1; ring
  have hs0 := hs 0 (by decide) ha0
  have hs1 := hs 1 (by decide) ha1
  -- the right-handed frame
  set w : Fin 3 → V3 := fun i => R *ᵥ V i with hw
  have hwA : IsRot (V * Rᵀ) := ⟨by
    rw [transpose_mul, transpose_transpose, Matrix.mul_assoc, ← Matrix.mul_assoc Vᵀ, hV.1, Matrix.one_mul]
    exact mul_eq_one_comm.1 hR.1, by rw [det_mul, hV.2, det_transpose, hR.2, one_mul]⟩
  have hwr : ∀ i, (V * Rᵀ) i = w i := by
    intro i
    funext k
    rw [hw, Matrix.mul_apply]
    simp only [mulVec, dotProduct, Matrix.transpose_apply]
    exact Finset.sum_congr rfl (fun j _ => mul_comm _ _)
  have hv0 : V 0 = d.vh 0 := fixVt_row _ _ (by decide)
  have hv1 : V 1 = d.vh 1 := fixVt_row _ _ (by decide)
  have hexp := rot_expand hwA t
  rw [hwr, hwr, hwr] at hexp
  have ht0 : w 0 ⬝ᵥ t = 0 := by rw [dotProduct_comm, hw]; simp only [hv0]; exact ha0
  have ht1 : w 1 ⬝ᵥ t = 0 := by rw [dotProduct_comm, hw]; simp only [hv1]; exact ha1
  rw [ht0, ht1, zero_smul, zero_smul, zero_add, zero_add] at hexp
  set ε : ℝ := w 2 ⬝ᵥ t with hε
  have hw2 : w 2 ⬝ᵥ w 2 = 1 := by rw [← hwr, rot_row_dot hwA]; simp
  have hε2 : ε * ε = 1 := by
    rw [hexp, smul_dotProduct, dotProduct_smul, hw2] at ht
    simpa using ht
  obtain ⟨c0, c1, c2⟩ := rot_rows hwA
  rw [hwr, hwr, hwr] at c0 c1 c2
  -- the left singular vectors
  have hU0 : (fun k => d.u k 0) = (fun k => U k 0) := by funext k; exact (fixU_col _ _ _ (by decide)).symm
  have hU1 : (fun k => d.u k 1) = (fun k => U k 1) := by funext k; exact (fixU_col _ _ _ (by decide)).symm
  have habs : |c| ≠ 0 := abs_ne_zero.2 hc
  set σ : ℝ := c / |c| with hσ
  have hσ2 : σ * σ = 1 := by
    rw [hσ, div_mul_div_comm, abs_mul_abs_self, div_self (mul_ne_zero hc hc)]
  have hcσ : c = |c| * σ := by rw [hσ]; field_simp
  have e0 : (fun k => U k 0) = (σ * ε) • w 1 := by
    have h1 := svd_row hd 0
    rw [hE, hs0, hU0, ← hv0] at h1
    have h2 : cross t (R *ᵥ V 0) = ε • w 1 := by
      rw [hexp, cross_smul_left]
      show ε • cross (w 2) (w 0) = _
      rw [c2]
    rw [h2] at h1
    have h3 : |c| • (fun k => U k 0) = |c| • ((σ * ε) • w 1) := by
      rw [← h1, smul_smul, smul_smul, ← mul_assoc, ← hcσ]
    exact smul_right_injective _ habs h3
  have e1 : (fun k => U k 1) = (-(σ * ε)) • w 0 := by
    have h1 := svd_row hd 1
    rw [hE, hs1, hU1, ← hv1] at h1
    have h2 : cross t (R *ᵥ V 1) = (-ε) • w 0 := by
      rw [hexp, cross_smul_left]
      show ε • cross (w 2) (w 1) = _
      rw [cross_anti, c1, smul_neg, neg_smul]
    rw [h2] at h1
    have h3 : |c| • (fun k => U k 1) = |c| • ((-(σ * ε)) • w 0) := by
      rw [← h1, smul_smul, smul_smul, show |c| * -(σ * ε) = (|c| * σ) * -ε by ring, ← hcσ]
    exact smul_right_injective _ habs h3
  have hδ2 : (σ * ε) * (σ * ε) = 1 := by linear_combination (ε * ε) * hσ2 + hε2
  have e2 : (fun k => U k 2) = w 2 := by
    rw [← (rot_cols hU).1, e0, e1, cross_smul_left, cross_smul_right, cross_anti, c0, smul_neg, neg_smul, neg_neg, smul_smul, hδ2,
      one_smul]
  refine ⟨σ * ε, ε, mul_self_eq_one_iff.1 hδ2, mul_self_eq_one_iff.1 hε2, by rw [e2]; exact hexp, ?_⟩
  apply eq_turn hV
  · rw [e1, smul_smul, show -(σ * ε) * -(σ * ε) = 1 by linarith, one_smul]
  · rw [e0, smul_smul, hδ2, one_smul]
  · exact e2.symm

theorem normalized_unit {v : V3} (h : v ⬝ᵥ v = 1) : normalized v = v := by
  unfold normalized norm3
  rw [h]; simp

theorem col_unit {U : M3} (h : IsRot U) (j : Fin 3) : (fun k => U k j) ⬝ᵥ (fun k => U k j) = 1 := by
  have := rot_row_dot (rot_transpose h) j j
  rw [if_pos rfl] at this
  exact this

theorem candidates_eq {d : Svd 3} (hu : d.uᵀ * d.u = 1) :
    candidates d = [⟨fixU d.u * turn (-1) * fixVt d.vh, fun k => fixU d.u k 2⟩, ⟨fixU d.u * turn 1 * fixVt d.vh, fun k => fixU d.u k 2⟩,
      ⟨fixU d.u * turn (-1) * fixVt d.vh, -(fun k => fixU d.u k 2)⟩, ⟨fixU d.u * turn 1 * fixVt d.vh, -(fun k => fixU d.u k 2)⟩] := by
  unfold candidates translations rotations
  have h1 := col_unit (fixU_rot hu) 2
  rw [normalized_unit h1, normalized_unit (by rw [neg_dotProduct_neg]; exact h1), ← W_turn, ← Wt_turn]
  rfl

/-- The pose of an essential matrix is one of the four that are tried. -/
theorem C98_candidates (E R : M3) (t : V3) (c : ℝ) (d : Svd 3) (hE : EssentialOf E R t c) (hR : IsRot R) (ht : t ⬝ᵥ t = 1)
    (hc : c ≠ 0) (hd : IsSvd E d) : (⟨R, t⟩ : RT) ∈ candidates d := by
  obtain ⟨δ, ε, hδ, hε, h1, h2⟩ := essential_frame hE hR ht hc hd
  rw [candidates_eq hd.u, h2, h1]
  rcases hδ with rfl | rfl <;> rcases hε with rfl | rfl <;> simp

theorem turn_rot {δ : ℝ} (h : δ = 1 ∨ δ = -1) : IsRot (turn δ) := by
  constructor
  · ext i j
    rcases h with rfl | rfl <;> fin_cases i <;> fin_cases j <;> simp [turn, Matrix.mul_apply, Fin.sum_univ_three]
  · rcases h with rfl | rfl <;> simp [turn, det_fin_three]

theorem rot_mul {A B : M3} (hA : IsRot A) (hB : IsRot B) : IsRot (A * B) := by
  constructor
  · rw [transpose_mul, Matrix.mul_assoc, ← Matrix.mul_assoc Aᵀ, hA.1, Matrix.one_mul, hB.1]
  · rw [det_mul, hA.2, hB.2, one_mul]

/-- Every pose that is tried has this matrix as its essential matrix, up to a factor. -/
theorem C98_sound (E : M3) (d : Svd 3) (hd : IsSvd E d) (h01 : d.s 0 = d.s 1) (h2 : d.s 2 = 0) (p : RT) (hp : p ∈ candidates d) :
    IsRot p.R ∧ p.t ⬝ᵥ p.t = 1 ∧ (EssentialOf E p.R p.t (d.s 0) ∨ EssentialOf E p.R p.t (-d.s 0)) := by
  have hU := fixU_rot hd.u
  have hV := fixVt_rot hd.vh
  rw [candidates_eq hd.u] at hp
  have key : ∃ δ ε : ℝ, (δ = 1 ∨ δ = -1) ∧ (ε = 1 ∨ ε = -1) ∧ p = ⟨fixU d.u * turn δ * fixVt d.vh, ε • (fun k => fixU d.u k 2)⟩ := by
    simp only [List.mem_cons, List.not_mem_nil, or_false] at hp
    rcases hp with rfl | rfl | rfl | rfl
    · exact ⟨-1, 1, by simp, by simp, by simp⟩
    · exact ⟨1, 1, by simp, by simp, by simp⟩
    · exact ⟨-1, -1, by simp, by simp, by simp⟩
    · exact ⟨1, -1, by simp, by simp, by simp⟩
  obtain ⟨δ, ε, hδ, hε, rfl⟩ := key
  have hε2 : ε * ε = 1 := mul_self_eq_one_iff.2 hε
  have hδ2 : δ * δ = 1 := mul_self_eq_one_iff.2 hδ
  refine ⟨rot_mul (rot_mul hU (turn_rot hδ)) hV, ?_, ?_⟩
  · simp only
    rw [smul_dotProduct, dotProduct_smul, col_unit hU]
    simpa using hε2
  · have hall : EssentialOf E (fixU d.u * turn δ * fixVt d.vh) (ε • (fun k => fixU d.u k 2)) (d.s 0 * (δ * ε)) := by
      obtain ⟨t0, t1, t2⟩ := turn_mul_apply (fixU d.u) (fixVt d.vh) hV δ
      obtain ⟨c0, c1, c2⟩ := rot_cols hU
      have f0 : E *ᵥ fixVt d.vh 0 = d.s 0 • (fun k => fixU d.u k 0) := by
        rw [fixVt_row _ _ (by decide), svd_row hd]
        congr 1
        funext k; exact (fixU_col _ _ _ (by decide)).symm
      have f1 : E *ᵥ fixVt d.vh 1 = d.s 0 • (fun k => fixU d.u k 1) := by
        rw [fixVt_row _ _ (by decide), svd_row hd, h01]
        congr 1
        funext k; exact (fixU_col _ _ _ (by decide)).symm
      have f2 : E *ᵥ fixVt d.vh 2 = 0 := by
        have e := svd_row hd 2
        rw [h2, zero_smul] at e
        unfold fixVt
        split
        · have : (Matrix.of fun i j => if i = 2 then d.vh i j * (-1) else d.vh i j) 2 = (-1 : ℝ) • d.vh 2 := by
            funext j; simp
          rw [this, mulVec_smul, e, smul_zero]
        · exact e
      intro v
      have hlin : ∀ a b : V3, cross a (b) = cross a b := fun _ _ => rfl
      have cadd : ∀ a b b' : V3, cross a (b + b') = cross a b + cross a b' := by
        intro a b b'
        apply vec_ext <;> simp [cross] <;> ring
      rw [rot_expand hV v]
      simp only [mulVec_add, mulVec_smul, f0, f1, f2, t0, t1, t2, cadd, cross_smul_left, cross_smul_right]
      rw [c2, cross_anti (fun k => fixU d.u k 2) (fun k => fixU d.u k 1), c1]
      have c22 : cross (fun k => fixU d.u k 2) (fun k => fixU d.u k 2) = 0 := by
        apply vec_ext <;> simp [cross] <;> ring
      rw [c22]
      simp only [smul_zero, add_zero, smul_neg, smul_add, smul_smul]
      congr 1
      · rw [← neg_smul]
        congr 1
        linear_combination (-((fixVt d.vh 0 ⬝ᵥ v) * d.s 0)) * (hδ2) - ((fixVt d.vh 0 ⬝ᵥ v) * d.s 0 * δ * δ) * hε2
      · congr 1
        linear_combination (-((fixVt d.vh 1 ⬝ᵥ v) * d.s 0)) * (hδ2) - ((fixVt d.vh 1 ⬝ᵥ v) * d.s 0 * δ * δ) * hε2
    rcases hδ with rfl | rfl <;> rcases hε with rfl | rfl
    · left; simpa using hall
    · right; simpa using hall
    · right; simpa using hall
    · left; simpa using hall

/-! ### The choice among the poses -/

theorem sum_nonpos' {l : List ℝ} (h : ∀ z ∈ l, z ≤ 0) : l.sum ≤ 0 := by
  induction l with
  | nil => simp
  | cons a l ih =>
    rw [List.sum_cons]
    have := h a (by simp)
    have := ih (fun z hz => h z (by simp [hz]))
    linarith

theorem foldl_add (f : V3 × V3 → ℝ) (l : List (V3 × V3)) (a : ℝ) : l.foldl (fun s q => s + f q) a = a + (l.map f).sum := by
  induction l generalizing a with
  | nil => simp
  | cons x l ih => rw [List.foldl_cons, ih, List.map_cons, List.sum_cons, add_assoc]

theorem score_sum (p : RT) (pairs : List (V3 × V3)) : score p pairs = (pairs.map (pairScore p)).sum := by
  unfold score
  rw [foldl_add, zero_add]

/-- The number kept is the integer part of a score that was kept, and no score exceeds it by one. -/
theorem keep_inv (l : List (ℝ × RT)) (best : ℤ × Option RT) (hb : 0 ≤ best.1) :
    best.1 ≤ (l.foldl keep best).1 ∧ (∀ c ∈ l, c.1 < (l.foldl keep best).1 + 1) ∧
      ((l.foldl keep best = best ∧ ∀ c ∈ l, c.1 ≤ best.1) ∨
        ∃ c ∈ l, (l.foldl keep best).2 = some c.2 ∧ (l.foldl keep best).1 = ⌊c.1⌋ ∧ 0 < c.1 ∧ (best.1 : ℝ) < c.1) := by
  induction l generalizing best with
  | nil => exact ⟨le_refl _, by simp, Or.inl ⟨rfl, by simp⟩⟩
  | cons c l ih =>
    rw [List.foldl_cons]
    have hb' : (0 : ℝ) ≤ best.1 := by exact_mod_cast hb
    by_cases h : c.1 > (best.1 : ℝ)
    · have hk : keep best c = (⌊c.1⌋, some c.2) := by
        unfold keep toInt
        rw [if_pos h, if_pos (by linarith)]
      rw [hk]
      have hfl : best.1 ≤ ⌊c.1⌋ := Int.le_floor.2 h.le
      obtain ⟨h1, h2, h3⟩ := ih (⌊c.1⌋, some c.2) (by simp only; omega)
      simp only at h1
      refine ⟨by omega, ?_, ?_⟩
      · intro e he
        rcases List.mem_cons.1 he with rfl | he
        · have := Int.lt_floor_add_one e.1
          have h1' : ((⌊e.1⌋ : ℤ) : ℝ) ≤ ((l.foldl keep (⌊e.1⌋, some e.2)).1 : ℝ) := by exact_mod_cast h1
          linarith
        · exact h2 e he
      · right
        rcases h3 with ⟨h3, -⟩ | ⟨e, he, h3, h4, h5, h6⟩
        · exact ⟨c, List.mem_cons_self, by rw [h3], by rw [h3], by linarith, h⟩
        · refine ⟨e, List.mem_cons_of_mem _ he, h3, h4, h5, ?_⟩
          have : (best.1 : ℝ) ≤ ((⌊c.1⌋ : ℤ) : ℝ) := by exact_mod_cast hfl
          simp only at h6
          linarith
    · have hk : keep best c = best := by unfold keep; rw [if_neg h]
      rw [hk]
      obtain ⟨h1, h2, h3⟩ := ih best hb
      refine ⟨h1, ?_, ?_⟩
      · intro e he
        rcases List.mem_cons.1 he with rfl | he
        · have h1' : (best.1 : ℝ) ≤ ((l.foldl keep best).1 : ℝ) := by exact_mod_cast h1
          push Not at h
          linarith
        · exact h2 e he
      · rcases h3 with ⟨h3, h4⟩ | ⟨e, he, h3, h4, h5, h6⟩
        · left
          refine ⟨h3, ?_⟩
          intro e he
          rcases List.mem_cons.1 he with rfl | he
          · exact not_lt.1 h
          · exact h4 e he
        · exact Or.inr ⟨e, List.mem_cons_of_mem _ he, h3, h4, h5, h6⟩

/-- A pose that is returned is one of the four, with a positive score which less than one separates from the best. -/
theorem C98_within (svd : M3 → Svd 3) (E : M3) (pairs : List (V3 × V3)) (p : RT) (h : fromEssential svd E pairs = some p) :
    p ∈ candidates (svd E) ∧ 0 < score p pairs ∧ ∀ q ∈ candidates (svd E), score q pairs < score p pairs + 1 := by
  unfold fromEssential at h
  obtain ⟨-, h2, h3⟩ := keep_inv ((candidates (svd E)).map (fun p => (score p pairs, p))) (0, none) (le_refl _)
  rcases h3 with ⟨h3, -⟩ | ⟨c, hc, h3, h4, h5, -⟩
  · rw [h3] at h; exact absurd h (by simp)
  · obtain ⟨q, hq, rfl⟩ := List.mem_map.1 hc
    rw [h3] at h
    obtain rfl := Option.some.inj h
    refine ⟨hq, h5, ?_⟩
    intro r hr
    have := h2 _ (List.mem_map.2 ⟨r, hr, rfl⟩)
    rw [h4] at this
    have hf := Int.floor_le (score q pairs)
    simp only at this hf
    linarith

/-- The memory returned was never written exactly when no pose has a positive score. -/
theorem C98_none_iff (svd : M3 → Svd 3) (E : M3) (pairs : List (V3 × V3)) :
    fromEssential svd E pairs = none ↔ ∀ p ∈ candidates (svd E), score p pairs ≤ 0 := by
  unfold fromEssential
  obtain ⟨-, h2, h3⟩ := keep_inv ((candidates (svd E)).map (fun p => (score p pairs, p))) (0, none) (le_refl _)
  rcases h3 with ⟨h3, h4⟩ | ⟨c, hc, h3, h4, h5, -⟩
  · rw [h3]
    refine ⟨fun _ p hp => ?_, fun _ => rfl⟩
    have := h4 _ (List.mem_map.2 ⟨p, hp, rfl⟩)
    simpa using this
  · rw [h3]
    refine ⟨fun h => absurd h (by simp), fun h => ?_⟩
    obtain ⟨q, hq, rfl⟩ := List.mem_map.1 hc
    exact absurd (h q hq) (not_le.2 h5)

theorem unique_positive {svd : M3 → Svd 3} {E : M3} {pairs : List (V3 × V3)} {p : RT} (hp : p ∈ candidates (svd E))
    (hpos : 0 < score p pairs) (hother : ∀ q ∈ candidates (svd E), q ≠ p → score q pairs ≤ 0) :
    fromEssential svd E pairs = some p := by
  cases h : fromEssential svd E pairs with
  | none => exact absurd ((C98_none_iff svd E pairs).1 h p hp) (not_le.2 hpos)
  | some q =>
    obtain ⟨h1, h2, -⟩ := C98_within svd E pairs q h
    by_contra hne
    exact absurd (hother q h1 (fun e => hne (by rw [e]))) (not_le.2 h2)

/-! ### The score of a pair whose rays meet -/

theorem two_meet {r1 r2 : Ray} {X P : V3} (h : twoMidpoint r1 r2 = some X) {s t : ℝ} (h1 : P = r1.c + s • r1.b)
    (h2 : P = r2.c + t • r2.b) : X = P := by
  obtain ⟨s', t', e1, e2, e3⟩ := two_system h
  have hdet : ¬ |(r1.b ⬝ᵥ r1.b) * (r2.b ⬝ᵥ r2.b) - (r1.b ⬝ᵥ r2.b) ^ 2| < 1 / 10 ^ 10 := by
    rw [← two_none, h]; simp
  have hne : (r1.b ⬝ᵥ r1.b) * (r2.b ⬝ᵥ r2.b) - (r1.b ⬝ᵥ r2.b) ^ 2 ≠ 0 := by
    intro h0; rw [h0] at hdet; exact hdet (by norm_num)
  have hd : (r1.c + s' • r1.b) - (r2.c + t' • r2.b) = (s' - s) • r1.b - (t' - t) • r2.b := by
    have : r1.c + s • r1.b = r2.c + t • r2.b := h1.symm.trans h2
    have e : r1.c = r2.c + t • r2.b - s • r1.b := by rw [← this]; abel
    rw [e, sub_smul, sub_smul]; abel
  rw [hd] at e2 e3
  simp only [sub_dotProduct, smul_dotProduct, smul_eq_mul] at e2 e3
  rw [dotProduct_comm r2.b r1.b] at e2
  have hs : s' - s = 0 := by
    have : (s' - s) * ((r1.b ⬝ᵥ r1.b) * (r2.b ⬝ᵥ r2.b) - (r1.b ⬝ᵥ r2.b) ^ 2) = 0 := by
      linear_combination (r2.b ⬝ᵥ r2.b) * e2 - (r1.b ⬝ᵥ r2.b) * e3
    exact (mul_eq_zero.1 this).resolve_right hne
  have ht : t' - t = 0 := by
    have : (t' - t) * ((r1.b ⬝ᵥ r1.b) * (r2.b ⬝ᵥ r2.b) - (r1.b ⬝ᵥ r2.b) ^ 2) = 0 := by
      linear_combination (r1.b ⬝ᵥ r2.b) * e2 - (r1.b ⬝ᵥ r1.b) * e3
    exact (mul_eq_zero.1 this).resolve_right hne
  have hs' : s' = s := by linarith
  have ht' : t' = t := by linarith
  rw [e1, hs', ht', ← h1, ← h2, ← two_smul ℝ P, smul_smul]
  norm_num

theorem normalized_dot {a : ℝ} {b : V3} (ha : a ≠ 0) (hb : b ⬝ᵥ b = 1) : normalized (a • b) ⬝ᵥ b = a / |a| := by
  unfold normalized norm3
  simp only [smul_dotProduct, dotProduct_smul, hb, smul_eq_mul, mul_one]
  rw [Real.sqrt_mul_self_eq_abs]
  ring

/-- A pair whose rays meet at the signed distances `a`, `b`. -/
theorem pairScore_meet {p : RT} (hR : IsRot p.R) {x y : V3} (hx : x ⬝ᵥ x = 1) (hy : y ⬝ᵥ y = 1) {a b : ℝ} (ha : a ≠ 0) (hb : b ≠ 0)
    (h : p.R *ᵥ (a • x) + p.t = b • y) {X : V3} (hX : point p x y = some X) :
    X = a • x ∧ agreement p x y X = (a / |a| + b / |b|) * (1 / 2) := by
  have hX' : X = a • x := by
    refine two_meet (s := a) (t := b) hX ?_ ?_
    · simp
    · simp only
      rw [← mulVec_smul, ← h, mulVec_add, mulVec_mulVec, hR.1, one_mulVec]
      abel
  refine ⟨hX', ?_⟩
  unfold agreement
  rw [hX', h, normalized_dot ha hx, normalized_dot hb hy]

theorem pairScore_of_meet {p : RT} (hR : IsRot p.R) {x y : V3} (hx : x ⬝ᵥ x = 1) (hy : y ⬝ᵥ y = 1) {a b : ℝ} (ha : a ≠ 0) (hb : b ≠ 0)
    (h : p.R *ᵥ (a • x) + p.t = b • y) :
    pairScore p (x, y) = if (point p x y).isSome then (a / |a| + b / |b|) * (1 / 2) else 0 := by
  unfold pairScore
  cases hX : point p x y with
  | none => simp [hX]
  | some X => simp only [hX, Option.isSome_some, if_true]; exact (pairScore_meet hR hx hy ha hb h hX).2

theorem point_isSome {p : RT} (hR : IsRot p.R) {x y : V3} (hx : x ⬝ᵥ x = 1) (hy : y ⬝ᵥ y = 1) :
    (point p x y).isSome = true ↔ Apart p.R (x, y) := by
  have hb2 : (p.Rᵀ *ᵥ y) ⬝ᵥ (p.Rᵀ *ᵥ y) = 1 := by rw [rot_dot (rot_transpose hR), hy]
  have := C85_two_refuses ⟨0, x⟩ ⟨-(p.Rᵀ *ᵥ p.t), p.Rᵀ *ᵥ y⟩ hx hb2
  unfold Apart point
  rw [← not_lt]
  simp only at this ⊢
  rw [← this, Option.isSome_iff_ne_none]

theorem twist {U V : M3} (hU : IsRot U) (hV : IsRot V) (δ : ℝ) {ε : ℝ} (hε : ε = 1 ∨ ε = -1) (x : V3) :
    (U * turn (-δ) * V) *ᵥ x = (2 * ((ε • fun k => U k 2) ⬝ᵥ ((U * turn δ * V) *ᵥ x))) • (ε • fun k => U k 2) - (U * turn δ * V) *ᵥ x := by
  obtain ⟨a0, a1, a2⟩ := turn_mul_apply U V hV δ
  obtain ⟨b0, b1, b2⟩ := turn_mul_apply U V hV (-δ)
  have hε2 : ε * ε = 1 := mul_self_eq_one_iff.2 hε
  have hc : ∀ i j : Fin 3, (fun k => U k i) ⬝ᵥ (fun k => U k j) = if i = j then 1 else 0 := rot_row_dot (rot_transpose hU)
  rw [rot_expand hV x]
  simp only [mulVec_add, mulVec_smul, a0, a1, a2, b0, b1, b2, dotProduct_add, dotProduct_smul, smul_dotProduct, hc, smul_eq_mul]
  simp only [show (2 : Fin 3) ≠ 1 by decide, show (2 : Fin 3) ≠ 0 by decide, if_false, if_true, mul_zero, zero_add, mul_one, smul_smul]
  rw [show 2 * ((V 2 ⬝ᵥ x) * ε) * ε = 2 * (V 2 ⬝ᵥ x) by linear_combination (2 * (V 2 ⬝ᵥ x)) * hε2]
  funext i
  simp only [Pi.add_apply, Pi.sub_apply, Pi.smul_apply, smul_eq_mul]
  ring

/-- The pairs of bearings that look at points in front of the two cameras give the pose of the cameras, the translation with
length one, whatever the singular value decomposition, when one pair is not nearly parallel. -/
theorem C98_exact (svd : M3 → Svd 3) (E R : M3) (T : V3) (c : ℝ) (hE : EssentialOf E R T c) (hR : IsRot R) (hT : T ≠ 0) (hc : c ≠ 0)
    (hd : IsSvd E (svd E)) (pairs : List (V3 × V3)) (hs : ∀ q ∈ pairs, Seen R T q) (ha : ∃ q ∈ pairs, Apart R q) :
    fromEssential svd E pairs = some ⟨R, (1 / norm3 T) • T⟩ := by
  have hn : 0 < norm3 T := by
    unfold norm3
    refine Real.sqrt_pos.2 (lt_of_le_of_ne (dot_self_nonneg T) (fun h => hT (dot_self_zero.1 h.symm)))
  obtain ⟨t, htd⟩ : ∃ t : V3, t = (1 / norm3 T) • T := ⟨_, rfl⟩
  rw [← htd]
  have hTt : T = norm3 T • t := by rw [htd, smul_smul, mul_one_div_cancel hn.ne', one_smul]
  have ht : t ⬝ᵥ t = 1 := by rw [htd]; exact norm3_unit hT
  have hE' : EssentialOf E R t (c * norm3 T) := by
    intro v
    rw [hE v]
    conv_lhs => rw [hTt]
    rw [cross_smul_left, smul_smul]
  have hs' : ∀ q ∈ pairs, Seen R t q := by
    intro q hq
    obtain ⟨h1, h2, d1, d2, hd1, hd2, h3⟩ := hs q hq
    refine ⟨h1, h2, d1 / norm3 T, d2 / norm3 T, by positivity, by positivity, ?_⟩
    have : (1 / norm3 T) • (R *ᵥ (d1 • q.1) + T) = (1 / norm3 T) • (d2 • q.2) := by rw [h3]
    rw [smul_add, ← mulVec_smul, smul_smul, smul_smul] at this
    rw [div_eq_inv_mul, div_eq_inv_mul, ← one_div, htd]
    exact this
  have hmem := C98_candidates E R t _ (svd E) hE' hR ht (mul_ne_zero hc hn.ne') hd
  obtain ⟨δ, ε, hδ, hε, h1, h2⟩ := essential_frame hE' hR ht (mul_ne_zero hc hn.ne') hd
  have hU := fixU_rot hd.u
  have hV := fixVt_rot hd.vh
  set U := fixU (svd E).u
  set V := fixVt (svd E).vh
  have htw : ∀ x, (U * turn (-δ) * V) *ᵥ x = (2 * (t ⬝ᵥ (R *ᵥ x))) • t - R *ᵥ x := by
    intro x
    rw [h1, h2]
    exact twist hU hV δ hε x
  have hR' : IsRot (U * turn (-δ) * V) :=
    rot_mul (rot_mul hU (turn_rot (by rcases hδ with rfl | rfl <;> simp))) hV
  -- the score of the pose itself
  have hself : ∀ q ∈ pairs, pairScore ⟨R, t⟩ q = if (point ⟨R, t⟩ q.1 q.2).isSome then 1 else 0 := by
    intro q hq
    obtain ⟨hx, hy, d1, d2, hd1, hd2, h3⟩ := hs' q hq
    rw [pairScore_of_meet (p := ⟨R, t⟩) hR hx hy hd1.ne' hd2.ne' h3, abs_of_pos hd1, abs_of_pos hd2, div_self hd1.ne', div_self hd2.ne']
    norm_num
  have hpos : 0 < score ⟨R, t⟩ pairs := by
    rw [score_sum]
    obtain ⟨q, hq, hap⟩ := ha
    have hnn : ∀ z ∈ pairs.map (pairScore ⟨R, t⟩), 0 ≤ z := by
      intro z hz
      obtain ⟨w, hw, rfl⟩ := List.mem_map.1 hz
      rw [hself w hw]
      split <;> norm_num
    have h1q : pairScore ⟨R, t⟩ q = 1 := by
      rw [hself q hq, if_pos]
      exact (point_isSome (p := ⟨R, t⟩) hR (hs' q hq).1 (hs' q hq).2.1).2 hap
    have := List.single_le_sum hnn (pairScore ⟨R, t⟩ q) (List.mem_map_of_mem hq)
    rw [h1q] at this
    linarith
  refine unique_positive hmem hpos ?_
  intro q hq hne
  rw [score_sum]
  apply sum_nonpos'
  intro z hz
  obtain ⟨w, hw, rfl⟩ := List.mem_map.1 hz
  obtain ⟨hx, hy, d1, d2, hd1, hd2, h3⟩ := hs' w hw
  have key : q = ⟨R, t⟩ ∨ q = ⟨R, -t⟩ ∨ q = ⟨U * turn (-δ) * V, t⟩ ∨ q = ⟨U * turn (-δ) * V, -t⟩ := by
    rw [candidates_eq hd.u] at hq
    rw [h1, h2]
    simp only [List.mem_cons, List.not_mem_nil, or_false] at hq
    rcases hδ with rfl | rfl <;> rcases hε with rfl | rfl <;> rcases hq with rfl | rfl | rfl | rfl <;>
      simp only [one_smul, neg_smul, neg_neg] <;> tauto
  rcases key with rfl | rfl | rfl | rfl
  · exact absurd rfl hne
  · have : R *ᵥ ((-d1) • w.1) + -t = (-d2) • w.2 := by
      rw [neg_smul, mulVec_neg, ← neg_add, h3, neg_smul]
    rw [show w = (w.1, w.2) from rfl, pairScore_of_meet (p := ⟨R, -t⟩) hR hx hy (neg_ne_zero.2 hd1.ne') (neg_ne_zero.2 hd2.ne') this,
      abs_neg, abs_neg, abs_of_pos hd1, abs_of_pos hd2, neg_div, neg_div, div_self hd1.ne', div_self hd2.ne']
    split <;> norm_num
  all_goals
    set m : ℝ := 1 - 2 * d2 * (t ⬝ᵥ w.2) with hm
    have hRx : R *ᵥ (d1 • w.1) = d2 • w.2 - t := by rw [← h3]; abel
    have hb : (U * turn (-δ) * V) *ᵥ (d1 • w.1) = -(m • t) - d2 • w.2 := by
      rw [htw, hRx, dotProduct_sub, dotProduct_smul, ht, hm]
      funext i
      simp only [Pi.sub_apply, Pi.neg_apply, Pi.smul_apply, smul_eq_mul]
      ring
  · by_cases hm0 : m = 0
    · have hnone : point ⟨U * turn (-δ) * V, t⟩ w.1 w.2 = none := by
        unfold point
        rw [two_none]
        simp only
        rw [hm0, zero_smul, neg_zero, zero_sub] at hb
        have hy' : (U * turn (-δ) * V)ᵀ *ᵥ w.2 = (-(d1 / d2)) • w.1 := by
          have : w.2 = (-(1 / d2)) • ((U * turn (-δ) * V) *ᵥ (d1 • w.1)) := by
            rw [hb, smul_neg, neg_smul, neg_neg, smul_smul, one_div_mul_cancel hd2.ne', one_smul]
          rw [this, mulVec_smul, mulVec_mulVec, hR'.1, one_mulVec, smul_smul]
          congr 1; ring
        rw [hy']
        simp only [dotProduct_smul, smul_dotProduct, hx, smul_eq_mul]
        norm_num
        ring_nf
        norm_num
      unfold pairScore
      rw [hnone]
    · have : (U * turn (-δ) * V) *ᵥ ((1 / m * d1) • w.1) + t = (-(1 / m * d2)) • w.2 := by
        rw [← smul_smul, mulVec_smul, hb, smul_sub, smul_neg, smul_smul, smul_smul, one_div_mul_cancel hm0, one_smul, neg_smul]
        abel
      have hk : 1 / m ≠ 0 := one_div_ne_zero hm0
      rw [show w = (w.1, w.2) from rfl, pairScore_of_meet (p := ⟨U * turn (-δ) * V, t⟩) hR' hx hy (mul_ne_zero hk hd1.ne')
        (neg_ne_zero.2 (mul_ne_zero hk hd2.ne')) this]
      rw [abs_neg, abs_mul, abs_mul, abs_of_pos hd1, abs_of_pos hd2, neg_div, mul_div_mul_right _ _ hd1.ne', mul_div_mul_right _ _ hd2.ne']
      split <;> simp
  · by_cases hm0 : m = 0
    · have hnone : point ⟨U * turn (-δ) * V, -t⟩ w.1 w.2 = none := by
        unfold point
        rw [two_none]
        simp only
        rw [hm0, zero_smul, neg_zero, zero_sub] at hb
        have hy' : (U * turn (-δ) * V)ᵀ *ᵥ w.2 = (-(d1 / d2)) • w.1 := by
          have : w.2 = (-(1 / d2)) • ((U * turn (-δ) * V) *ᵥ (d1 • w.1)) := by
            rw [hb, smul_neg, neg_smul, neg_neg, smul_smul, one_div_mul_cancel hd2.ne', one_smul]
          rw [this, mulVec_smul, mulVec_mulVec, hR'.1, one_mulVec, smul_smul]
          congr 1; ring
        rw [hy']
        simp only [dotProduct_smul, smul_dotProduct, hx, smul_eq_mul]
        norm_num
        ring_nf
        norm_num
      unfold pairScore
      rw [hnone]
    · have : (U * turn (-δ) * V) *ᵥ ((-(1 / m * d1)) • w.1) + -t = (1 / m * d2) • w.2 := by
        rw [neg_smul, ← smul_smul, mulVec_neg, mulVec_smul, hb, smul_sub, smul_neg, smul_smul, smul_smul, one_div_mul_cancel hm0, one_smul]
        abel
      have hk : 1 / m ≠ 0 := one_div_ne_zero hm0
      rw [show w = (w.1, w.2) from rfl, pairScore_of_meet (p := ⟨U * turn (-δ) * V, -t⟩) hR' hx hy
        (neg_ne_zero.2 (mul_ne_zero hk hd1.ne')) (mul_ne_zero hk hd2.ne') this]
      rw [abs_neg, abs_mul, abs_mul, abs_of_pos hd1, abs_of_pos hd2, neg_div, mul_div_mul_right _ _ hd1.ne', mul_div_mul_right _ _ hd2.ne']
      split <;> simp

/-- When the views differ by a turn only (or all points are infinitely far), the four scores are zero and the pose returned
was never written. -/
theorem C98_rotation_only (svd : M3 → Svd 3) (E R : M3) (t : V3) (c : ℝ) (hE : EssentialOf E R t c) (hR : IsRot R)
    (ht : t ⬝ᵥ t = 1) (hc : c ≠ 0) (hd : IsSvd E (svd E)) (pairs : List (V3 × V3))
    (hs : ∀ q ∈ pairs, q.1 ⬝ᵥ q.1 = 1 ∧ q.2 = R *ᵥ q.1) : fromEssential svd E pairs = none := by
  rw [C98_none_iff]
  intro q hq
  rw [score_sum]
  apply sum_nonpos'
  intro z hz
  obtain ⟨w, hw, rfl⟩ := List.mem_map.1 hz
  obtain ⟨hx, hwy⟩ := hs w hw
  have hy : w.2 ⬝ᵥ w.2 = 1 := by rw [hwy, rot_dot hR, hx]
  obtain ⟨δ, ε, hδ, hε, h1, h2⟩ := essential_frame hE hR ht hc hd
  have hU := fixU_rot hd.u
  have hV := fixVt_rot hd.vh
  rw [candidates_eq hd.u] at hq
  set U := fixU (svd E).u
  set V := fixVt (svd E).vh
  have htw : ∀ x, (U * turn (-δ) * V) *ᵥ x = (2 * (t ⬝ᵥ (R *ᵥ x))) • t - R *ᵥ x := by
    intro x
    rw [h1, h2]
    exact twist hU hV δ hε x
  have hR' : IsRot (U * turn (-δ) * V) :=
    rot_mul (rot_mul hU (turn_rot (by rcases hδ with rfl | rfl <;> simp))) hV
  have hpar : ∀ (Q : M3) (k : ℝ) (T : V3), Qᵀ *ᵥ w.2 = k • w.1 → pairScore ⟨Q, T⟩ w = 0 := by
    intro Q k T hk
    have hnone : point ⟨Q, T⟩ w.1 w.2 = none := by
      unfold point
      rw [two_none]
      simp only
      rw [hk]
      simp only [dotProduct_smul, smul_dotProduct, hx, smul_eq_mul]
      norm_num
      ring_nf
      norm_num
    unfold pairScore
    rw [hnone]
  have key : (∃ T, q = ⟨R, T⟩) ∨ ∃ e : ℝ, (e = 1 ∨ e = -1) ∧ q = ⟨U * turn (-δ) * V, e • t⟩ := by
    rw [h1, h2]
    simp only [List.mem_cons, List.not_mem_nil, or_false] at hq
    rcases hδ with rfl | rfl <;> rcases hε with rfl | rfl <;> rcases hq with rfl | rfl | rfl | rfl <;>
      first
      | exact Or.inl ⟨_, rfl⟩
      | (refine Or.inr ⟨1, Or.inl rfl, ?_⟩; simp only [one_smul, neg_smul, neg_neg]; done)
      | (refine Or.inr ⟨-1, Or.inr rfl, ?_⟩; simp only [one_smul, neg_smul, neg_neg]; done)
  rcases key with ⟨T, rfl⟩ | ⟨e, he, rfl⟩
  · refine (hpar R 1 T ?_).le
    rw [hwy, mulVec_mulVec, hR.1, one_mulVec, one_smul]
  · by_cases hty : t ⬝ᵥ w.2 = 0
    · refine (hpar _ (-1) _ ?_).le
      have : (U * turn (-δ) * V) *ᵥ w.1 = -w.2 := by
        rw [htw, ← hwy, hty, mul_zero, zero_smul, zero_sub]
      have h3 : w.2 = -((U * turn (-δ) * V) *ᵥ w.1) := by rw [this, neg_neg]
      conv_lhs => rw [h3]
      rw [mulVec_neg, mulVec_mulVec, hR'.1, one_mulVec, neg_smul, one_smul]
    · have he0 : e ≠ 0 := by rcases he with rfl | rfl <;> norm_num
      have h2t : 2 * (t ⬝ᵥ w.2) ≠ 0 := mul_ne_zero two_ne_zero hty
      have ha : -(e / (2 * (t ⬝ᵥ w.2))) ≠ 0 := neg_ne_zero.2 (div_ne_zero he0 h2t)
      have hb : e / (2 * (t ⬝ᵥ w.2)) ≠ 0 := div_ne_zero he0 h2t
      have hm : (U * turn (-δ) * V) *ᵥ ((-(e / (2 * (t ⬝ᵥ w.2)))) • w.1) + e • t = (e / (2 * (t ⬝ᵥ w.2))) • w.2 := by
        rw [mulVec_smul, htw, ← hwy]
        funext i
        simp only [Pi.add_apply, Pi.sub_apply, Pi.smul_apply, smul_eq_mul]
        field_simp
        ring
      rw [show w = (w.1, w.2) from rfl, pairScore_of_meet (p := ⟨U * turn (-δ) * V, e • t⟩) hR' hx hy ha hb hm, abs_neg, neg_div]
      split <;> simp

/-! ### The error of a pair -/

theorem normalized_cos (X : V3) {x : V3} (hx : x ⬝ᵥ x = 1) :
    normalized X ⬝ᵥ x = Real.cos (InnerProductGeometry.angle (pt X) (pt x)) := by
  rw [InnerProductGeometry.cos_angle, inner_pt, norm_pt, norm_pt, hx]
  unfold normalized norm3
  rw [smul_dotProduct]
  simp
  ring

theorem evaluate_unit (p : RT) {x y : V3} (hx : x ⬝ᵥ x = 1) (hy : y ⬝ᵥ y = 1) :
    evaluate p (x, y) = match point p x y with
      | none => 1
      | some X => 1 - agreement p x y X := by
  unfold evaluate
  simp only [normalized_unit hx, normalized_unit hy]
  cases point p x y <;> rfl

/-- The error of a pair is one less the mean of two cosines, at the point halfway between the two rays. -/
theorem C98_error (p : RT) (hR : IsRot p.R) (x y : V3) (hx : x ⬝ᵥ x = 1) (hy : y ⬝ᵥ y = 1) :
    (¬ Apart p.R (x, y) ∧ evaluate p (x, y) = 1) ∨
    (Apart p.R (x, y) ∧ ∃ X x1 x2 : V3, pt x1 ∈ line ⟨0, x⟩ ∧ pt x2 ∈ line ⟨-(p.Rᵀ *ᵥ p.t), p.Rᵀ *ᵥ y⟩ ∧ X = (1 / 2 : ℝ) • (x1 + x2) ∧
      (∀ y1 y2 : V3, pt y1 ∈ line ⟨0, x⟩ → pt y2 ∈ line ⟨-(p.Rᵀ *ᵥ p.t), p.Rᵀ *ᵥ y⟩ → dist (pt x1) (pt x2) ≤ dist (pt y1) (pt y2)) ∧
      evaluate p (x, y) = 1 - (Real.cos (InnerProductGeometry.angle (pt X) (pt x)) +
        Real.cos (InnerProductGeometry.angle (pt (p.R *ᵥ X + p.t)) (pt y))) / 2) := by
  rw [evaluate_unit p hx hy]
  cases h : point p x y with
  | none =>
    left
    refine ⟨fun ha => ?_, rfl⟩
    rw [← point_isSome hR hx hy, h] at ha
    exact absurd ha (by simp)
  | some X =>
    right
    refine ⟨(point_isSome hR hx hy).1 (by rw [h]; rfl), ?_⟩
    obtain ⟨x1, x2, h1, h2, h3, h4⟩ := C85_two _ _ X h
    refine ⟨X, x1, x2, h1, h2, h3, h4, ?_⟩
    simp only
    unfold agreement
    rw [normalized_cos X hx, normalized_cos _ hy]
    ring

/-- The error is zero exactly for the rays that meet in front of both cameras and are not nearly parallel. -/
theorem C98_error_zero (p : RT) (hR : IsRot p.R) (x y : V3) (hx : x ⬝ᵥ x = 1) (hy : y ⬝ᵥ y = 1) :
    evaluate p (x, y) = 0 ↔ Seen p.R p.t (x, y) ∧ Apart p.R (x, y) := by
  rw [evaluate_unit p hx hy]
  constructor
  · intro h
    cases hX : point p x y with
    | none => rw [hX] at h; simp only at h; norm_num at h
    | some X =>
      rw [hX] at h
      simp only at h
      refine ⟨⟨hx, hy, ?_⟩, (point_isSome hR hx hy).1 (by rw [hX]; rfl)⟩
      have hone : ∀ (Z z : V3), z ⬝ᵥ z = 1 → normalized Z ⬝ᵥ z = 1 → ∃ d : ℝ, 0 < d ∧ Z = d • z := by
        intro Z z hz h1
        have hZ : Z ≠ 0 := by
          rintro rfl
          unfold normalized at h1
          simp at h1
        have hu := norm3_unit hZ
        have h0 : (normalized Z - z) ⬝ᵥ (normalized Z - z) = 0 := by
          rw [sub_dotProduct, dotProduct_sub, dotProduct_sub, hu, hz, h1, dotProduct_comm z, h1]; ring
        have h2 := sub_eq_zero.1 (dot_self_zero.1 h0)
        have hn : 0 < norm3 Z := by
          unfold norm3
          exact Real.sqrt_pos.2 (lt_of_le_of_ne (dot_self_nonneg Z) (fun h => hZ (dot_self_zero.1 h.symm)))
        refine ⟨norm3 Z, hn, ?_⟩
        rw [← h2]
        unfold normalized
        rw [smul_smul, mul_one_div_cancel hn.ne', one_smul]
      have hc1 : normalized X ⬝ᵥ x ≤ 1 := by rw [normalized_cos X hx]; exact Real.cos_le_one _
      have hc2 : normalized (p.R *ᵥ X + p.t) ⬝ᵥ y ≤ 1 := by rw [normalized_cos _ hy]; exact Real.cos_le_one _
      unfold agreement at h
      obtain ⟨d1, hd1, e1⟩ := hone X x hx (by linarith)
      obtain ⟨d2, hd2, e2⟩ := hone _ y hy (by linarith : normalized (p.R *ᵥ X + p.t) ⬝ᵥ y = 1)
      refine ⟨d1, d2, hd1, hd2, ?_⟩
      simp only
      rw [← e1, e2]
  · rintro ⟨⟨-, -, d1, d2, hd1, hd2, h⟩, ha⟩
    rw [← point_isSome hR hx hy] at ha
    obtain ⟨X, hX⟩ := Option.isSome_iff_exists.1 ha
    rw [hX]
    simp only
    rw [(pairScore_meet hR hx hy hd1.ne' hd2.ne' h hX).2, abs_of_pos hd1, abs_of_pos hd2, div_self hd1.ne', div_self hd2.ne']
    norm_num

/-- A pair below the threshold is within the angle in one of the views; in the other the cosine is more than `2 cos θ - 1`. -/
theorem C98_threshold (p : RT) (hR : IsRot p.R) (x y : V3) (hx : x ⬝ᵥ x = 1) (hy : y ⬝ᵥ y = 1) (θ : ℝ) (h0 : 0 ≤ θ) (h1 : θ ≤ Real.pi / 2)
    (h : evaluate p (x, y) < 1 - Real.cos θ) :
    Apart p.R (x, y) ∧ ∃ X : V3,
      (InnerProductGeometry.angle (pt X) (pt x) < θ ∨ InnerProductGeometry.angle (pt (p.R *ᵥ X + p.t)) (pt y) < θ) ∧
      2 * Real.cos θ - 1 < Real.cos (InnerProductGeometry.angle (pt X) (pt x)) ∧
      2 * Real.cos θ - 1 < Real.cos (InnerProductGeometry.angle (pt (p.R *ᵥ X + p.t)) (pt y)) := by
  have hcos := Real.cos_nonneg_of_neg_pi_div_two_le_of_le (by linarith [Real.pi_pos]) h1
  rcases C98_error p hR x y hx hy with ⟨-, he⟩ | ⟨ha, X, x1, x2, -, -, -, -, he⟩
  · rw [he] at h; linarith
  · rw [he] at h
    refine ⟨ha, X, ?_, ?_, ?_⟩
    · by_contra hno
      push Not at hno
      have e1 := Real.cos_le_cos_of_nonneg_of_le_pi h0 (InnerProductGeometry.angle_le_pi _ _) hno.1
      have e2 := Real.cos_le_cos_of_nonneg_of_le_pi h0 (InnerProductGeometry.angle_le_pi _ _) hno.2
      linarith
    · have := Real.cos_le_one (InnerProductGeometry.angle (pt (p.R *ᵥ X + p.t)) (pt y))
      linarith
    · have := Real.cos_le_one (InnerProductGeometry.angle (pt X) (pt x))
      linarith

theorem normalized_pos {k : ℝ} (hk : 0 < k) (v : V3) : normalized (k • v) = normalized v := by
  have e : norm3 (k • v) = k * norm3 v := by
    unfold norm3
    rw [show (k • v) ⬝ᵥ (k • v) = k ^ 2 * (v ⬝ᵥ v) by rw [smul_dotProduct, dotProduct_smul, smul_eq_mul, smul_eq_mul]; ring,
      Real.sqrt_mul (sq_nonneg k), Real.sqrt_sq hk.le]
  unfold normalized
  rw [e, smul_smul]
  congr 1
  by_cases h : norm3 v = 0
  · rw [h]; simp
  · field_simp

/-- The error does not depend on the lengths of the bearings. -/
theorem C98_scale (p : RT) (x y : V3) (k l : ℝ) (hk : 0 < k) (hl : 0 < l) : evaluate p (k • x, l • y) = evaluate p (x, y) := by
  unfold evaluate
  simp only [normalized_pos hk, normalized_pos hl]

/-- The threshold of the robust estimation is the one of an angle. -/
theorem C98_adapter (θ : ℝ) (p : RT) (q : V3 × V3) : evaluate p q < thresholdAdapter θ ↔ evaluate p q < 1 - Real.cos θ := Iff.rfl

/-! ### Refinement -/

/-- The refinement minimises the error of the robust estimation, at the pose of its parameters. -/
theorem C98_residual (r c x y : V3) (hx : x ⬝ᵥ x = 1) (hy : y ⬝ᵥ y = 1) :
    pairResidual ⟨r, c⟩ (x, y) = evaluate ⟨GpsBias.vecToMat r, -(GpsBias.vecToMat r *ᵥ c)⟩ (x, y) := by
  rw [evaluate_unit _ hx hy]
  have hR := GpsBias.vecToMat_rot r
  have e1 : -((GpsBias.vecToMat r)ᵀ *ᵥ (-(GpsBias.vecToMat r *ᵥ c))) = c := by
    rw [mulVec_neg, neg_neg, mulVec_mulVec, hR.1, one_mulVec]
  unfold pairResidual point agreement
  simp only
  rw [e1, GpsBias.vecToMat_neg]
  cases twoMidpoint ⟨0, x⟩ ⟨c, (GpsBias.vecToMat r)ᵀ *ᵥ y⟩ with
  | none => rfl
  | some X =>
    simp only
    rw [mulVec_sub, sub_eq_add_neg (GpsBias.vecToMat r *ᵥ X)]

/-- At an exact pose all residuals are zero. -/
theorem C98_refine_zero (toVec : M3 → V3) (hl : GpsBias.IsLog toVec) (p : RT) (hR : IsRot p.R) (ht : p.t ⬝ᵥ p.t = 1)
    (picked : List (V3 × V3)) (hs : ∀ q ∈ picked, Seen p.R p.t q ∧ Apart p.R q) :
    ∀ z ∈ residuals picked ⟨toVec p.R, -(p.Rᵀ *ᵥ p.t)⟩, z = 0 := by
  intro z hz
  unfold residuals at hz
  rcases List.mem_append.1 hz with hz | hz
  · obtain ⟨q, hq, rfl⟩ := List.mem_map.1 hz
    obtain ⟨h1, h2⟩ := hs q hq
    rw [show q = (q.1, q.2) from rfl, C98_residual _ _ _ _ h1.1 h1.2.1, hl p.R hR]
    have e : -(p.R *ᵥ -(p.Rᵀ *ᵥ p.t)) = p.t := by
      rw [mulVec_neg, neg_neg, mulVec_mulVec, mul_eq_one_comm.1 hR.1, one_mulVec]
    rw [e]
    exact (C98_error_zero p hR _ _ h1.1 h1.2.1).2 ⟨h1, h2⟩
  · rw [List.mem_singleton] at hz
    rw [hz]
    unfold norm3
    rw [neg_dotProduct_neg, rot_dot (rot_transpose hR), ht]
    simp

/-- A solver that stays where it starts gives the pose back; in general the pose is the one of the last parameters. -/
theorem C98_refine_start (toVec : M3 → V3) (hl : GpsBias.IsLog toVec) (p : RT) (hR : IsRot p.R) (picked : List (V3 × V3))
    (solve : (Params → List ℝ) → Params → Params) (hst : ∀ f s, (∀ z ∈ f s, z = 0) → solve f s = s)
    (ht : p.t ⬝ᵥ p.t = 1) (hs : ∀ q ∈ picked, Seen p.R p.t q ∧ Apart p.R q) :
    refinement toVec solve p picked = p := by
  unfold refinement
  simp only
  rw [hst _ _ (C98_refine_zero toVec hl p hR ht picked hs)]
  simp only
  rw [hl p.R hR, mulVec_neg, neg_neg, mulVec_mulVec, mul_eq_one_comm.1 hR.1, one_mulVec]

/-- The draw of the largest random number reads the element after the last pair, every other draw a pair. -/
theorem C98_pick (randMax count rand : ℕ) (hm : 0 < randMax) (hc : 0 < count) (hr : rand ≤ randMax) :
    pick randMax count rand < count ↔ rand < randMax := by
  unfold pick
  rw [Nat.div_lt_iff_lt_mul hm, mul_comm count randMax]
  constructor
  · intro h
    exact Nat.lt_of_mul_lt_mul_right h
  · intro h
    exact Nat.mul_lt_mul_of_pos_right h hc

/-! ### Examples -/

/-- The decomposition of `diag(1, 1, 0)`. -/
noncomputable def unitSvd : Svd 3 := ⟨1, ![1, 1, 0], 1⟩

theorem unitSvd_is : IsSvd (diagonal ![1, 1, 0]) unitSvd where
  u := by simp [unitSvd]
  vh := by simp [unitSvd]
  pos := by intro i; fin_cases i <;> simp [unitSvd]
  desc := by intro i j; fin_cases i <;> fin_cases j <;> simp [unitSvd]
  eq := by simp [unitSvd]

theorem unit_fix : fixU unitSvd.u = 1 ∧ fixVt unitSvd.vh = 1 := by
  constructor
  · unfold fixU unitSvd; simp
  · unfold fixVt unitSvd; simp

theorem unit_candidates : candidates unitSvd = [⟨turn (-1), ![0, 0, 1]⟩, ⟨turn 1, ![0, 0, 1]⟩, ⟨turn (-1), ![0, 0, -1]⟩, ⟨turn 1, ![0, 0, -1]⟩] := by
  rw [candidates_eq unitSvd_is.u, unit_fix.1, unit_fix.2]
  have e : (fun k => (1 : M3) k 2) = ![0, 0, 1] := by apply vec_ext <;> simp [Matrix.one_apply]
  have e' : -(![0, 0, 1] : V3) = ![0, 0, -1] := by apply vec_ext <;> simp
  rw [e, e']
  simp

theorem two_eval {c1 b1 c2 b2 X : V3} {s t : ℝ}
    (hdet : 1 / 10 ^ 10 ≤ (b1 ⬝ᵥ b1) * (b2 ⬝ᵥ b2) - (b1 ⬝ᵥ b2) ^ 2)
    (h1 : ((c1 + s • b1) - (c2 + t • b2)) ⬝ᵥ b1 = 0) (h2 : ((c1 + s • b1) - (c2 + t • b2)) ⬝ᵥ b2 = 0)
    (hX : X = (1 / 2 : ℝ) • ((c1 + s • b1) + (c2 + t • b2))) : twoMidpoint ⟨c1, b1⟩ ⟨c2, b2⟩ = some X := by
  cases h : twoMidpoint ⟨c1, b1⟩ ⟨c2, b2⟩ with
  | none =>
    rw [two_none] at h
    simp only at h
    have := le_abs_self ((b1 ⬝ᵥ b1) * (b2 ⬝ᵥ b2) - (b1 ⬝ᵥ b2) ^ 2)
    linarith
  | some Y =>
    obtain ⟨s', t', e1, e2, e3⟩ := two_system h
    simp only at e1 e2 e3
    have hne : (b1 ⬝ᵥ b1) * (b2 ⬝ᵥ b2) - (b1 ⬝ᵥ b2) ^ 2 ≠ 0 := by
      intro h0; rw [h0] at hdet; norm_num at hdet
    simp only [sub_dotProduct, add_dotProduct, smul_dotProduct, smul_eq_mul] at h1 h2 e2 e3
    rw [dotProduct_comm b2 b1] at h1 e2
    have hs : s' = s := by
      have : (s' - s) * ((b1 ⬝ᵥ b1) * (b2 ⬝ᵥ b2) - (b1 ⬝ᵥ b2) ^ 2) = 0 := by
        linear_combination (b2 ⬝ᵥ b2) * (e2 - h1) - (b1 ⬝ᵥ b2) * (e3 - h2)
      linarith [(mul_eq_zero.1 this).resolve_right hne]
    have ht : t' = t := by
      have : (t' - t) * ((b1 ⬝ᵥ b1) * (b2 ⬝ᵥ b2) - (b1 ⬝ᵥ b2) ^ 2) = 0 := by
        linear_combination (b1 ⬝ᵥ b2) * (e2 - h1) - (b1 ⬝ᵥ b1) * (e3 - h2)
      linarith [(mul_eq_zero.1 this).resolve_right hne]
    rw [e1, hX, hs, ht]

theorem ex_score {p : RT} {x y X Y b2 c2 : V3} {s t n1 n2 a1 a2 : ℝ} (hb : p.Rᵀ *ᵥ y = b2) (hc : -(p.Rᵀ *ᵥ p.t) = c2)
    (hdet : 1 / 10 ^ 10 ≤ (x ⬝ᵥ x) * (b2 ⬝ᵥ b2) - (x ⬝ᵥ b2) ^ 2)
    (h1 : ((0 + s • x) - (c2 + t • b2)) ⬝ᵥ x = 0) (h2 : ((0 + s • x) - (c2 + t • b2)) ⬝ᵥ b2 = 0)
    (hX : X = (1 / 2 : ℝ) • ((0 + s • x) + (c2 + t • b2))) (hY : p.R *ᵥ X + p.t = Y) (hn1 : X ⬝ᵥ X = n1) (hn2 : Y ⬝ᵥ Y = n2)
    (ha1 : X ⬝ᵥ x = a1) (ha2 : Y ⬝ᵥ y = a2) :
    score p [(x, y)] = (1 / Real.sqrt n1 * a1 + 1 / Real.sqrt n2 * a2) * (1 / 2) := by
  rw [score_sum]
  simp only [List.map_cons, List.map_nil, List.sum_cons, List.sum_nil, add_zero]
  unfold pairScore
  have : point p x y = some X := by
    unfold point
    rw [hb, hc]
    exact two_eval hdet h1 h2 hX
  simp only [this]
  unfold agreement normalized norm3
  rw [smul_dotProduct, smul_dotProduct, hY, hn1, hn2, ha1, ha2]
  rfl

/-- The score kept is cut to an integer, so that a pose with a lower score can replace the best one. -/
theorem C98_truncation : ∃ (E : M3) (d : Svd 3) (pairs : List (V3 × V3)) (p q : RT), IsSvd E d ∧
    (∀ r ∈ pairs, r.1 ⬝ᵥ r.1 = 1 ∧ r.2 ⬝ᵥ r.2 = 1) ∧ fromEssential (fun _ => d) E pairs = some p ∧ q ∈ candidates d ∧
    score p pairs < score q pairs := by
  have e1 : score ⟨turn (-1), ![0, 0, 1]⟩ [(![1, 0, 0], ![2 / 3, 1 / 3, 2 / 3])] =
      (1 / Real.sqrt (3 / 16) * (1 / 4) + 1 / Real.sqrt (11 / 16) * (3 / 4)) * (1 / 2) := by
    refine ex_score (Y := ![1 / 4, 1 / 4, 3 / 4]) (b2 := ![1 / 3, -2 / 3, 2 / 3]) (c2 := ![0, 0, -1]) (X := ![1 / 4, -1 / 4, -1 / 4]) (s := 1 / 4) (t := 3 / 4) ?_ ?_ ?_ ?_ ?_ ?_ ?_ ?_ ?_ ?_ ?_
    any_goals apply vec_ext
    all_goals simp [mulVec, dot3, turn, Matrix.transpose_apply]
    all_goals norm_num
  have e2 : score ⟨turn 1, ![0, 0, 1]⟩ [(![1, 0, 0], ![2 / 3, 1 / 3, 2 / 3])] =
      (1 / Real.sqrt (3 / 16) * (-1 / 4) + 1 / Real.sqrt (11 / 16) * (3 / 4)) * (1 / 2) := by
    refine ex_score (Y := ![1 / 4, 1 / 4, 3 / 4]) (b2 := ![-1 / 3, 2 / 3, 2 / 3]) (c2 := ![0, 0, -1]) (X := ![-1 / 4, 1 / 4, -1 / 4]) (s := -1 / 4) (t := 3 / 4) ?_ ?_ ?_ ?_ ?_ ?_ ?_ ?_ ?_ ?_ ?_
    any_goals apply vec_ext
    all_goals simp [mulVec, dot3, turn, Matrix.transpose_apply]
    all_goals norm_num
  have e3 : score ⟨turn (-1), ![0, 0, -1]⟩ [(![1, 0, 0], ![2 / 3, 1 / 3, 2 / 3])] =
      (1 / Real.sqrt (3 / 16) * (-1 / 4) + 1 / Real.sqrt (11 / 16) * (-3 / 4)) * (1 / 2) := by
    refine ex_score (Y := ![-1 / 4, -1 / 4, -3 / 4]) (b2 := ![1 / 3, -2 / 3, 2 / 3]) (c2 := ![0, 0, 1]) (X := ![-1 / 4, 1 / 4, 1 / 4]) (s := -1 / 4) (t := -3 / 4) ?_ ?_ ?_ ?_ ?_ ?_ ?_ ?_ ?_ ?_ ?_
    any_goals apply vec_ext
    all_goals simp [mulVec, dot3, turn, Matrix.transpose_apply]
    all_goals norm_num
  have e4 : score ⟨turn 1, ![0, 0, -1]⟩ [(![1, 0, 0], ![2 / 3, 1 / 3, 2 / 3])] =
      (1 / Real.sqrt (3 / 16) * (1 / 4) + 1 / Real.sqrt (11 / 16) * (-3 / 4)) * (1 / 2) := by
    refine ex_score (Y := ![-1 / 4, -1 / 4, -3 / 4]) (b2 := ![-1 / 3, 2 / 3, 2 / 3]) (c2 := ![0, 0, 1]) (X := ![1 / 4, -1 / 4, 1 / 4]) (s := 1 / 4) (t := -3 / 4) ?_ ?_ ?_ ?_ ?_ ?_ ?_ ?_ ?_ ?_ ?_
    any_goals apply vec_ext
    all_goals simp [mulVec, dot3, turn, Matrix.transpose_apply]
    all_goals norm_num
  -- bounds of the two cosines
  have ha : 0 < 1 / Real.sqrt (3 / 16) := by positivity
  have hb : 0 < 1 / Real.sqrt (11 / 16) := by positivity
  have ha2 : (1 / Real.sqrt (3 / 16)) ^ 2 = 16 / 3 := by
    rw [div_pow, Real.sq_sqrt (by norm_num)]; norm_num
  have hb2 : (1 / Real.sqrt (11 / 16)) ^ 2 = 16 / 11 := by
    rw [div_pow, Real.sq_sqrt (by norm_num)]; norm_num
  set a := 1 / Real.sqrt (3 / 16)
  set b := 1 / Real.sqrt (11 / 16)
  have ha3 : a < 4 := by nlinarith
  have hb3 : b < 5 / 4 := by nlinarith
  have hb4 : a < 3 * b := by nlinarith
  refine ⟨diagonal ![1, 1, 0], unitSvd, [(![1, 0, 0], ![2 / 3, 1 / 3, 2 / 3])], ⟨turn 1, ![0, 0, 1]⟩, ⟨turn (-1), ![0, 0, 1]⟩,
    unitSvd_is, ?_, ?_, ?_, ?_⟩
  · intro r hr
    rw [List.mem_singleton] at hr
    subst hr
    constructor <;> norm_num [dot3]
  · have hother : ∀ z : ℝ, z ≤ 0 → ∀ p : RT, ∀ o : Option RT, keep (0, o) (z, p) = (0, o) := by
      intro z hz p o
      unfold keep
      rw [if_neg (by push_cast; linarith)]
    have hnew : ∀ z : ℝ, 0 < z → z < 1 → ∀ p : RT, ∀ o : Option RT, keep (0, o) (z, p) = (0, some p) := by
      intro z hz hz1 p o
      unfold keep toInt
      rw [if_pos (by push_cast; linarith), if_pos (by exact hz.le), Int.floor_eq_zero_iff.2 ⟨hz.le, hz1⟩]
    unfold fromEssential
    rw [unit_candidates]
    simp only [List.map_cons, List.map_nil, List.foldl_cons, List.foldl_nil, e1, e2, e3, e4]
    rw [hnew _ (by linarith) (by linarith), hnew _ (by linarith) (by linarith), hother _ (by linarith), hother _ (by linarith)]
  · rw [unit_candidates]; simp
  · rw [e1, e2]; linarith

/-- A camera that moves sideways: the hypotheses of `C98_exact` are met. -/
example : ∃ (E R : M3) (T : V3) (c : ℝ) (d : Svd 3) (pairs : List (V3 × V3)), EssentialOf E R T c ∧ IsRot R ∧ T ≠ 0 ∧ c ≠ 0 ∧
    IsSvd E d ∧ (∀ q ∈ pairs, Seen R T q) ∧ ∃ q ∈ pairs, Apart R q := by
  refine ⟨diagonal ![1, 1, 0], turn 1, ![0, 0, 2], 1 / 2, unitSvd, [(![1, 0, 0], ![0, -3 / 5, 4 / 5])], ?_, turn_rot (Or.inl rfl), ?_, ?_, unitSvd_is, ?_, ?_⟩
  · intro v
    apply vec_ext <;> simp [cross, mulVec, dot3, turn, diagonal_apply, vecHead, vecTail]
  · intro h
    have := congrFun h 2
    simp at this
  · norm_num
  · intro q hq
    rw [List.mem_singleton] at hq
    subst hq
    refine ⟨by norm_num [dot3], by norm_num [dot3], 3 / 2, 5 / 2, by norm_num, by norm_num, ?_⟩
    apply vec_ext <;> simp [mulVec, dot3, turn] <;> norm_num
  · refine ⟨_, List.mem_singleton_self _, ?_⟩
    have h := point_isSome (p := ⟨turn 1, ![0, 0, 0]⟩) (turn_rot (Or.inl rfl)) (x := ![1, 0, 0]) (y := ![0, -3 / 5, 4 / 5]) (by norm_num [dot3])
      (by norm_num [dot3])
    rw [← h, Option.isSome_iff_ne_none]
    unfold point
    intro h0
    rw [two_none] at h0
    have e : (turn 1)ᵀ *ᵥ ![0, -3 / 5, 4 / 5] = ![3 / 5, 0, 4 / 5] := by
      apply vec_ext <;> simp [mulVec, dot3, turn, Matrix.transpose_apply] <;> norm_num
    simp only [e] at h0
    revert h0
    simp [dot3]
    norm_num

end Verif.RelativePose
