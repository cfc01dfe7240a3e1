import Verif.Model.ThreePoints
import Verif.Props.RelativePose
import Verif.Props.Quartic

/-!
# C104 — The pose of a camera from three points
-/
set_option linter.unusedSectionVars false
set_option linter.unusedSimpArgs false
set_option linter.unusedVariables false
namespace Verif.ThreePoints
open Verif.Triangulation hiding cross
open Verif.Depthmap Matrix
open Verif.Superimpose (Svd IsRot IsSvd)
open Verif.AlignPrior (cross)
open Verif.GpsBias (rot_cross rot_dot)
open Verif.RelativePose hiding dot3
open Verif.Quartic (IsPow realPoly)

/-! ### Specification -/

/-- The pose sees the point on the line of the bearing, at the signed distance `d`. -/
def On (rt : RT) (b p : V3) (d : ℝ) : Prop := rt.R *ᵥ p + rt.t = d • b

/-- Unit bearings not on a plane, points not on a line. -/
structure General (S : Sample) : Prop where
  n1 : S.b1 ⬝ᵥ S.b1 = 1
  n2 : S.b2 ⬝ᵥ S.b2 = 1
  n3 : S.b3 ⬝ᵥ S.b3 = 1
  points : cross (S.p1 - S.p2) (S.p1 - S.p3) ≠ 0
  bearings : cross S.b1 S.b2 ⬝ᵥ S.b3 ≠ 0

/-- In the frame of the camera, the foot `q` of the third point on the plane of the camera and the first two points is on the circle
through the camera and those points, whose centre is `o`. -/
def OnCircle (S : Sample) (d1 d2 d3 : ℝ) : Prop :=
  ∃ x y u v : ℝ, ∃ q o : V3, q = x • S.b1 + y • S.b2 ∧ (d3 • S.b3 - q) ⬝ᵥ S.b1 = 0 ∧ (d3 • S.b3 - q) ⬝ᵥ S.b2 = 0 ∧
    o = u • S.b1 + v • S.b2 ∧ (o - d1 • S.b1) ⬝ᵥ (o - d1 • S.b1) = o ⬝ᵥ o ∧ (o - d2 • S.b2) ⬝ᵥ (o - d2 • S.b2) = o ⬝ᵥ o ∧
    (o - q) ⬝ᵥ (o - q) = o ⬝ᵥ o

/-! ### Vectors and frames -/

theorem frame_rot {x y : V3} (hx : x ⬝ᵥ x = 1) (hy : y ⬝ᵥ y = 1) (hxy : x ⬝ᵥ y = 0) : IsRot (Matrix.of ![x, y, cross x y] : M3) := by
  rw [RelativePose.dot3] at hx hy hxy
  have h : (Matrix.of ![x, y, cross x y] : M3) * (Matrix.of ![x, y, cross x y] : M3)ᵀ = 1 := by
    ext i j
    rw [Matrix.mul_apply, Fin.sum_univ_three, transpose_apply, transpose_apply, transpose_apply, Matrix.one_apply]
    fin_cases i <;> fin_cases j <;> simp [cross]
    · linear_combination hx
    · linear_combination hxy
    · ring
    · linear_combination hxy
    · linear_combination hy
    · ring
    · ring
    · ring
    · linear_combination (y 0 * y 0 + y 1 * y 1 + y 2 * y 2) * hx + hy - (x 0 * y 0 + x 1 * y 1 + x 2 * y 2) * hxy
  refine ⟨mul_eq_one_comm.1 h, ?_⟩
  rw [det_fin_three]
  simp [cross]
  linear_combination (y 0 * y 0 + y 1 * y 1 + y 2 * y 2) * hx + hy - (x 0 * y 0 + x 1 * y 1 + x 2 * y 2) * hxy

/-- A rotation with a zero in the first row is the product of turns about the first and the second axis. -/
def form (c s c3 s3 : ℝ) : M3 := !![c3, 0, -s3; s * s3, c, s * c3; c * s3, -s, c * c3]

theorem form_eq (c s c3 s3 : ℝ) : aroundAxis c s ![1, 0, 0] * aroundAxis c3 s3 ![0, 1, 0] = form c s c3 s3 := by
  ext i j
  rw [Matrix.mul_apply, Fin.sum_univ_three]
  unfold aroundAxis form
  fin_cases i <;> fin_cases j <;> simp

theorem form_rot {c s c3 s3 : ℝ} (h : c * c + s * s = 1) (h3 : c3 * c3 + s3 * s3 = 1) : IsRot (form c s c3 s3) := by
  constructor
  · ext i j
    rw [Matrix.mul_apply, Fin.sum_univ_three, transpose_apply, transpose_apply, transpose_apply, Matrix.one_apply]
    unfold form
    fin_cases i <;> fin_cases j <;> simp
    · linear_combination s3 * s3 * h + h3
    · ring
    · linear_combination c3 * s3 * h
    · ring
    · linear_combination h
    · ring
    · linear_combination c3 * s3 * h
    · ring
    · linear_combination c3 * c3 * h + h3
  · unfold form
    rw [det_fin_three]
    simp
    linear_combination (c3 * c3 + s3 * s3) * h + h3

theorem form_of_rot {N : M3} (h : IsRot N) (h0 : N 0 1 = 0) : N = form (N 1 1) (-N 2 1) (N 0 0) (-N 0 2) := by
  obtain ⟨r1, r2, r3⟩ := rot_rows h
  have a10 := congrFun r3 0
  have a12 := congrFun r3 2
  have a20 := congrFun r1 0
  have a22 := congrFun r1 2
  simp [cross] at a10 a12 a20 a22
  rw [h0] at a10 a12 a20 a22
  ext i j
  unfold form
  fin_cases i <;> fin_cases j <;> simp
  · exact h0
  · linarith
  · linarith
  · linarith
  · linarith

/-- The closest rotation of a rotation is itself. -/
theorem closest_rot {M : M3} (hM : IsRot M) {d : Svd 3} (h : IsSvd M d) : closest d = M := by
  have hs : ∀ i, d.s i = 1 := by
    have h1 : Mᵀ * M = d.vhᵀ * (diagonal d.s * diagonal d.s) * d.vh := by
      rw [h.eq, transpose_mul, transpose_mul, diagonal_transpose]
      calc d.vhᵀ * (diagonal d.s * d.uᵀ) * (d.u * diagonal d.s * d.vh) = d.vhᵀ * (diagonal d.s * (d.uᵀ * d.u) * diagonal d.s) * d.vh := by
            simp only [Matrix.mul_assoc]
        _ = _ := by rw [h.u, Matrix.mul_one]
    rw [hM.1] at h1
    have h2 : d.vh * 1 * d.vhᵀ = diagonal d.s * diagonal d.s := by
      rw [h1]
      calc d.vh * (d.vhᵀ * (diagonal d.s * diagonal d.s) * d.vh) * d.vhᵀ =
            (d.vh * d.vhᵀ) * (diagonal d.s * diagonal d.s) * (d.vh * d.vhᵀ) := by simp only [Matrix.mul_assoc]
        _ = _ := by rw [h.vh, Matrix.one_mul, Matrix.mul_one]
    rw [Matrix.mul_one, h.vh, diagonal_mul_diagonal] at h2
    intro i
    have h3 := congrFun (congrFun h2 i) i
    rw [Matrix.one_apply_eq, diagonal_apply_eq] at h3
    rcases mul_self_eq_one_iff.1 h3.symm with h4 | h4
    · exact h4
    · have := h.pos i; linarith
  have he : M = d.u * d.vh := by
    have : diagonal d.s = (1 : M3) := by
      rw [← diagonal_one]; congr 1; funext i; exact hs i
    rw [h.eq, this, Matrix.mul_one]
  unfold closest
  rw [← he, if_neg (by rw [hM.2]; norm_num)]

theorem closest_isRot {M : M3} {d : Svd 3} (h : IsSvd M d) : IsRot (closest d) := by
  have ho := Superimpose.det_sq_svd h
  unfold closest
  rcases Superimpose.orth_det ho with hd | hd
  · rw [if_neg (by rw [hd]; norm_num)]; exact ⟨ho, hd⟩
  · rw [if_pos (by rw [hd]; norm_num), neg_one_smul]
    refine ⟨by rw [transpose_neg, neg_mul_neg]; exact ho, ?_⟩
    rw [det_neg, hd]; norm_num

/-! ### The frames of the sample -/

/-- Three unit bearings not on a plane and three points not on a line. -/
structure Good (S : Sample) : Prop where
  n1 : S.b1 ⬝ᵥ S.b1 = 1
  n2 : S.b2 ⬝ᵥ S.b2 = 1
  n3 : S.b3 ⬝ᵥ S.b3 = 1
  s : sigma S ≠ 0
  k : kb S ≠ 0

theorem norm3_sq (v : V3) : norm3 v * norm3 v = v ⬝ᵥ v := Real.mul_self_sqrt (by
  rw [RelativePose.dot3]
  have a0 := mul_self_nonneg (v 0)
  have a1 := mul_self_nonneg (v 1)
  have a2 := mul_self_nonneg (v 2)
  linarith)

theorem norm3_zero : norm3 0 = 0 := by unfold norm3; simp

theorem normalized_smul (v : V3) : norm3 v • normalized v = v := by
  by_cases h : norm3 v = 0
  · have h2 := norm3_sq v
    rw [h, mul_zero] at h2
    have : v = 0 := by
      rw [RelativePose.dot3] at h2
      have a0 := mul_self_nonneg (v 0)
      have a1 := mul_self_nonneg (v 1)
      have a2 := mul_self_nonneg (v 2)
      apply vec_ext
      · exact mul_self_eq_zero.1 (by linarith)
      · exact mul_self_eq_zero.1 (by linarith)
      · exact mul_self_eq_zero.1 (by linarith)
    rw [h, zero_smul, this]
  · unfold normalized
    rw [smul_smul, mul_one_div_cancel h, one_smul]

theorem normalized_unit {v : V3} (h : norm3 v ≠ 0) : normalized v ⬝ᵥ normalized v = 1 := by
  unfold normalized
  rw [smul_dotProduct, dotProduct_smul, ← norm3_sq, smul_eq_mul, smul_eq_mul]
  field_simp

variable {S : Sample}

theorem b12_ne (h : Good S) : b12 S ≠ 0 := by
  intro h0
  apply h.k
  unfold kb k3 normalized
  unfold b12 at h0
  rw [h0]
  simp

theorem dist_ne (h : Good S) : norm3 (S.p1 - S.p2) ≠ 0 := by
  intro h0
  apply h.s
  unfold sigma k1 normalized
  rw [h0]
  have : cross (u1 S) ((1 / (0 : ℝ)) • (S.p1 - S.p2)) = 0 := by
    rw [div_zero, zero_smul]
    apply vec_ext <;> simp [cross]
  rw [this, norm3_zero]

theorem k1_unit (h : Good S) : k1 S ⬝ᵥ k1 S = 1 := normalized_unit (dist_ne h)

theorem k3_unit (h : Good S) : k3 S ⬝ᵥ k3 S = 1 := normalized_unit (b12_ne h)

theorem b1_k3 : S.b1 ⬝ᵥ k3 S = 0 := by
  unfold k3 normalized
  rw [dotProduct_smul, RelativePose.dot3]
  simp [cross]
  right; ring

theorem b2_k3 : S.b2 ⬝ᵥ k3 S = 0 := by
  unfold k3 normalized
  rw [dotProduct_smul, RelativePose.dot3]
  simp [cross]
  right; ring

theorem k3s_unit (h : Good S) : k3s S ⬝ᵥ k3s S = 1 := normalized_unit h.s

theorem k1_k3s : k1 S ⬝ᵥ k3s S = 0 := by
  unfold k3s
  rw [dotProduct_smul, RelativePose.dot3]
  simp [cross]
  right; ring

theorem u1_k3s : u1 S ⬝ᵥ k3s S = 0 := by
  unfold k3s
  rw [dotProduct_smul, RelativePose.dot3]
  simp [cross]
  right; ring

/-- The frame of the points: its rows are `k1`, `k3''` and their product. -/
noncomputable def fa (S : Sample) : M3 := Matrix.of ![k1 S, k3s S, cross (k1 S) (k3s S)]

theorem cBar_eq (S : Sample) : cBar S = (fa S)ᵀ := by
  ext i j
  unfold cBar fa
  fin_cases j <;> rfl

theorem fa_rot (h : Good S) : IsRot (fa S) := frame_rot (k1_unit h) (k3s_unit h) k1_k3s

theorem fb_rot (h : Good S) : IsRot (cBarBar S) := frame_rot h.n1 (k3_unit h) b1_k3

theorem u1_third (h : Good S) : cross (k1 S) (k3s S) ⬝ᵥ u1 S = sigma S := by
  have e : cross (k1 S) (k3s S) ⬝ᵥ u1 S = k3s S ⬝ᵥ cross (u1 S) (k1 S) := by
    rw [RelativePose.dot3, RelativePose.dot3]
    simp [cross]
    ring
  have e2 : cross (u1 S) (k1 S) = sigma S • k3s S := by
    unfold k3s
    rw [smul_smul, mul_one_div_cancel h.s, one_smul]
  rw [e, e2, dotProduct_smul, k3s_unit h, smul_eq_mul, mul_one]

theorem u1_eq (h : Good S) : u1 S = (u1 S ⬝ᵥ k1 S) • k1 S + sigma S • cross (k1 S) (k3s S) := by
  have := rot_expand (fa_rot h) (u1 S)
  have a0 : fa S 0 = k1 S := rfl
  have a1 : fa S 1 = k3s S := rfl
  have a2 : fa S 2 = cross (k1 S) (k3s S) := rfl
  rw [a0, a1, a2, u1_third h, dotProduct_comm (k3s S), u1_k3s, zero_smul, add_zero, dotProduct_comm] at this
  exact this

theorem u12 (h : Good S) : u1 S - u2 S = norm3 (S.p1 - S.p2) • k1 S := by
  unfold k1
  rw [normalized_smul]
  unfold u1 u2
  abel

theorem u12_dot (h : Good S) : u1 S ⬝ᵥ k1 S = u2 S ⬝ᵥ k1 S + norm3 (S.p1 - S.p2) := by
  have : (u1 S - u2 S) ⬝ᵥ k1 S = norm3 (S.p1 - S.p2) := by
    rw [u12 h, smul_dotProduct, k1_unit h, smul_eq_mul, mul_one]
  rw [sub_dotProduct] at this
  linarith

theorem u2_eq (h : Good S) : u2 S = (u2 S ⬝ᵥ k1 S) • k1 S + sigma S • cross (k1 S) (k3s S) := by
  have e : u2 S = u1 S - norm3 (S.p1 - S.p2) • k1 S := by rw [← u12 h]; abel
  have e2 := u1_eq h
  rw [u12_dot h, add_smul] at e2
  rw [e2] at e
  refine e.trans ?_
  abel

theorem cross_b (h : Good S) : cross S.b1 S.b2 = b12 S • k3 S := (normalized_smul _).symm

theorem b12_sq (h : Good S) : b12 S * b12 S + (S.b1 ⬝ᵥ S.b2) * (S.b1 ⬝ᵥ S.b2) = 1 := by
  unfold b12
  rw [norm3_sq]
  have := RelativePose.cross_dot_cross S.b1 S.b2 S.b2
  rw [h.n1, h.n2] at this
  linarith

/-- The third vector of the frame of the bearings. -/
theorem third (h : Good S) : b12 S • cross S.b1 (k3 S) = (S.b1 ⬝ᵥ S.b2) • S.b1 - S.b2 := by
  rw [← cross_smul_right, ← cross_b h]
  have n := h.n1
  rw [RelativePose.dot3] at n ⊢
  apply vec_ext <;> simp [cross]
  · linear_combination (-(S.b2 0)) * n
  · linear_combination (-(S.b2 1)) * n
  · linear_combination (-(S.b2 2)) * n

theorem b2_eq (h : Good S) : S.b2 = (S.b1 ⬝ᵥ S.b2) • S.b1 - b12 S • cross S.b1 (k3 S) := by
  rw [third h]; abel

theorem b3_third : cross S.b1 (k3 S) ⬝ᵥ S.b3 = -(v1 S ⬝ᵥ k3 S) := by
  unfold v1
  rw [RelativePose.dot3, RelativePose.dot3]
  simp [cross]
  ring

theorem v2_k3 (h : Good S) : v2 S ⬝ᵥ k3 S = (S.b1 ⬝ᵥ S.b2) * (v1 S ⬝ᵥ k3 S) - b12 S * (S.b1 ⬝ᵥ S.b3) := by
  unfold v2 v1
  have e : cross S.b2 S.b3 ⬝ᵥ k3 S = (S.b1 ⬝ᵥ S.b2) * (cross S.b1 S.b3 ⬝ᵥ k3 S) - b12 S * (cross (cross S.b1 (k3 S)) S.b3 ⬝ᵥ k3 S) := by
    conv_lhs => rw [b2_eq h]
    rw [RelativePose.dot3, RelativePose.dot3 (cross S.b1 S.b3), RelativePose.dot3 (cross (cross S.b1 (k3 S)) S.b3)]
    simp [cross]
    ring
  have e2 : cross (cross S.b1 (k3 S)) S.b3 ⬝ᵥ k3 S = S.b1 ⬝ᵥ S.b3 := by
    have n := k3_unit h
    have m := b1_k3 (S := S)
    rw [RelativePose.dot3] at n m ⊢
    rw [RelativePose.dot3]
    simp [cross]
    linear_combination (S.b1 0 * S.b3 0 + S.b1 1 * S.b3 1 + S.b1 2 * S.b3 2) * n - (k3 S 0 * S.b3 0 + k3 S 1 * S.b3 1 + k3 S 2 * S.b3 2) * m
  rw [e, e2]

theorem v1_eq (h : Good S) : v1 S = (v1 S ⬝ᵥ k3 S) • k3 S + kb S • cross S.b1 (k3 S) := by
  have := rot_expand (fb_rot h) (v1 S)
  have a0 : cBarBar S 0 = S.b1 := rfl
  have a1 : cBarBar S 1 = k3 S := rfl
  have a2 : cBarBar S 2 = cross S.b1 (k3 S) := rfl
  have e0 : S.b1 ⬝ᵥ v1 S = 0 := by
    unfold v1
    rw [RelativePose.dot3]; simp [cross]; ring
  have e2 : cross S.b1 (k3 S) ⬝ᵥ v1 S = kb S := by
    unfold v1
    rw [RelativePose.cross_dot_cross, h.n1, b1_k3, one_mul, zero_mul, sub_zero]
    rfl
  rw [a0, a1, a2, e0, e2, zero_smul, zero_add, dotProduct_comm] at this
  exact this

theorem v2_eq (h : Good S) : v2 S = (b12 S * kb S) • S.b1 + (v2 S ⬝ᵥ k3 S) • k3 S + ((S.b1 ⬝ᵥ S.b2) * kb S) • cross S.b1 (k3 S) := by
  have := rot_expand (fb_rot h) (v2 S)
  have a0 : cBarBar S 0 = S.b1 := rfl
  have a1 : cBarBar S 1 = k3 S := rfl
  have a2 : cBarBar S 2 = cross S.b1 (k3 S) := rfl
  have e0 : S.b1 ⬝ᵥ v2 S = b12 S * kb S := by
    unfold v2 kb
    rw [← smul_eq_mul, ← smul_dotProduct, ← cross_b h, RelativePose.dot3, RelativePose.dot3]; simp [cross]; ring
  have e2 : cross S.b1 (k3 S) ⬝ᵥ v2 S = (S.b1 ⬝ᵥ S.b2) * kb S := by
    have m := b2_k3 (S := S)
    unfold v2 kb
    rw [RelativePose.dot3] at m ⊢
    rw [RelativePose.dot3, RelativePose.dot3]
    simp [cross]
    linear_combination (-(S.b1 0 * S.b3 0 + S.b1 1 * S.b3 1 + S.b1 2 * S.b3 2)) * m
  rw [a0, a1, a2, e0, e2, dotProduct_comm] at this
  exact this

/-! ### The two equations -/

theorem tangled (a b c d : ℝ) (x y u v : V3) (M : M3) :
    (a • x + b • y) ⬝ᵥ (M *ᵥ (c • u + d • v)) =
      a * c * (x ⬝ᵥ (M *ᵥ u)) + a * d * (x ⬝ᵥ (M *ᵥ v)) + b * c * (y ⬝ᵥ (M *ᵥ u)) + b * d * (y ⬝ᵥ (M *ᵥ v)) := by
  rw [mulVec_add, mulVec_smul, mulVec_smul, add_dotProduct, dotProduct_add, dotProduct_add]
  simp only [smul_dotProduct, dotProduct_smul, smul_eq_mul]
  ring

theorem tangled3 (a b c d e : ℝ) (x y u v w : V3) (M : M3) :
    (a • x + b • y) ⬝ᵥ (M *ᵥ (c • u + d • v + e • w)) =
      a * c * (x ⬝ᵥ (M *ᵥ u)) + a * d * (x ⬝ᵥ (M *ᵥ v)) + a * e * (x ⬝ᵥ (M *ᵥ w)) +
      b * c * (y ⬝ᵥ (M *ᵥ u)) + b * d * (y ⬝ᵥ (M *ᵥ v)) + b * e * (y ⬝ᵥ (M *ᵥ w)) := by
  rw [mulVec_add, mulVec_add, mulVec_smul, mulVec_smul, mulVec_smul, add_dotProduct, dotProduct_add, dotProduct_add, dotProduct_add, dotProduct_add]
  simp only [smul_dotProduct, dotProduct_smul, smul_eq_mul]
  ring

/-- The entries of a matrix in the frames. -/
noncomputable def inFrames (S : Sample) (M : M3) : M3 := fa S * M * (cBarBar S)ᵀ

theorem inFrames_apply (M : M3) (i j : Fin 3) : inFrames S M i j = fa S i ⬝ᵥ (M *ᵥ cBarBar S j) := by
  unfold inFrames
  rw [Matrix.mul_assoc, Matrix.mul_apply]
  simp only [dotProduct]
  refine Finset.sum_congr rfl (fun k _ => ?_)
  rfl

theorem inFrames_back (h : Good S) (M : M3) : (fa S)ᵀ * inFrames S M * cBarBar S = M := by
  unfold inFrames
  calc (fa S)ᵀ * (fa S * M * (cBarBar S)ᵀ) * cBarBar S = ((fa S)ᵀ * fa S) * M * ((cBarBar S)ᵀ * cBarBar S) := by
        simp only [Matrix.mul_assoc]
    _ = M := by rw [(fa_rot h).1, (fb_rot h).1, Matrix.one_mul, Matrix.mul_one]

theorem inFrames_rot (h : Good S) {M : M3} (hM : IsRot M) : IsRot (inFrames S M) :=
  AlignPrior.rot_mul (AlignPrior.rot_mul (fa_rot h) hM) (rot_transpose (fb_rot h))

theorem inFrames_of (h : Good S) (N : M3) : inFrames S ((fa S)ᵀ * N * cBarBar S) = N := by
  unfold inFrames
  calc fa S * ((fa S)ᵀ * N * cBarBar S) * (cBarBar S)ᵀ = (fa S * (fa S)ᵀ) * N * (cBarBar S * (cBarBar S)ᵀ) := by
        simp only [Matrix.mul_assoc]
    _ = N := by rw [mul_eq_one_comm.1 (fa_rot h).1, mul_eq_one_comm.1 (fb_rot h).1, Matrix.one_mul, Matrix.mul_one]

/-- The first equation in the frames. -/
theorem first_eq (h : Good S) (M : M3) (c s c3 s3 : ℝ) (hN : inFrames S M = form c s c3 s3) :
    u1 S ⬝ᵥ (M *ᵥ v1 S) = f11 S * c * c3 + f15 S * s3 - f13 S * s := by
  have n : ∀ i j, fa S i ⬝ᵥ (M *ᵥ cBarBar S j) = form c s c3 s3 i j := fun i j => by rw [← hN, inFrames_apply]
  have n01 : k1 S ⬝ᵥ (M *ᵥ k3 S) = 0 := n 0 1
  have n02 : k1 S ⬝ᵥ (M *ᵥ cross S.b1 (k3 S)) = -s3 := n 0 2
  have n21 : cross (k1 S) (k3s S) ⬝ᵥ (M *ᵥ k3 S) = -s := n 2 1
  have n22 : cross (k1 S) (k3s S) ⬝ᵥ (M *ᵥ cross S.b1 (k3 S)) = c * c3 := n 2 2
  conv_lhs => rw [u1_eq h, v1_eq h]
  rw [tangled, n01, n02, n21, n22]
  unfold f11 f13 f15
  ring

/-- The second equation in the frames. -/
theorem second_eq (h : Good S) (M : M3) (c s c3 s3 : ℝ) (hN : inFrames S M = form c s c3 s3) :
    u2 S ⬝ᵥ (M *ᵥ v2 S) = (f21 S * c + f24 S) * c3 + (f22 S * c + f25 S) * s3 - f23 S * s := by
  have n : ∀ i j, fa S i ⬝ᵥ (M *ᵥ cBarBar S j) = form c s c3 s3 i j := fun i j => by rw [← hN, inFrames_apply]
  have n00 : k1 S ⬝ᵥ (M *ᵥ S.b1) = c3 := n 0 0
  have n01 : k1 S ⬝ᵥ (M *ᵥ k3 S) = 0 := n 0 1
  have n02 : k1 S ⬝ᵥ (M *ᵥ cross S.b1 (k3 S)) = -s3 := n 0 2
  have n20 : cross (k1 S) (k3s S) ⬝ᵥ (M *ᵥ S.b1) = c * s3 := n 2 0
  have n21 : cross (k1 S) (k3s S) ⬝ᵥ (M *ᵥ k3 S) = -s := n 2 1
  have n22 : cross (k1 S) (k3s S) ⬝ᵥ (M *ᵥ cross S.b1 (k3 S)) = c * c3 := n 2 2
  conv_lhs => rw [u2_eq h, v2_eq h]
  rw [tangled3, n00, n01, n02, n20, n21, n22]
  unfold f21 f22 f23 f24 f25
  ring

theorem quartic_eq (S : Sample) (c : ℝ) : realPoly (coefficients S) c =
    denominator S c ^ 2 + (c ^ 2 - 1) * ((g1 S * c + g2 S) ^ 2 + (g3 S * c + g4 S) ^ 2) := by
  unfold realPoly coefficients denominator
  simp only [Matrix.cons_val]
  ring

/-- Cramer's rule for the two equations. -/
theorem cramer {c s c3 s3 : ℝ} (h1 : f11 S * c * c3 + f15 S * s3 - f13 S * s = 0)
    (h2 : (f21 S * c + f24 S) * c3 + (f22 S * c + f25 S) * s3 - f23 S * s = 0) :
    denominator S c * c3 = s * (g1 S * c + g2 S) ∧ denominator S c * s3 = s * (g3 S * c + g4 S) := by
  unfold denominator g1 g2 g3 g4 g5 g6 g7
  constructor
  · linear_combination (f22 S * c + f25 S) * h1 - f15 S * h2
  · linear_combination (f11 S * c) * h2 - (f21 S * c + f24 S) * h1

theorem cramer_back {c s : ℝ} (hd : denominator S c ≠ 0) :
    f11 S * c * (s / denominator S c * (g1 S * c + g2 S)) + f15 S * (s / denominator S c * (g3 S * c + g4 S)) - f13 S * s = 0 ∧
    (f21 S * c + f24 S) * (s / denominator S c * (g1 S * c + g2 S)) + (f22 S * c + f25 S) * (s / denominator S c * (g3 S * c + g4 S)) -
      f23 S * s = 0 := by
  obtain ⟨D, hD⟩ : ∃ D, D = denominator S c := ⟨_, rfl⟩
  have hD' := hD
  rw [← hD] at hd ⊢
  unfold denominator at hD'
  constructor
  · field_simp
    rw [hD']
    unfold g1 g2 g3 g4 g5 g6 g7
    ring
  · field_simp
    rw [hD']
    unfold g1 g2 g3 g4 g5 g6 g7
    ring

theorem norm3_pos_of {v : V3} (h : v ≠ 0) : norm3 v ≠ 0 := by
  intro h0
  apply h
  rw [← normalized_smul v, h0, zero_smul]

theorem good_of (h : General S) : Good S := by
  have hb : cross S.b1 S.b2 ≠ 0 := by
    intro h0
    apply h.bearings
    rw [h0, zero_dotProduct]
  have hp : S.p1 - S.p2 ≠ 0 := by
    intro h0
    apply h.points
    rw [h0]
    apply vec_ext <;> simp [cross]
  refine ⟨h.n1, h.n2, h.n3, ?_, ?_⟩
  · unfold sigma
    apply norm3_pos_of
    intro h0
    apply h.points
    have e : cross (S.p1 - S.p2) (S.p1 - S.p3) = -(norm3 (S.p1 - S.p2) • cross (u1 S) (k1 S)) := by
      rw [← cross_smul_right]
      unfold k1
      rw [normalized_smul, cross_anti]
      rfl
    rw [e, h0, smul_zero, neg_zero]
  · intro h0
    apply h.bearings
    rw [← normalized_smul (cross S.b1 S.b2), smul_dotProduct]
    unfold kb k3 at h0
    rw [h0, smul_zero]

theorem sinOne_sq {c : ℝ} (hc : 0 ≤ 1 - c * c) : c * c + sinOne S c * sinOne S c = 1 := by
  unfold sinOne sign
  have := Real.mul_self_sqrt hc
  split <;> linear_combination this

theorem depth_nonneg (S : Sample) (hk : kb S ≠ 0) (c : ℝ) : 0 ≤ sigma S * sinOne S c / kb S := by
  have hs : 0 ≤ sigma S := Real.sqrt_nonneg _
  have hr : 0 ≤ Real.sqrt (1 - c * c) := Real.sqrt_nonneg _
  unfold sinOne sign
  split
  · rename_i h
    rw [show sigma S * (-1 * Real.sqrt (1 - c * c)) / kb S = (sigma S * Real.sqrt (1 - c * c)) / (-kb S) by rw [div_neg, ← neg_div]; ring]
    exact div_nonneg (mul_nonneg hs hr) (by linarith)
  · rename_i h
    exact div_nonneg (mul_nonneg hs (by linarith)) (by linarith)

/-- Where the pose sees a point, from the direction of the point from the third one. -/
theorem poseOf_apply {M : M3} (hM : IsRot M) (c : ℝ) (p : V3) :
    (poseOf S c M).R *ᵥ p + (poseOf S c M).t = Mᵀ *ᵥ (p - S.p3) + (sigma S * sinOne S c / kb S) • S.b3 := by
  unfold poseOf
  dsimp only
  have e : Mᵀ *ᵥ (M *ᵥ S.b3) = S.b3 := by rw [mulVec_mulVec, hM.1, one_mulVec]
  rw [mulVec_sub, mulVec_sub, mulVec_smul, e]
  abel

theorem transpose_dot (M : M3) (x y : V3) : y ⬝ᵥ (Mᵀ *ᵥ x) = x ⬝ᵥ (M *ᵥ y) := by
  rw [mulVec_transpose, dotProduct_comm, dotProduct_mulVec]

/-- The lines, when the rotation has the form of the program and satisfies the two equations. -/
theorem lines (h : Good S) {M : M3} (hM : IsRot M) (c c3 s3 : ℝ) (hN : inFrames S M = form c (sinOne S c) c3 s3)
    (e1 : f11 S * c * c3 + f15 S * s3 - f13 S * sinOne S c = 0)
    (e2 : (f21 S * c + f24 S) * c3 + (f22 S * c + f25 S) * s3 - f23 S * sinOne S c = 0) :
    (∃ d, On (poseOf S c M) S.b1 S.p1 d) ∧ (∃ d, On (poseOf S c M) S.b2 S.p2 d) := by
  have n : ∀ i j, fa S i ⬝ᵥ (M *ᵥ cBarBar S j) = form c (sinOne S c) c3 s3 i j := fun i j => by rw [← hN, inFrames_apply]
  have n00 : k1 S ⬝ᵥ (M *ᵥ S.b1) = c3 := n 0 0
  have n01 : k1 S ⬝ᵥ (M *ᵥ k3 S) = 0 := n 0 1
  have n02 : k1 S ⬝ᵥ (M *ᵥ cross S.b1 (k3 S)) = -s3 := n 0 2
  have n20 : cross (k1 S) (k3s S) ⬝ᵥ (M *ᵥ S.b1) = c * s3 := n 2 0
  have n21 : cross (k1 S) (k3s S) ⬝ᵥ (M *ᵥ k3 S) = -sinOne S c := n 2 1
  have n22 : cross (k1 S) (k3s S) ⬝ᵥ (M *ᵥ cross S.b1 (k3 S)) = c * c3 := n 2 2
  obtain ⟨s, hs⟩ : ∃ s, s = sinOne S c := ⟨_, rfl⟩
  rw [← hs] at e1 e2 n21
  have expand := rot_expand (fb_rot h)
  have a0 : cBarBar S 0 = S.b1 := rfl
  have a1 : cBarBar S 1 = k3 S := rfl
  have a2 : cBarBar S 2 = cross S.b1 (k3 S) := rfl
  rw [a0, a1, a2] at expand
  have hk := h.k
  have hb3 : k3 S ⬝ᵥ S.b3 = kb S := rfl
  constructor
  · obtain ⟨x, hx⟩ : ∃ x, x = Mᵀ *ᵥ (S.p1 - S.p3) + (sigma S * s / kb S) • S.b3 := ⟨_, rfl⟩
    have hu : S.p1 - S.p3 = (u1 S ⬝ᵥ k1 S) • k1 S + sigma S • cross (k1 S) (k3s S) := u1_eq h
    have x1 : k3 S ⬝ᵥ x = 0 := by
      rw [hx, dotProduct_add, transpose_dot, dotProduct_smul, hb3, hu, add_dotProduct, smul_dotProduct, smul_dotProduct, n01, n21]
      simp only [smul_eq_mul]
      field_simp
      ring
    have x2 : cross S.b1 (k3 S) ⬝ᵥ x = 0 := by
      rw [hx, dotProduct_add, transpose_dot, dotProduct_smul, b3_third, hu, add_dotProduct, smul_dotProduct, smul_dotProduct, n02, n22]
      simp only [smul_eq_mul]
      field_simp
      unfold f11 f13 f15 at e1
      linear_combination e1
    refine ⟨S.b1 ⬝ᵥ x, ?_⟩
    unfold On
    rw [poseOf_apply hM, ← hs, ← hx]
    have := expand x
    rw [x1, x2, zero_smul, zero_smul, add_zero, add_zero] at this
    exact this
  · obtain ⟨x, hx⟩ : ∃ x, x = Mᵀ *ᵥ (S.p2 - S.p3) + (sigma S * s / kb S) • S.b3 := ⟨_, rfl⟩
    have hu : S.p2 - S.p3 = (u2 S ⬝ᵥ k1 S) • k1 S + sigma S • cross (k1 S) (k3s S) := u2_eq h
    have x1 : k3 S ⬝ᵥ x = 0 := by
      rw [hx, dotProduct_add, transpose_dot, dotProduct_smul, hb3, hu, add_dotProduct, smul_dotProduct, smul_dotProduct, n01, n21]
      simp only [smul_eq_mul]
      field_simp
      ring
    have x0 : S.b1 ⬝ᵥ x = (u2 S ⬝ᵥ k1 S) * c3 + sigma S * (c * s3) + sigma S * s / kb S * (S.b1 ⬝ᵥ S.b3) := by
      rw [hx, dotProduct_add, transpose_dot, dotProduct_smul, hu, add_dotProduct, smul_dotProduct, smul_dotProduct, n00, n20]
      simp only [smul_eq_mul]
    have x2 : cross S.b1 (k3 S) ⬝ᵥ x = (u2 S ⬝ᵥ k1 S) * (-s3) + sigma S * (c * c3) + sigma S * s / kb S * (-(v1 S ⬝ᵥ k3 S)) := by
      rw [hx, dotProduct_add, transpose_dot, dotProduct_smul, b3_third, hu, add_dotProduct, smul_dotProduct, smul_dotProduct, n02, n22]
      simp only [smul_eq_mul]
    have ortho : b12 S * (S.b1 ⬝ᵥ x) + (S.b1 ⬝ᵥ S.b2) * (cross S.b1 (k3 S) ⬝ᵥ x) = 0 := by
      rw [x0, x2]
      have hv := v2_k3 h
      unfold f21 f22 f23 f24 f25 at e2
      field_simp
      rw [hv] at e2
      linear_combination e2
    refine ⟨(S.b1 ⬝ᵥ S.b2) * (S.b1 ⬝ᵥ x) - b12 S * (cross S.b1 (k3 S) ⬝ᵥ x), ?_⟩
    unfold On
    rw [poseOf_apply hM, ← hs, ← hx]
    have hx' := expand x
    rw [x1, zero_smul, add_zero] at hx'
    have hq := b12_sq h
    have hb := b2_eq h
    obtain ⟨α, hα⟩ : ∃ α, α = S.b1 ⬝ᵥ x := ⟨_, rfl⟩
    obtain ⟨β, hβ⟩ : ∃ β, β = cross S.b1 (k3 S) ⬝ᵥ x := ⟨_, rfl⟩
    obtain ⟨γ, hγ⟩ : ∃ γ, γ = S.b1 ⬝ᵥ S.b2 := ⟨_, rfl⟩
    rw [← hα, ← hβ, ← hγ] at ortho
    rw [← hα, ← hβ] at hx'
    rw [← hγ] at hq hb
    rw [← hα, ← hβ, ← hγ, hb, hx', smul_sub, smul_smul, smul_smul, sub_eq_add_neg, ← neg_smul]
    congr 2
    · linear_combination (-α) * hq + b12 S * ortho
    · linear_combination (-β) * hq + γ * ortho

/-- The rotation of the program for a root. -/
theorem product_rot (h : Good S) {c : ℝ} (hc : 0 ≤ 1 - c * c) (hd : denominator S c ≠ 0) (hr : realPoly (coefficients S) c = 0) :
    IsRot (product S c) ∧ inFrames S (product S c) = form c (sinOne S c) (cosThree S c) (sinThree S c) := by
  have hp : product S c = (fa S)ᵀ * form c (sinOne S c) (cosThree S c) (sinThree S c) * cBarBar S := by
    unfold product
    rw [cBar_eq, Matrix.mul_assoc (fa S)ᵀ, form_eq]
  have h1 := sinOne_sq (S := S) hc
  have h3 : cosThree S c * cosThree S c + sinThree S c * sinThree S c = 1 := by
    rw [quartic_eq] at hr
    unfold cosThree sinThree
    field_simp
    linear_combination ((g1 S * c + g2 S) ^ 2 + (g3 S * c + g4 S) ^ 2) * h1 - hr
  refine ⟨?_, ?_⟩
  · rw [hp]
    exact AlignPrior.rot_mul (AlignPrior.rot_mul (rot_transpose (fa_rot h)) (form_rot h1 h3)) (fb_rot h)
  · rw [hp, inFrames_of h]

/-- The pose made from a root of the quartic sees the three points on the lines of their bearings, the third one in front. -/
theorem C104_sound (svd : M3 → Svd 3) (hs : ∀ C, IsSvd C (svd C)) (S : Sample) (h : General S) (c : ℝ) (hr : realPoly (coefficients S) c = 0)
    (rt : RT) (hp : pose svd S c = some rt) :
    IsRot rt.R ∧ (∃ d1, On rt S.b1 S.p1 d1) ∧ (∃ d2, On rt S.b2 S.p2 d2) ∧ (∃ d3, 0 ≤ d3 ∧ On rt S.b3 S.p3 d3) := by
  have hg := good_of h
  unfold pose at hp
  split at hp
  · exact absurd hp (by simp)
  rename_i hn
  obtain ⟨hc, hd⟩ := not_or.1 hn
  have hrt := (Option.some.inj hp).symm
  obtain ⟨hM, hN⟩ := product_rot hg (not_lt.1 hc) hd hr
  rw [closest_rot hM (hs _)] at hrt
  obtain ⟨e1, e2⟩ := cramer_back (s := sinOne S c) hd
  obtain ⟨l1, l2⟩ := lines hg hM c _ _ hN e1 e2
  rw [hrt]
  refine ⟨rot_transpose hM, l1, l2, _, depth_nonneg S hg.k c, ?_⟩
  unfold On
  rw [poseOf_apply hM, sub_self, mulVec_zero, zero_add]

/-- Every pose of the result has a rotation and sees the third point in front on the line of its bearing; it is made from one of the refined
roots, and when that is a root it also sees the other two points on the lines of their bearings. -/
theorem C104_results (w : Quartic.Pow) (svd : M3 → Svd 3) (hs : ∀ C, IsSvd C (svd C)) (S : Sample) (h : General S) (rt : RT)
    (hrt : some rt ∈ threePoints w svd S) :
    IsRot rt.R ∧ (∃ d3, 0 ≤ d3 ∧ On rt S.b3 S.p3 d3) ∧
    ∃ rs, Quartic.solve w (coefficients S) = some rs ∧ ∃ c, some c ∈ Quartic.refine (coefficients S) rs ∧
      (realPoly (coefficients S) c = 0 → (∃ d1, On rt S.b1 S.p1 d1) ∧ (∃ d2, On rt S.b2 S.p2 d2)) := by
  have hg := good_of h
  unfold threePoints at hrt
  rw [if_neg hg.s, if_neg hg.k] at hrt
  split at hrt
  · exact absurd hrt (by simp)
  rename_i rs hrs
  obtain ⟨r, hr, hb⟩ := List.mem_map.1 hrt
  cases r with
  | none => exact absurd hb (by simp)
  | some c =>
    have hp : pose svd S c = some rt := hb
    have hs' := C104_sound svd hs S h c
    have hp' := hp
    unfold pose at hp'
    split at hp'
    · exact absurd hp' (by simp)
    have hrt' := (Option.some.inj hp').symm
    have hR := closest_isRot (hs (product S c))
    refine ⟨by rw [hrt']; exact rot_transpose hR, ⟨_, depth_nonneg S hg.k c, ?_⟩, rs, hrs, c, hr, fun h0 => ⟨(hs' h0 rt hp).2.1, (hs' h0 rt hp).2.2.1⟩⟩
    rw [hrt']
    unfold On
    rw [poseOf_apply hR, sub_self, mulVec_zero, zero_add]

/-- Points on a line, or bearings on a plane, give no pose. -/
theorem C104_degenerate (w : Quartic.Pow) (svd : M3 → Svd 3) (S : Sample)
    (h : cross (S.p1 - S.p2) (S.p1 - S.p3) = 0 ∨ cross S.b1 S.b2 ⬝ᵥ S.b3 = 0) : threePoints w svd S = [] := by
  unfold threePoints
  rcases h with h | h
  · rw [if_pos]
    unfold sigma k1 normalized
    have e : cross (u1 S) ((1 / norm3 (S.p1 - S.p2)) • (S.p1 - S.p2)) = -((1 / norm3 (S.p1 - S.p2)) • cross (S.p1 - S.p2) (S.p1 - S.p3)) := by
      rw [cross_smul_right, cross_anti, smul_neg]
      rfl
    rw [e, h, smul_zero, neg_zero, norm3_zero]
  · by_cases hs : sigma S = 0
    · rw [if_pos hs]
    · rw [if_neg hs, if_pos]
      unfold kb k3 normalized
      rw [smul_dotProduct, h, smul_zero]

/-! ### Completeness -/

/-- What is known of a true pose, with `M` its transposed rotation. -/
theorem true_facts (h : Good S) {M : M3} (hM : IsRot M) {t : V3} {d1 d2 d3 : ℝ} (h1 : S.p1 = M *ᵥ (d1 • S.b1 - t)) (h2 : S.p2 = M *ᵥ (d2 • S.b2 - t))
    (h3 : S.p3 = M *ᵥ (d3 • S.b3 - t)) :
    u1 S = M *ᵥ (d1 • S.b1 - d3 • S.b3) ∧ u2 S = M *ᵥ (d2 • S.b2 - d3 • S.b3) ∧ k1 S ⬝ᵥ (M *ᵥ k3 S) = 0 ∧
    u1 S ⬝ᵥ (M *ᵥ v1 S) = 0 ∧ u2 S ⬝ᵥ (M *ᵥ v2 S) = 0 ∧ u1 S ⬝ᵥ (M *ᵥ k3 S) = -(d3 * kb S) := by
  have e1 : u1 S = M *ᵥ (d1 • S.b1 - d3 • S.b3) := by
    unfold u1
    rw [h1, h3, ← mulVec_sub]
    congr 1; abel
  have e2 : u2 S = M *ᵥ (d2 • S.b2 - d3 • S.b3) := by
    unfold u2
    rw [h2, h3, ← mulVec_sub]
    congr 1; abel
  refine ⟨e1, e2, ?_, ?_, ?_, ?_⟩
  · unfold k1 normalized
    have e : S.p1 - S.p2 = M *ᵥ (d1 • S.b1 - d2 • S.b2) := by
      rw [h1, h2, ← mulVec_sub]
      congr 1; abel
    rw [smul_dotProduct]
    conv_lhs => rw [e]
    rw [rot_dot hM, sub_dotProduct, smul_dotProduct, smul_dotProduct, b1_k3, b2_k3]
    simp
  · rw [e1, rot_dot hM, RelativePose.dot3]
    unfold v1
    simp [cross]
    ring
  · rw [e2, rot_dot hM, RelativePose.dot3]
    unfold v2
    simp [cross]
    ring
  · rw [e1, rot_dot hM, sub_dotProduct, smul_dotProduct, smul_dotProduct, b1_k3, dotProduct_comm S.b3]
    unfold kb
    simp

/-- The denominator vanishes only on the circle. -/
theorem denominator_circle (h : Good S) {M : M3} (hM : IsRot M) {d1 d2 d3 : ℝ} (e1 : u1 S = M *ᵥ (d1 • S.b1 - d3 • S.b3))
    (e2 : u2 S = M *ᵥ (d2 • S.b2 - d3 • S.b3)) (h0 : k1 S ⬝ᵥ (M *ᵥ k3 S) = 0) (hd : denominator S (k3s S ⬝ᵥ (M *ᵥ k3 S)) = 0) : OnCircle S d1 d2 d3 := by
  obtain ⟨c, hc⟩ : ∃ c, c = k3s S ⬝ᵥ (M *ᵥ k3 S) := ⟨_, rfl⟩
  rw [← hc] at hd
  obtain ⟨γ, hγ⟩ : ∃ γ, γ = S.b1 ⬝ᵥ S.b2 := ⟨_, rfl⟩
  obtain ⟨b, hb⟩ : ∃ b, b = b12 S := ⟨_, rfl⟩
  have hq := b12_sq h
  rw [← hγ, ← hb] at hq
  have hb0 : b ≠ 0 := by rw [hb]; exact b12_ne h
  have hs0 := h.s
  have hk0 := h.k
  -- the third bearing in the frame
  have expand := rot_expand (fb_rot h) S.b3
  have a0 : cBarBar S 0 = S.b1 := rfl
  have a1 : cBarBar S 1 = k3 S := rfl
  have a2 : cBarBar S 2 = cross S.b1 (k3 S) := rfl
  rw [a0, a1, a2] at expand
  have hthird := third h
  rw [← hγ, ← hb] at hthird
  have hw : cross S.b1 (k3 S) = (γ / b) • S.b1 - (1 / b) • S.b2 := by
    have : cross S.b1 (k3 S) = (1 / b) • (b • cross S.b1 (k3 S)) := by rw [smul_smul, one_div_mul_cancel hb0, one_smul]
    rw [this, hthird, smul_sub, smul_smul]
    congr 2
    ring
  have hk : k3 S ⬝ᵥ S.b3 = kb S := rfl
  obtain ⟨ω, hω⟩ : ∃ ω, ω = cross S.b1 (k3 S) ⬝ᵥ S.b3 := ⟨_, rfl⟩
  rw [← hω, hk, hw] at expand
  obtain ⟨x, hx⟩ : ∃ x, x = d3 * (S.b1 ⬝ᵥ S.b3 + ω * γ / b) := ⟨_, rfl⟩
  obtain ⟨y, hy⟩ : ∃ y, y = -(d3 * ω / b) := ⟨_, rfl⟩
  have hb3 : d3 • S.b3 = x • S.b1 + y • S.b2 + (d3 * kb S) • k3 S := by
    obtain ⟨ρ, hρ⟩ : ∃ ρ, ρ = S.b1 ⬝ᵥ S.b3 := ⟨_, rfl⟩
    rw [← hρ] at expand hx
    rw [expand, hx, hy]
    apply vec_ext <;> simp only [Pi.add_apply, Pi.sub_apply, Pi.smul_apply, smul_eq_mul] <;> ring
  -- scalar products
  have n1 := h.n1
  have n2 := h.n2
  have c1 := b1_k3 (S := S)
  have c2 := b2_k3 (S := S)
  have n3 := k3_unit h
  have gg : S.b2 ⬝ᵥ S.b1 = γ := by rw [dotProduct_comm, hγ]
  have c1' : k3 S ⬝ᵥ S.b1 = 0 := by rw [dotProduct_comm, c1]
  have c2' : k3 S ⬝ᵥ S.b2 = 0 := by rw [dotProduct_comm, c2]
  have w1 : d1 • S.b1 - d3 • S.b3 = (d1 - x) • S.b1 + (-y) • S.b2 + (-(d3 * kb S)) • k3 S := by
    rw [hb3]; apply vec_ext <;> simp only [Pi.add_apply, Pi.sub_apply, Pi.smul_apply, smul_eq_mul] <;> ring
  have w2 : d2 • S.b2 - d3 • S.b3 = (-x) • S.b1 + (d2 - y) • S.b2 + (-(d3 * kb S)) • k3 S := by
    rw [hb3]; apply vec_ext <;> simp only [Pi.add_apply, Pi.sub_apply, Pi.smul_apply, smul_eq_mul] <;> ring
  -- the scalar product of the two differences
  have dotu : u1 S ⬝ᵥ u2 S = (d1 - x) * (-x) + (d1 - x) * (d2 - y) * γ + (-y) * (-x) * γ + (-y) * (d2 - y) + (d3 * kb S) ^ 2 := by
    rw [e1, e2, rot_dot hM, w1, w2]
    simp only [add_dotProduct, dotProduct_add, smul_dotProduct, dotProduct_smul, smul_eq_mul, n1, n2, n3, c1, c2, c1', c2', gg, ← hγ]
    ring
  have dotk : u1 S ⬝ᵥ u2 S = (u1 S ⬝ᵥ k1 S) * (u2 S ⬝ᵥ k1 S) + sigma S ^ 2 := by
    have f0 := k1_unit h
    have r := fa_rot h
    have f1 : k1 S ⬝ᵥ cross (k1 S) (k3s S) = 0 := by
      have := rot_row_dot r 0 2
      rw [if_neg (by decide)] at this
      exact this
    have f2 : cross (k1 S) (k3s S) ⬝ᵥ cross (k1 S) (k3s S) = 1 := by
      have := rot_row_dot r 2 2
      rw [if_pos rfl] at this
      exact this
    have g1' := u1_eq h
    have g2' := u2_eq h
    obtain ⟨α, hα⟩ : ∃ α, α = u1 S ⬝ᵥ k1 S := ⟨_, rfl⟩
    obtain ⟨β, hβ⟩ : ∃ β, β = u2 S ⬝ᵥ k1 S := ⟨_, rfl⟩
    rw [← hα] at g1' ⊢
    rw [← hβ] at g2' ⊢
    rw [g1', g2']
    simp only [add_dotProduct, dotProduct_add, smul_dotProduct, dotProduct_smul, smul_eq_mul, f0, f1, f2, dotProduct_comm (cross (k1 S) (k3s S)) (k1 S)]
    ring
  -- the cosine and the sine
  have hN := inFrames_rot h hM
  have col := rot_row_dot (rot_transpose hN) 1 1
  have m01 : inFrames S M 0 1 = 0 := by rw [inFrames_apply]; exact h0
  have m11 : inFrames S M 1 1 = c := by rw [inFrames_apply, hc]; rfl
  have m21 : inFrames S M 2 1 = cross (k1 S) (k3s S) ⬝ᵥ (M *ᵥ k3 S) := by rw [inFrames_apply]; rfl
  have hsin : sigma S * (cross (k1 S) (k3s S) ⬝ᵥ (M *ᵥ k3 S)) = -(d3 * kb S) := by
    have e : u1 S ⬝ᵥ (M *ᵥ k3 S) = -(d3 * kb S) := by
      rw [e1, rot_dot hM, w1]
      simp only [add_dotProduct, smul_dotProduct, smul_eq_mul, n3, c1, c2]
      ring
    conv_lhs at e => rw [u1_eq h, add_dotProduct, smul_dotProduct, smul_dotProduct, h0]
    simp only [smul_eq_mul, mul_zero, zero_add] at e
    exact e
  have cs : c * c + (cross (k1 S) (k3s S) ⬝ᵥ (M *ᵥ k3 S)) ^ 2 = 1 := by
    rw [if_pos rfl, RelativePose.dot3] at col
    simp only [transpose_apply, m01, m11, m21] at col
    linear_combination col
  -- the triple product
  have triple : sigma S * norm3 (S.p1 - S.p2) * c = -(((d1 - x) * (d2 - y) - x * y) * b) := by
    have t1 : cross (u1 S) (u2 S) ⬝ᵥ (M *ᵥ k3 S) = ((d1 - x) * (d2 - y) - x * y) * b := by
      rw [e1, e2, rot_cross hM, rot_dot hM, w1, w2]
      have e : cross ((d1 - x) • S.b1 + (-y) • S.b2 + (-(d3 * kb S)) • k3 S) ((-x) • S.b1 + (d2 - y) • S.b2 + (-(d3 * kb S)) • k3 S) ⬝ᵥ k3 S =
          ((d1 - x) * (d2 - y) - x * y) * (cross S.b1 S.b2 ⬝ᵥ k3 S) := by
        rw [RelativePose.dot3, RelativePose.dot3]
        simp [cross]
        ring
      rw [e, cross_b h, smul_dotProduct, n3, ← hb, smul_eq_mul, mul_one]
    have t2 : cross (u1 S) (u2 S) = (-(sigma S * norm3 (S.p1 - S.p2))) • k3s S := by
      have e : u2 S = u1 S - norm3 (S.p1 - S.p2) • k1 S := by rw [← u12 h]; abel
      have e3 : cross (u1 S) (k1 S) = sigma S • k3s S := by
        unfold k3s
        rw [smul_smul, mul_one_div_cancel h.s, one_smul]
      have e4 : cross (u1 S) (u1 S - norm3 (S.p1 - S.p2) • k1 S) = (-norm3 (S.p1 - S.p2)) • cross (u1 S) (k1 S) := by
        apply vec_ext <;> simp [cross] <;> ring
      rw [e, e4, e3, smul_smul]
      congr 1; ring
    rw [t2, smul_dotProduct, ← hc, smul_eq_mul] at t1
    linear_combination -t1
  -- the denominator
  have key : b * (x ^ 2 + y ^ 2 + 2 * x * y * γ - x * d1 - y * d2) = 0 := by
    have hD : denominator S c = kb S ^ 2 * (b * (sigma S ^ 2 * c ^ 2 + (u1 S ⬝ᵥ k1 S) * (u2 S ⬝ᵥ k1 S)) + γ * (sigma S * norm3 (S.p1 - S.p2) * c)) := by
      unfold denominator g5 g6 g7 f11 f22 f25 f15 f21 f24
      rw [← hγ, ← hb, u12_dot h]
      ring
    rw [hd, triple] at hD
    have hD2 : b * (sigma S ^ 2 * c ^ 2 + (u1 S ⬝ᵥ k1 S) * (u2 S ⬝ᵥ k1 S)) + γ * -(((d1 - x) * (d2 - y) - x * y) * b) = 0 := by
      rcases mul_eq_zero.1 hD.symm with h' | h'
      · exact absurd (pow_eq_zero_iff two_ne_zero |>.1 h') hk0
      · exact h'
    have e5 : sigma S ^ 2 * c ^ 2 = sigma S ^ 2 - (d3 * kb S) ^ 2 := by
      linear_combination sigma S ^ 2 * cs - (sigma S * (cross (k1 S) (k3s S) ⬝ᵥ (M *ᵥ k3 S)) - d3 * kb S) * hsin
    rw [e5] at hD2
    linear_combination hD2 + b * dotk - b * dotu
  have key2 : x ^ 2 + y ^ 2 + 2 * x * y * γ - x * d1 - y * d2 = 0 := by
    rcases mul_eq_zero.1 key with h' | h'
    · exact absurd h' hb0
    · exact h'
  obtain ⟨o, ho⟩ : ∃ o : V3, o = ((d1 - γ * d2) / (2 * b ^ 2)) • S.b1 + ((d2 - γ * d1) / (2 * b ^ 2)) • S.b2 := ⟨_, rfl⟩
  have o1 : o ⬝ᵥ S.b1 = d1 / 2 := by
    rw [ho, add_dotProduct, smul_dotProduct, smul_dotProduct, n1, gg, smul_eq_mul, smul_eq_mul]
    field_simp
    linear_combination (-d1) * hq
  have o2 : o ⬝ᵥ S.b2 = d2 / 2 := by
    rw [ho, add_dotProduct, smul_dotProduct, smul_dotProduct, n2, ← hγ, smul_eq_mul, smul_eq_mul]
    field_simp
    linear_combination (-d2) * hq
  have sq : ∀ v : V3, 2 * (o ⬝ᵥ v) = v ⬝ᵥ v → (o - v) ⬝ᵥ (o - v) = o ⬝ᵥ o := by
    intro v hv
    rw [sub_dotProduct, dotProduct_sub, dotProduct_sub, dotProduct_comm v o]
    linear_combination -hv
  refine ⟨x, y, (d1 - γ * d2) / (2 * b ^ 2), (d2 - γ * d1) / (2 * b ^ 2), x • S.b1 + y • S.b2, o, rfl, ?_, ?_, ho, ?_, ?_, ?_⟩
  · rw [hb3, add_sub_cancel_left, smul_dotProduct, c1', smul_zero]
  · rw [hb3, add_sub_cancel_left, smul_dotProduct, c2', smul_zero]
  · apply sq
    rw [dotProduct_smul, smul_dotProduct, dotProduct_smul, o1, n1]
    simp only [smul_eq_mul]
    ring
  · apply sq
    rw [dotProduct_smul, smul_dotProduct, dotProduct_smul, o2, n2]
    simp only [smul_eq_mul]
    ring
  · apply sq
    simp only [add_dotProduct, dotProduct_add, smul_dotProduct, dotProduct_smul, smul_eq_mul, n1, n2, gg, ← hγ, o1, o2]
    linear_combination -key2

/-- The root, the equations and the pose of the program, for a true pose off the circle. -/
theorem true_pose (svd : M3 → Svd 3) (hs : ∀ C, IsSvd C (svd C)) (h : Good S) (rt : RT) (hR : IsRot rt.R) {d1 d2 d3 : ℝ} (p3 : 0 < d3)
    (h1 : On rt S.b1 S.p1 d1) (h2 : On rt S.b2 S.p2 d2) (h3 : On rt S.b3 S.p3 d3) (ho : ¬ OnCircle S d1 d2 d3) :
    ∃ c, realPoly (coefficients S) c = 0 ∧ pose svd S c = some rt := by
  obtain ⟨M, hMe⟩ : ∃ M, M = rt.Rᵀ := ⟨_, rfl⟩
  have hM : IsRot M := by rw [hMe]; exact rot_transpose hR
  have hMR : Mᵀ = rt.R := by rw [hMe, transpose_transpose]
  have back : ∀ {b p : V3} {d : ℝ}, On rt b p d → p = M *ᵥ (d • b - rt.t) := by
    intro b p d hp
    unfold On at hp
    rw [← hp, add_sub_cancel_right, hMe, mulVec_mulVec, hR.1, one_mulVec]
  obtain ⟨e1, e2, h01, q1, q2, hdep⟩ := true_facts h hM (back h1) (back h2) (back h3)
  have hN := inFrames_rot h hM
  have m01 : inFrames S M 0 1 = 0 := by rw [inFrames_apply]; exact h01
  have hf := form_of_rot hN m01
  obtain ⟨c, hc⟩ : ∃ c, c = inFrames S M 1 1 := ⟨_, rfl⟩
  obtain ⟨s, hs'⟩ : ∃ s, s = -inFrames S M 2 1 := ⟨_, rfl⟩
  obtain ⟨c3, hc3⟩ : ∃ c3, c3 = inFrames S M 0 0 := ⟨_, rfl⟩
  obtain ⟨s3, hs3⟩ : ∃ s3, s3 = -inFrames S M 0 2 := ⟨_, rfl⟩
  rw [← hc, ← hs', ← hc3, ← hs3] at hf
  have E1 := first_eq h M c s c3 s3 hf
  have E2 := second_eq h M c s c3 s3 hf
  rw [q1] at E1
  rw [q2] at E2
  obtain ⟨D1, D2⟩ := cramer E1.symm E2.symm
  have hd : denominator S c ≠ 0 := by
    intro h0
    apply ho
    refine denominator_circle h hM e1 e2 h01 ?_
    have : k3s S ⬝ᵥ (M *ᵥ k3 S) = c := by rw [hc, inFrames_apply]; rfl
    rw [this, h0]
  have cs : c * c + s * s = 1 := by
    have col := rot_row_dot (rot_transpose hN) 1 1
    rw [if_pos rfl, RelativePose.dot3] at col
    simp only [transpose_apply] at col
    rw [m01, ← hc] at col
    rw [hs']
    linear_combination col
  have cs3 : c3 * c3 + s3 * s3 = 1 := by
    have row := rot_row_dot hN 0 0
    rw [if_pos rfl, RelativePose.dot3] at row
    rw [m01, ← hc3] at row
    rw [hs3]
    linear_combination row
  have hsd : sigma S * s = d3 * kb S := by
    have e : u1 S ⬝ᵥ (M *ᵥ k3 S) = sigma S * (-s) := by
      conv_lhs => rw [u1_eq h]
      have h21 : cross (k1 S) (k3s S) ⬝ᵥ (M *ᵥ k3 S) = -s := by
        rw [hs', neg_neg, inFrames_apply]; rfl
      rw [add_dotProduct, smul_dotProduct, smul_dotProduct, h01, h21]
      simp
    rw [hdep] at e
    linear_combination e
  have hspos : 0 < sigma S := lt_of_le_of_ne (Real.sqrt_nonneg _) (Ne.symm h.s)
  have hsin : sinOne S c = s := by
    unfold sinOne sign
    rw [show 1 - c * c = s * s by linear_combination -cs, Real.sqrt_mul_self_eq_abs]
    split
    · rename_i hk
      have : sigma S * s < 0 := by rw [hsd]; exact mul_neg_of_pos_of_neg p3 hk
      have : s < 0 := by
        by_contra hge
        have := mul_nonneg hspos.le (not_lt.1 hge)
        linarith
      rw [abs_of_neg this]; ring
    · rename_i hk
      have : 0 ≤ sigma S * s := by rw [hsd]; exact mul_nonneg p3.le (not_lt.1 hk)
      have : 0 ≤ s := by
        by_contra hlt
        have := mul_neg_of_pos_of_neg hspos (not_le.1 hlt)
        linarith
      rw [abs_of_nonneg this]; ring
  have hcos3 : cosThree S c = c3 := by
    unfold cosThree
    rw [hsin]
    field_simp
    linear_combination -D1
  have hsin3 : sinThree S c = s3 := by
    unfold sinThree
    rw [hsin]
    field_simp
    linear_combination -D2
  refine ⟨c, ?_, ?_⟩
  · rw [quartic_eq]
    have : denominator S c ^ 2 = s ^ 2 * ((g1 S * c + g2 S) ^ 2 + (g3 S * c + g4 S) ^ 2) := by
      linear_combination (denominator S c * c3 + s * (g1 S * c + g2 S)) * D1 + (denominator S c * s3 + s * (g3 S * c + g4 S)) * D2 -
        denominator S c ^ 2 * cs3
    rw [this]
    linear_combination ((g1 S * c + g2 S) ^ 2 + (g3 S * c + g4 S) ^ 2) * cs
  · have hprod : product S c = M := by
      unfold product
      rw [hsin, hcos3, hsin3, cBar_eq, Matrix.mul_assoc (fa S)ᵀ, form_eq, ← hf, inFrames_back h]
    unfold pose
    rw [if_neg, hprod, closest_rot hM (hs M)]
    · congr 1
      unfold poseOf
      have hdep' : sigma S * sinOne S c / kb S = d3 := by
        rw [hsin, hsd, mul_div_assoc, div_self h.k, mul_one]
      rw [hdep']
      have hb3 := back h3
      ext1
      · exact hMR
      · dsimp only
        rw [hb3, ← mulVec_smul, ← mulVec_sub, mulVec_mulVec, hM.1, one_mulVec]
        abel
    · push Not
      refine ⟨?_, hd⟩
      nlinarith [mul_self_nonneg s]

/-- No pose is missed: a pose that sees the three points in front along their bearings is among the results, unless the foot of the third
point is on the circle of the camera and the first two points, when the quartic has a leading coefficient above 2^-52 and is solved. -/
theorem C104_complete (w : Quartic.Pow) (hw : IsPow w) (svd : M3 → Svd 3) (hs : ∀ C, IsSvd C (svd C)) (S : Sample) (h : General S)
    (rt : RT) (hR : IsRot rt.R) (d1 d2 d3 : ℝ) (p3 : 0 < d3)
    (h1 : On rt S.b1 S.p1 d1) (h2 : On rt S.b2 S.p2 d2) (h3 : On rt S.b3 S.p3 d3) (ho : ¬ OnCircle S d1 d2 d3)
    (hl : 2⁻¹ ^ 52 < |coefficients S 4|) (rs : List (Option ℝ)) (hq : Quartic.solve w (coefficients S) = some rs) (hn : none ∉ rs) :
    some rt ∈ threePoints w svd S := by
  have hg := good_of h
  obtain ⟨c, hc, hp⟩ := true_pose svd hs hg rt hR p3 h1 h2 h3 ho
  have hm := Quartic.C103_refine_keeps (coefficients S) rs c hc (Quartic.C103_real_roots w hw _ hl rs hq hn c hc)
  unfold threePoints
  rw [if_neg hg.s, if_neg hg.k, hq]
  exact List.mem_map.2 ⟨some c, hm, hp⟩

/-! ### The size of the scene -/

theorem norm3_of {v : V3} {r : ℝ} (hr : 0 ≤ r) (h : v ⬝ᵥ v = r * r) : norm3 v = r := by
  unfold norm3
  rw [h, Real.sqrt_mul_self hr]

/-- The same bearings with the points at `l` times their distances. -/
def resized (l : ℝ) (S : Sample) : Sample := { S with p1 := l • S.p1, p2 := l • S.p2, p3 := l • S.p3 }

theorem norm3_smul {l : ℝ} (hl : 0 ≤ l) (v : V3) : norm3 (l • v) = l * norm3 v := by
  refine norm3_of (mul_nonneg hl (Real.sqrt_nonneg _)) ?_
  rw [smul_dotProduct, dotProduct_smul, ← norm3_sq, smul_eq_mul, smul_eq_mul]
  ring

/-- The coefficients of the quartic grow with the fourth power of the size of the scene. -/
theorem C104_size (S : Sample) (l : ℝ) (hl : 0 < l) : coefficients (resized l S) = l ^ 4 • coefficients S := by
  have d12 : (resized l S).p1 - (resized l S).p2 = l • (S.p1 - S.p2) := (smul_sub l S.p1 S.p2).symm
  have c1 : k1 (resized l S) = k1 S := by
    unfold k1 normalized
    rw [d12, norm3_smul hl.le, smul_smul]
    congr 1
    by_cases h : norm3 (S.p1 - S.p2) = 0
    · rw [h, mul_zero, div_zero, zero_mul]
    · field_simp
  have c3 : k3 (resized l S) = k3 S := rfl
  have a1 : u1 (resized l S) = l • u1 S := (smul_sub l S.p1 S.p3).symm
  have a2 : u2 (resized l S) = l • u2 S := (smul_sub l S.p2 S.p3).symm
  have b1 : v1 (resized l S) = v1 S := rfl
  have b2 : v2 (resized l S) = v2 S := rfl
  have hs : sigma (resized l S) = l * sigma S := by
    unfold sigma
    rw [a1, c1, cross_smul_left, norm3_smul hl.le]
  have hk : kb (resized l S) = kb S := rfl
  have hb : b12 (resized l S) = b12 S := rfl
  have e1 : (resized l S).b1 ⬝ᵥ (resized l S).b2 = S.b1 ⬝ᵥ S.b2 := rfl
  have h1 : u1 (resized l S) ⬝ᵥ k1 (resized l S) = l * (u1 S ⬝ᵥ k1 S) := by rw [a1, c1, smul_dotProduct, smul_eq_mul]
  have h2 : u2 (resized l S) ⬝ᵥ k1 (resized l S) = l * (u2 S ⬝ᵥ k1 S) := by rw [a2, c1, smul_dotProduct, smul_eq_mul]
  funext i
  fin_cases i <;> simp only [coefficients, g1, g2, g3, g4, g5, g6, g7, f11, f21, f22, f13, f23, f24, f15, f25, Pi.smul_apply, smul_eq_mul, e1, h1, h2,
    hs, hk, hb, b1, b2, c3, Matrix.cons_val] <;> simp <;> ring

/-- Every scene made small enough has a leading coefficient for which the solver computes the roots of another polynomial. -/
theorem C104_small (S : Sample) : ∃ m > 0, ∀ l, 0 < l → l < m → |coefficients (resized l S) 4| < 2⁻¹ ^ 52 := by
  obtain ⟨a, ha⟩ : ∃ a, a = |coefficients S 4| := ⟨_, rfl⟩
  have h0 : 0 ≤ a := by rw [ha]; exact abs_nonneg _
  refine ⟨min 1 (2⁻¹ ^ 52 / (a + 1)), by positivity, fun l hl hm => ?_⟩
  rw [C104_size S l hl, Pi.smul_apply, smul_eq_mul, abs_mul, abs_of_pos (by positivity), ← ha]
  have h1 : l < 1 := lt_of_lt_of_le hm (min_le_left _ _)
  have h2 : l < 2⁻¹ ^ 52 / (a + 1) := lt_of_lt_of_le hm (min_le_right _ _)
  have h3 : l ^ 4 ≤ l := by
    calc l ^ 4 ≤ l ^ 1 := pow_le_pow_of_le_one hl.le h1.le (by norm_num)
      _ = l := pow_one l
  have h4 : l * (a + 1) < 2⁻¹ ^ 52 := by
    rwa [lt_div_iff₀ (by linarith)] at h2
  calc l ^ 4 * a ≤ l * a := mul_le_mul_of_nonneg_right h3 h0
    _ ≤ l * (a + 1) := by nlinarith
    _ < 2⁻¹ ^ 52 := h4

/-! ### Example: a camera at the origin that sees the points (3, 0, 0), (0, 4, 0) and (12, -12, 6) -/

noncomputable def sample0 : Sample :=
  { b1 := ![1, 0, 0], b2 := ![0, 1, 0], b3 := ![2 / 3, -2 / 3, 1 / 3], p1 := ![3, 0, 0], p2 := ![0, 4, 0], p3 := ![12, -12, 6] }

theorem sample0_k1 : k1 sample0 = ![3 / 5, -4 / 5, 0] := by
  unfold k1 normalized
  rw [norm3_of (r := 5) (by norm_num) (by rw [RelativePose.dot3]; simp [sample0]; norm_num)]
  apply vec_ext <;> simp [sample0] <;> norm_num

theorem sample0_b12 : norm3 (cross sample0.b1 sample0.b2) = 1 :=
  norm3_of (r := 1) (by norm_num) (by rw [RelativePose.dot3]; simp [sample0, cross])

theorem sample0_k3 : k3 sample0 = ![0, 0, 1] := by
  unfold k3 normalized
  rw [sample0_b12]
  apply vec_ext <;> simp [sample0, cross]

theorem sample0_sigma : sigma sample0 = 6 := by
  unfold sigma
  refine norm3_of (by norm_num) ?_
  rw [sample0_k1, RelativePose.dot3]
  simp [sample0, cross, u1]
  norm_num

theorem sample0_kb : kb sample0 = 1 / 3 := by
  unfold kb
  rw [sample0_k3, RelativePose.dot3]
  simp [sample0]

theorem sample0_coefficients : coefficients sample0 = ![0, -320 / 3, 11248 / 9, 320 / 3, 144] := by
  have a1 : v1 sample0 ⬝ᵥ k3 sample0 = -2 / 3 := by
    rw [sample0_k3, RelativePose.dot3]; simp [sample0, v1, cross]
  have a2 : v2 sample0 ⬝ᵥ k3 sample0 = -2 / 3 := by
    rw [sample0_k3, RelativePose.dot3]; simp [sample0, v2, cross]; norm_num
  have a3 : u1 sample0 ⬝ᵥ k1 sample0 = -15 := by
    rw [sample0_k1, RelativePose.dot3]; simp [sample0, u1]; norm_num
  have a4 : u2 sample0 ⬝ᵥ k1 sample0 = -20 := by
    rw [sample0_k1, RelativePose.dot3]; simp [sample0, u2]; norm_num
  have a5 : sample0.b1 ⬝ᵥ sample0.b2 = 0 := by rw [RelativePose.dot3]; simp [sample0]
  have a6 : b12 sample0 = 1 := sample0_b12
  funext i
  fin_cases i <;> simp only [coefficients, g1, g2, g3, g4, g5, g6, g7, f11, f21, f22, f13, f23, f24, f15, f25, a1, a2, a3, a4, a5, a6,
    sample0_sigma, sample0_kb] <;> simp <;> norm_num

/-- All the hypotheses of `C104_complete` are met by a concrete sample. -/
example (svd : M3 → Svd 3) (hs : ∀ C, IsSvd C (svd C)) : some { R := 1, t := 0 } ∈ threePoints Quartic.principal svd sample0 := by
  have hsolve : ∃ rs, Quartic.solve Quartic.principal (coefficients sample0) = some rs ∧ none ∉ rs := by
    have hl : (2⁻¹ : ℝ) ^ 52 < |coefficients sample0 4| := by rw [sample0_coefficients]; simp; norm_num
    cases h : Quartic.solve Quartic.principal (coefficients sample0) with
    | none =>
      exfalso
      have := Quartic.C103_refused Quartic.principal _ hl h 0 (20 / 27) (by rw [sample0_coefficients]; simp; norm_num)
      rw [sample0_coefficients] at this
      unfold realPoly at this
      simp at this
      rw [abs_of_pos (by norm_num)] at this
      norm_num at this
    | some rs =>
      refine ⟨rs, rfl, fun hn => ?_⟩
      rcases Quartic.C103_nan Quartic.principal Quartic.principal_pow _ hl rs h hn with h1 | h1
      · rw [sample0_coefficients] at h1
        simp at h1
        norm_num at h1
      · have := h1 1
        rw [sample0_coefficients] at this
        unfold realPoly at this
        simp at this
        norm_num at this
  obtain ⟨rs, h1, h2⟩ := hsolve
  refine C104_complete Quartic.principal Quartic.principal_pow svd hs sample0 ⟨?_, ?_, ?_, ?_, ?_⟩ _ ⟨by simp, by simp⟩ 3 4 18 (by norm_num) ?_ ?_ ?_ ?_ ?_ rs h1 h2
  · rw [RelativePose.dot3]; simp [sample0]
  · rw [RelativePose.dot3]; simp [sample0]
  · rw [RelativePose.dot3]; simp [sample0]; norm_num
  · intro h
    have := congrFun h 0
    simp [sample0, cross] at this
  · rw [RelativePose.dot3]; simp [sample0, cross]
  · unfold On; apply vec_ext <;> simp [sample0]
  · unfold On; apply vec_ext <;> simp [sample0]
  · unfold On; apply vec_ext <;> simp [sample0] <;> norm_num
  · rintro ⟨x, y, u, v, q, o, hq, q1, q2, ho, o1, o2, o3⟩
    rw [hq, RelativePose.dot3] at q1 q2
    simp [sample0] at q1 q2
    rw [ho, RelativePose.dot3, RelativePose.dot3] at o1 o2 o3
    rw [hq] at o3
    simp [sample0] at o1 o2 o3
    have hx : x = 12 := by linarith
    have hy : y = -12 := by linarith
    rw [hx, hy] at o3
    nlinarith
  · rw [sample0_coefficients]; simp; norm_num

/-- The matrix about an axis: for a unit axis and the cosine and sine of an angle it is the rotation by the opposite of that angle
(the rule of Rodrigues with a minus before the cross product), and it leaves the axis alone. -/
theorem C104_axis (c s : ℝ) (v : V3) (hc : c * c + s * s = 1) (hv : v ⬝ᵥ v = 1) :
    IsRot (aroundAxis c s v) ∧ aroundAxis c s v *ᵥ v = v ∧
    ∀ x : V3, aroundAxis c s v *ᵥ x = c • x + ((1 - c) * (v ⬝ᵥ x)) • v - s • (![v 1 * x 2 - v 2 * x 1, v 2 * x 0 - v 0 * x 2, v 0 * x 1 - v 1 * x 0] : V3) := by
  have hx : ∀ x : V3, aroundAxis c s v *ᵥ x = c • x + ((1 - c) * (v ⬝ᵥ x)) • v - s • (![v 1 * x 2 - v 2 * x 1, v 2 * x 0 - v 0 * x 2, v 0 * x 1 - v 1 * x 0] : V3) := by
    intro x
    rw [RelativePose.dot3]
    funext i
    rw [Matrix.mulVec, RelativePose.dot3]
    unfold aroundAxis
    fin_cases i <;> simp <;> ring
  refine ⟨⟨?_, ?_⟩, ?_, hx⟩
  · rw [RelativePose.dot3] at hv
    ext i j
    rw [Matrix.mul_apply, Fin.sum_univ_three, transpose_apply, transpose_apply, transpose_apply, Matrix.one_apply]
    unfold aroundAxis
    obtain ⟨a, ha⟩ : ∃ a, a = v 0 := ⟨_, rfl⟩
    obtain ⟨b, hb⟩ : ∃ a, a = v 1 := ⟨_, rfl⟩
    obtain ⟨d, hd⟩ : ∃ a, a = v 2 := ⟨_, rfl⟩
    rw [← ha, ← hb, ← hd] at hv ⊢
    have hs : s * s = 1 - c * c := by linarith
    fin_cases i <;> fin_cases j <;> simp
    · linear_combination (b * b + d * d) * hs + (a * a * (1 - c) * (1 - c) + 1 - c * c) * hv
    · linear_combination (- a * b) * hs + (a * b * (1 - c) * (1 - c)) * hv
    · linear_combination (- a * d) * hs + (a * d * (1 - c) * (1 - c)) * hv
    · linear_combination (- a * b) * hs + (a * b * (1 - c) * (1 - c)) * hv
    · linear_combination (a * a + d * d) * hs + (b * b * (1 - c) * (1 - c) + 1 - c * c) * hv
    · linear_combination (- b * d) * hs + (b * d * (1 - c) * (1 - c)) * hv
    · linear_combination (- a * d) * hs + (a * d * (1 - c) * (1 - c)) * hv
    · linear_combination (- b * d) * hs + (b * d * (1 - c) * (1 - c)) * hv
    · linear_combination (b * b + a * a) * hs + (d * d * (1 - c) * (1 - c) + 1 - c * c) * hv
  · rw [RelativePose.dot3] at hv
    unfold aroundAxis
    rw [det_fin_three]
    simp
    obtain ⟨a, ha⟩ : ∃ a, a = v 0 := ⟨_, rfl⟩
    obtain ⟨b, hb⟩ : ∃ a, a = v 1 := ⟨_, rfl⟩
    obtain ⟨d, hd⟩ : ∃ a, a = v 2 := ⟨_, rfl⟩
    rw [← ha, ← hb, ← hd] at hv ⊢
    have hs : s * s = 1 - c * c := by linarith
    have ha2 : a * a = 1 - b * b - d * d := by linarith
    linear_combination (c * (a*a+b*b+d*d) + (1 - c) * (a*a+b*b+d*d)^2) * hs + ((1 - c) * (1-c*c) * (a*a+b*b+d*d + 1) + c * c * (1 - c) + c * (1 - c * c)) * hv
  · rw [hx, hv]
    funext i
    fin_cases i <;> simp <;> right <;> ring

example : ((3 / 5 : ℝ) * (3 / 5) + 4 / 5 * (4 / 5) = 1) ∧ (![2 / 3, 1 / 3, 2 / 3] : V3) ⬝ᵥ ![2 / 3, 1 / 3, 2 / 3] = 1 := by
  constructor
  · norm_num
  · rw [RelativePose.dot3]; simp; norm_num

end Verif.ThreePoints
