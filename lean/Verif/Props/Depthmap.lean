import Verif.Model.Depthmap
import Mathlib.Tactic.Ring
import Mathlib.Tactic.FieldSimp
import Mathlib.Tactic.Positivity
import Mathlib.Tactic.Linarith
import Mathlib.Tactic.FinCases
import Mathlib.Analysis.Calculus.Deriv.Mul
import Mathlib.Analysis.Calculus.Deriv.Add
import Mathlib.Analysis.Calculus.Deriv.Inv
import Mathlib.Algebra.BigOperators.Fin

/-!
# C79: geometry and scores of dense matching
-/
set_option linter.unusedSectionVars false
set_option linter.unusedSimpArgs false
namespace Verif.Depthmap
open Matrix

/-! ### Specification -/

/-- A camera matrix: invertible, with last row `0 0 1`. -/
structure IsCamera (K : M3) : Prop where
  inv : IsUnit K.det
  row0 : K 2 0 = 0
  row1 : K 2 1 = 0
  row2 : K 2 2 = 1

/-- A rotation (or reflection). -/
def IsRotation (R : M3) : Prop := R * Rᵀ = 1

/-- Position of a point in camera coordinates. -/
def View.local' (v : View) (x : V3) : V3 := v.R *ᵥ x + v.t

/-- The pixel `(x, y)` of a point. -/
noncomputable def View.pixel (v : View) (x : V3) : ℝ × ℝ := (project v x 0 / project v x 2, project v x 1 / project v x 2)

/-! ### Lemmas -/

theorem K_apply_two {K : M3} (h : IsCamera K) (x : V3) : (K *ᵥ x) 2 = x 2 := by
  simp only [Matrix.mulVec, dotProduct, Fin.sum_univ_three]
  rw [h.row0, h.row1, h.row2]; ring

theorem K_ray {K : M3} (h : IsCamera K) (x y : ℝ) : K *ᵥ ray K x y = ![x, y, 1] := by
  unfold ray
  rw [Matrix.mulVec_mulVec, Matrix.mul_nonsing_inv _ h.inv, Matrix.one_mulVec]

theorem ray_two {K : M3} (h : IsCamera K) (x y : ℝ) : ray K x y 2 = 1 := by
  have := K_apply_two h (ray K x y)
  rw [K_ray h] at this
  exact this.symm

theorem rotation_comm {R : M3} (h : IsRotation R) : Rᵀ * R = 1 := mul_eq_one_comm.1 h

/-- C79. Backprojection and projection are inverse of each other: a pixel with a depth is the projection of its
backprojection, at that depth; and a point is the backprojection of its pixel and its depth. -/
theorem C79_backproject (v : View) (hK : IsCamera v.K) (hR : IsRotation v.R) :
    (∀ x y d, project v (backproject x y d v) = ![d * x, d * y, d]) ∧
    (∀ x y d, d ≠ 0 → v.pixel (backproject x y d v) = (x, y)) ∧
    ∀ X, project v X 2 = v.local' X 2 ∧
      (v.local' X 2 ≠ 0 → backproject (v.pixel X).1 (v.pixel X).2 (v.local' X 2) v = X) := by
  have h1 : ∀ x y d, project v (backproject x y d v) = ![d * x, d * y, d] := by
    intro x y d
    unfold project backproject
    rw [Matrix.mulVec_mulVec, hR, Matrix.one_mulVec, sub_add_cancel, Matrix.mulVec_smul, K_ray hK]
    funext i; fin_cases i <;> simp
  refine ⟨h1, ?_, ?_⟩
  · intro x y d hd
    unfold View.pixel
    rw [h1]
    simp [hd]
  · intro X
    have h2 : project v X 2 = v.local' X 2 := K_apply_two hK _
    refine ⟨h2, fun hz => ?_⟩
    have h3 : v.local' X 2 • (![(v.pixel X).1, (v.pixel X).2, 1] : V3) = v.K *ᵥ v.local' X := by
      have : v.K *ᵥ v.local' X = project v X := rfl
      rw [this]
      unfold View.pixel
      rw [h2]
      funext i
      fin_cases i
      · simp; field_simp
      · simp; field_simp
      · simp [h2]
    unfold backproject ray
    rw [← Matrix.mulVec_smul, h3, Matrix.mulVec_mulVec, Matrix.nonsing_inv_mul _ hK.inv, Matrix.one_mulVec]
    unfold View.local'
    rw [add_sub_cancel_right, Matrix.mulVec_mulVec, rotation_comm hR, Matrix.one_mulVec]

/-- C79. The homography of a plane: a point on the plane `v` of the first view (`v · x = -1` in its coordinates) is
seen by the second view at the image by the homography of its pixel in the first one. The precomputed form is the same
homography. -/
theorem C79_homography (a b : View) (hKa : IsCamera a.K) (hRa : IsRotation a.R) (hKb : IsCamera b.K)
    (v X : V3) (hv : v ⬝ᵥ a.local' X = -1) :
    homography a b v *ᵥ project a X = project b X ∧
    homographyBaked a.K⁻¹ (bakedQ a b) (bakedA a b) b.K v = homography a b v ∧
    (a.local' X 2 ≠ 0 → b.local' X 2 ≠ 0 →
      applyHomography (homography a b v) (a.pixel X).1 (a.pixel X).2 = b.pixel X) := by
  have h1 : homography a b v *ᵥ project a X = project b X := by
    unfold homography
    have e : a.K⁻¹ *ᵥ project a X = a.local' X := by
      unfold project
      rw [Matrix.mulVec_mulVec, Matrix.nonsing_inv_mul _ hKa.inv, Matrix.one_mulVec]; rfl
    simp only
    rw [← Matrix.mulVec_mulVec, e, ← Matrix.mulVec_mulVec]
    unfold project
    congr 1
    rw [Matrix.add_mulVec]
    have e2 : vecMulVec ((b.R * a.Rᵀ) *ᵥ a.t - b.t) v *ᵥ a.local' X =
        (v ⬝ᵥ a.local' X) • ((b.R * a.Rᵀ) *ᵥ a.t - b.t) := by
      rw [Matrix.vecMulVec_mulVec]
      funext i
      simp [mul_comm]
    rw [e2, hv]
    unfold View.local'
    rw [Matrix.mulVec_add, Matrix.mulVec_mulVec, Matrix.mul_assoc, rotation_comm hRa, Matrix.mul_one]
    funext i
    simp
  refine ⟨h1, rfl, ?_⟩
  intro ha hb
  have ga : project a X 2 = a.local' X 2 := K_apply_two hKa _
  have gb : project b X 2 = b.local' X 2 := K_apply_two hKb _
  rw [← ga] at ha
  rw [← gb] at hb
  have row : ∀ i, homography a b v i 0 * (a.pixel X).1 + homography a b v i 1 * (a.pixel X).2 + homography a b v i 2 =
      project b X i / project a X 2 := by
    intro i
    have := congrFun h1 i
    simp only [Matrix.mulVec, dotProduct, Fin.sum_univ_three] at this
    rw [← this]
    unfold View.pixel
    simp only
    field_simp
  unfold applyHomography
  simp only
  rw [row 0, row 1, row 2, if_neg (by positivity)]
  unfold View.pixel
  rw [div_div_div_cancel_right₀ ha, div_div_div_cancel_right₀ ha]

/-- C79. The plane through a point at a depth with a normal: it contains the point, and its depth at the pixel is the
depth, as long as the plane is not seen too obliquely and the depth is at most `1e6`. -/
theorem C79_plane (K : M3) (x y d : ℝ) (n : V3) (hd : 0 < d) (hd' : d ≤ 1000000)
    (hn : 1 / 1000000 ≤ d * -(n ⬝ᵥ ray K x y)) :
    planeFrom x y K d n ⬝ᵥ (d • ray K x y) = -1 ∧ depthOfPlane x y K (planeFrom x y K d n) = d := by
  have e : -(n ⬝ᵥ (d • ray K x y)) = d * -(n ⬝ᵥ ray K x y) := by
    rw [dotProduct_smul, smul_eq_mul]; ring
  have hmax : max minDenom (-(n ⬝ᵥ (d • ray K x y))) = d * -(n ⬝ᵥ ray K x y) := by
    rw [e]; exact max_eq_right hn
  have hpos : 0 < d * -(n ⬝ᵥ ray K x y) := lt_of_lt_of_le (by norm_num) hn
  have hp : planeFrom x y K d n = (1 / (d * -(n ⬝ᵥ ray K x y))) • n := by
    unfold planeFrom; simp only; rw [hmax]
  have hneg : n ⬝ᵥ ray K x y ≠ 0 := by
    intro h; rw [h] at hpos; simp at hpos
  have hdot : planeFrom x y K d n ⬝ᵥ ray K x y = -(1 / d) := by
    rw [hp, smul_dotProduct, smul_eq_mul]
    field_simp
  constructor
  · rw [dotProduct_smul, smul_eq_mul, hdot]; field_simp
  · unfold depthOfPlane
    rw [hdot, neg_neg, max_eq_right]
    · field_simp
    · unfold minDenom
      rw [div_le_div_iff₀ (by norm_num) hd]; linarith

/-- C79. The depth of a plane at a pixel is always positive and at most `1e6`. -/
theorem C79_depth_range (x y : ℝ) (K : M3) (p : V3) : 0 < depthOfPlane x y K p ∧ depthOfPlane x y K p ≤ 1000000 := by
  unfold depthOfPlane
  have h0 : 0 < minDenom := by unfold minDenom; norm_num
  have h1 : 0 < max minDenom (-(p ⬝ᵥ ray K x y)) := lt_max_of_lt_left h0
  refine ⟨by positivity, ?_⟩
  rw [div_le_iff₀ h1]
  have : minDenom ≤ max minDenom (-(p ⬝ᵥ ray K x y)) := le_max_left _ _
  unfold minDenom at this ⊢
  linarith

/-! ### Correlation -/

/-- Weighted sum over samples `(x, y, w)`. -/
noncomputable def wsum (l : List (ℝ × ℝ × ℝ)) (f : ℝ → ℝ → ℝ) : ℝ := (l.map (fun p => p.2.2 * f p.1 p.2.1)).sum

/-- Weighted mean. -/
noncomputable def wmean (l : List (ℝ × ℝ × ℝ)) (f : ℝ → ℝ → ℝ) : ℝ := wsum l f / wsum l (fun _ _ => 1)

/-- Weighted covariance. -/
noncomputable def wcov (l : List (ℝ × ℝ × ℝ)) (f g : ℝ → ℝ → ℝ) : ℝ :=
  wmean l (fun x y => (f x y - wmean l f) * (g x y - wmean l g))

theorem wsum_add (l : List (ℝ × ℝ × ℝ)) (f g : ℝ → ℝ → ℝ) :
    wsum l (fun x y => f x y + g x y) = wsum l f + wsum l g := by
  unfold wsum
  induction l with
  | nil => simp
  | cons a l ih => simp only [List.map_cons, List.sum_cons]; rw [ih]; ring

theorem wsum_smul (l : List (ℝ × ℝ × ℝ)) (c : ℝ) (f : ℝ → ℝ → ℝ) :
    wsum l (fun x y => c * f x y) = c * wsum l f := by
  unfold wsum
  induction l with
  | nil => simp
  | cons a l ih => simp only [List.map_cons, List.sum_cons]; rw [ih]; ring

theorem wsum_congr (l : List (ℝ × ℝ × ℝ)) (f g : ℝ → ℝ → ℝ) (h : ∀ p ∈ l, f p.1 p.2.1 = g p.1 p.2.1) :
    wsum l f = wsum l g := by
  unfold wsum
  congr 1
  exact List.map_congr_left (fun p hp => by rw [h p hp])

theorem wsum_nonneg (l : List (ℝ × ℝ × ℝ)) (f : ℝ → ℝ → ℝ) (hw : ∀ p ∈ l, 0 ≤ p.2.2) (hf : ∀ x y, 0 ≤ f x y) :
    0 ≤ wsum l f := by
  unfold wsum
  apply List.sum_nonneg
  intro z hz
  obtain ⟨p, hp, rfl⟩ := List.mem_map.1 hz
  exact mul_nonneg (hw p hp) (hf _ _)

/-- The state of the estimator is the sums. -/
theorem fold_push (l : List (ℝ × ℝ × ℝ)) : ∀ s : Ncc, l.foldl Ncc.push s =
    ⟨s.sx + wsum l (fun x _ => x), s.sy + wsum l (fun _ y => y), s.sxx + wsum l (fun x _ => x * x),
      s.syy + wsum l (fun _ y => y * y), s.sxy + wsum l (fun x y => x * y), s.sw + wsum l (fun _ _ => 1)⟩ := by
  induction l with
  | nil => intro s; simp [wsum]
  | cons a l ih =>
    intro s
    rw [List.foldl_cons, ih]
    simp only [Ncc.push, wsum, List.map_cons, List.sum_cons]
    congr 1 <;> ring

theorem wsum_expand (l : List (ℝ × ℝ × ℝ)) (f g : ℝ → ℝ → ℝ) (a b : ℝ) :
    wsum l (fun x y => (f x y - a) * (g x y - b)) =
      wsum l (fun x y => f x y * g x y) - b * wsum l f - a * wsum l g + a * b * wsum l (fun _ _ => 1) := by
  unfold wsum
  induction l with
  | nil => simp
  | cons p l ih =>
    simp only [List.map_cons, List.sum_cons]
    rw [ih]; ring

theorem wcov_eq (l : List (ℝ × ℝ × ℝ)) (f g : ℝ → ℝ → ℝ) (hw : wsum l (fun _ _ => 1) ≠ 0) :
    wcov l f g = wmean l (fun x y => f x y * g x y) - wmean l f * wmean l g := by
  unfold wcov
  rw [wmean, wsum_expand]
  unfold wmean
  field_simp
  ring

/-- Cauchy-Schwarz. -/
theorem wcov_sq (l : List (ℝ × ℝ × ℝ)) (f g : ℝ → ℝ → ℝ) (hp : ∀ p ∈ l, 0 ≤ p.2.2)
    (hw : 0 < wsum l (fun _ _ => 1)) (hg : 0 < wcov l g g) : wcov l f g ^ 2 ≤ wcov l f f * wcov l g g := by
  have key : ∀ a b : ℝ, 0 ≤ a ^ 2 * wcov l f f + 2 * a * b * wcov l f g + b ^ 2 * wcov l g g := by
    intro a b
    have h := wsum_nonneg l (fun x y => (a * (f x y - wmean l f) + b * (g x y - wmean l g)) ^ 2) hp
      (fun _ _ => sq_nonneg _)
    have e : wsum l (fun x y => (a * (f x y - wmean l f) + b * (g x y - wmean l g)) ^ 2) =
        a ^ 2 * wsum l (fun x y => (f x y - wmean l f) * (f x y - wmean l f)) +
        2 * a * b * wsum l (fun x y => (f x y - wmean l f) * (g x y - wmean l g)) +
        b ^ 2 * wsum l (fun x y => (g x y - wmean l g) * (g x y - wmean l g)) := by
      rw [← wsum_smul, ← wsum_smul, ← wsum_smul, ← wsum_add, ← wsum_add]
      exact wsum_congr l _ _ (fun p _ => by ring)
    rw [e] at h
    have h' := div_nonneg h hw.le
    unfold wcov
    unfold wmean at h' ⊢
    calc 0 ≤ _ := h'
      _ = _ := by ring
  have h := key (wcov l g g) (-wcov l f g)
  have : 0 ≤ wcov l g g * (wcov l f f * wcov l g g - wcov l f g ^ 2) := by nlinarith
  nlinarith [nonneg_of_mul_nonneg_right this hg]

/-- C79. The correlation score: `-1` for a patch without weight or contrast, else the weighted correlation
coefficient; it is between -1 and 1, and 1 if one patch is the other with more or less contrast and brightness. -/
theorem C79_correlation (l : List (ℝ × ℝ × ℝ)) (hp : ∀ p ∈ l, 0 ≤ p.2.2) (X Y : ℝ → ℝ → ℝ)
    (hX : X = fun x _ => x) (hY : Y = fun _ y => y) :
    (wsum l (fun _ _ => 1) = 0 ∨ wcov l X X < 1 / 10 ∨ wcov l Y Y < 1 / 10 → ncc l = -1) ∧
    (wsum l (fun _ _ => 1) ≠ 0 → 1 / 10 ≤ wcov l X X → 1 / 10 ≤ wcov l Y Y →
      ncc l = wcov l X Y / Real.sqrt (wcov l X X * wcov l Y Y) ∧
      ∀ a b : ℝ, 0 < a → (∀ p ∈ l, p.2.1 = a * p.1 + b) → ncc l = 1) ∧
    -1 ≤ ncc l ∧ ncc l ≤ 1 := by
  have hval : ∀ (hw : wsum l (fun _ _ => 1) ≠ 0), ncc l =
      if wcov l X X < 1 / 10 ∨ wcov l Y Y < 1 / 10 then -1
      else wcov l X Y / Real.sqrt (wcov l X X * wcov l Y Y) := by
    intro hw
    rw [wcov_eq l X X hw, wcov_eq l Y Y hw, wcov_eq l X Y hw]
    subst hX hY
    unfold ncc
    rw [fold_push]
    simp only [zero_add, Ncc.get]
    rw [if_neg hw]
    rfl
  have hzero : wsum l (fun _ _ => 1) = 0 → ncc l = -1 := by
    intro hw
    unfold ncc
    rw [fold_push]
    simp only [zero_add, Ncc.get]
    rw [if_pos hw]
  have hnn : 0 ≤ wsum l (fun _ _ => 1) := wsum_nonneg l _ hp (fun _ _ => zero_le_one)
  refine ⟨?_, ?_, ?_⟩
  · rintro (h | h)
    · exact hzero h
    · by_cases hw : wsum l (fun _ _ => 1) = 0
      · exact hzero hw
      · rw [hval hw, if_pos h]
  · intro hw hx hy
    have hv := hval hw
    rw [if_neg (by rw [not_or, not_lt, not_lt]; exact ⟨hx, hy⟩)] at hv
    refine ⟨hv, ?_⟩
    intro a b ha hl
    have hmean : wmean l Y = a * wmean l X + b := by
      unfold wmean
      have e : wsum l Y = a * wsum l X + b * wsum l (fun _ _ => 1) := by
        rw [← wsum_smul, ← wsum_smul, ← wsum_add]
        refine wsum_congr l _ _ (fun p h => ?_)
        subst hX hY
        rw [mul_one]; exact hl p h
      rw [e]; field_simp
    have hcov : wcov l X Y = a * wcov l X X := by
      unfold wcov
      rw [hmean]
      have e : wsum l (fun x y => (X x y - wmean l X) * (Y x y - (a * wmean l X + b))) =
          a * wsum l (fun x y => (X x y - wmean l X) * (X x y - wmean l X)) := by
        rw [← wsum_smul]
        refine wsum_congr l _ _ (fun p h => ?_)
        have := hl p h
        subst hX hY
        simp only
        rw [this]; ring
      unfold wmean at e ⊢
      rw [e, mul_div_assoc]
    have hvar : wcov l Y Y = a * (a * wcov l X X) := by
      unfold wcov
      rw [hmean]
      have e : wsum l (fun x y => (Y x y - (a * wmean l X + b)) * (Y x y - (a * wmean l X + b))) =
          a * (a * wsum l (fun x y => (X x y - wmean l X) * (X x y - wmean l X))) := by
        rw [← wsum_smul, ← wsum_smul]
        refine wsum_congr l _ _ (fun p h => ?_)
        have := hl p h
        subst hX hY
        simp only
        rw [this]; ring
      unfold wmean at e ⊢
      rw [e, mul_div_assoc, mul_div_assoc]
    have hpos : 0 < wcov l X X := by linarith
    rw [hv, hcov, hvar]
    rw [show wcov l X X * (a * (a * wcov l X X)) = (a * wcov l X X) ^ 2 by ring, Real.sqrt_sq (by positivity),
      div_self (by positivity)]
  · by_cases hw : wsum l (fun _ _ => 1) = 0
    · rw [hzero hw]; norm_num
    · rw [hval hw]
      split_ifs with hc
      · norm_num
      · rw [not_or, not_lt, not_lt] at hc
        have h1 : 0 < wcov l X X := by linarith [hc.1]
        have h2 : 0 < wcov l Y Y := by linarith [hc.2]
        have hcs := wcov_sq l X Y hp (lt_of_le_of_ne hnn (Ne.symm hw)) h2
        have habs : |wcov l X Y| ≤ Real.sqrt (wcov l X X * wcov l Y Y) := Real.abs_le_sqrt hcs
        have hs : 0 < Real.sqrt (wcov l X X * wcov l Y Y) := Real.sqrt_pos.2 (by positivity)
        rw [abs_le] at habs
        constructor
        · rw [le_div_iff₀ hs]; linarith
        · rw [div_le_one hs]; exact habs.2

/-! ### Images -/

/-- C79. Interpolation gives 0 outside the image and otherwise a value between those of the pixels; it is exact for an
image that is an affine function of the position. -/
theorem C79_interpolation (im : Img) (x y : ℝ) :
    (x < 0 ∨ im.cols - 1 ≤ x ∨ y < 0 ∨ im.rows - 1 ≤ y → interpolate im y x = 0) ∧
    (0 ≤ x → x < im.cols - 1 → 0 ≤ y → y < im.rows - 1 →
      (∀ lo hi : ℝ, (∀ i j, im.inside i j → lo ≤ im.at' i j ∧ im.at' i j ≤ hi) →
        lo ≤ interpolate im y x ∧ interpolate im y x ≤ hi) ∧
      ∀ a b c : ℝ, (∀ i j, im.inside i j → im.at' i j = a * j + b * i + c) → interpolate im y x = a * x + b * y + c) := by
  constructor
  · intro h
    unfold interpolate
    rw [if_pos]
    rcases h with h | h | h | h
    · exact Or.inl h
    · exact Or.inr (Or.inl h)
    · exact Or.inr (Or.inr (Or.inl h))
    · exact Or.inr (Or.inr (Or.inr h))
  · intro hx hx' hy hy'
    have hv : interpolate im y x =
        (1 - (y - ⌊y⌋)) * ((1 - (x - ⌊x⌋)) * im.at' ⌊y⌋ ⌊x⌋ + (x - ⌊x⌋) * im.at' ⌊y⌋ (⌊x⌋ + 1)) +
        (y - ⌊y⌋) * ((1 - (x - ⌊x⌋)) * im.at' (⌊y⌋ + 1) ⌊x⌋ + (x - ⌊x⌋) * im.at' (⌊y⌋ + 1) (⌊x⌋ + 1)) := by
      unfold interpolate
      rw [if_neg]
      rw [not_or, not_or, not_or]
      exact ⟨not_lt.2 hx, not_le.2 hx', not_lt.2 hy, not_le.2 hy'⟩
    have bx0 := Int.floor_le x
    have bx1 := Int.lt_floor_add_one x
    have by0 := Int.floor_le y
    have by1 := Int.lt_floor_add_one y
    have fx0 : 0 ≤ ⌊x⌋ := Int.floor_nonneg.2 hx
    have fy0 : 0 ≤ ⌊y⌋ := Int.floor_nonneg.2 hy
    have fx1 : ⌊x⌋ + 1 < im.cols := by
      have : ⌊x⌋ < im.cols - 1 := Int.floor_lt.2 (by push_cast; linarith)
      linarith
    have fy1 : ⌊y⌋ + 1 < im.rows := by
      have : ⌊y⌋ < im.rows - 1 := Int.floor_lt.2 (by push_cast; linarith)
      linarith
    have i00 : im.inside ⌊y⌋ ⌊x⌋ := ⟨fy0, by linarith, fx0, by linarith⟩
    have i01 : im.inside ⌊y⌋ (⌊x⌋ + 1) := ⟨fy0, by linarith, by linarith, by linarith⟩
    have i10 : im.inside (⌊y⌋ + 1) ⌊x⌋ := ⟨by linarith, fy1, fx0, by linarith⟩
    have i11 : im.inside (⌊y⌋ + 1) (⌊x⌋ + 1) := ⟨by linarith, fy1, by linarith, fx1⟩
    rw [hv]
    constructor
    · intro lo hi hb
      have mix : ∀ t p q : ℝ, 0 ≤ t → t ≤ 1 → lo ≤ p ∧ p ≤ hi → lo ≤ q ∧ q ≤ hi →
          lo ≤ (1 - t) * p + t * q ∧ (1 - t) * p + t * q ≤ hi := by
        intro t p q h0 h1 hp hq
        constructor <;> nlinarith
      have tx0 : 0 ≤ x - ⌊x⌋ := by linarith
      have tx1 : x - ⌊x⌋ ≤ 1 := by linarith
      exact mix _ _ _ (by linarith) (by linarith) (mix _ _ _ tx0 tx1 (hb _ _ i00) (hb _ _ i01))
        (mix _ _ _ tx0 tx1 (hb _ _ i10) (hb _ _ i11))
    · intro a b c hb
      rw [hb _ _ i00, hb _ _ i01, hb _ _ i10, hb _ _ i11]
      push_cast
      ring

/-- C79. The points compared for a patch: the centre is the image of the pixel by the homography, and the offset is
the first-order expansion of the homography there. -/
theorem C79_patch (H : M3) (i j dx dy : ℝ) (hw : H 2 0 * j + H 2 1 * i + H 2 2 ≠ 0) :
    patchPoint H i j 0 0 = applyHomography H j i ∧
    HasDerivAt (fun s => (applyHomography H (j + s * dx) (i + s * dy)).1)
      ((patchPoint H i j dx dy).1 - (patchPoint H i j 0 0).1) 0 ∧
    HasDerivAt (fun s => (applyHomography H (j + s * dx) (i + s * dy)).2)
      ((patchPoint H i j dx dy).2 - (patchPoint H i j 0 0).2) 0 := by
  have hlin : ∀ p q r : ℝ, HasDerivAt (fun s : ℝ => p * (j + s * dx) + q * (i + s * dy) + r) (p * dx + q * dy) 0 := by
    intro p q r
    have h1 : HasDerivAt (fun s : ℝ => (p * dx + q * dy) * s + (p * j + q * i + r)) (p * dx + q * dy) 0 := by
      have h := HasDerivAt.add_const (p * j + q * i + r) (HasDerivAt.const_mul (p * dx + q * dy) (hasDerivAt_id (0 : ℝ)))
      rw [mul_one] at h
      exact h
    have e : (fun s : ℝ => p * (j + s * dx) + q * (i + s * dy) + r) =
        (fun s : ℝ => (p * dx + q * dy) * s + (p * j + q * i + r)) := by funext s; ring
    rw [e]; exact h1
  have hw0 : H 2 0 * (j + (0 : ℝ) * dx) + H 2 1 * (i + (0 : ℝ) * dy) + H 2 2 ≠ 0 := by simpa using hw
  have hne : ∀ᶠ s in nhds (0 : ℝ), H 2 0 * (j + s * dx) + H 2 1 * (i + s * dy) + H 2 2 ≠ 0 :=
    (hlin (H 2 0) (H 2 1) (H 2 2)).continuousAt.eventually_ne hw0
  refine ⟨?_, ?_, ?_⟩
  · unfold patchPoint applyHomography
    simp only
    rw [if_neg hw]
    simp
  · have hq := (hlin (H 0 0) (H 0 1) (H 0 2)).fun_div (hlin (H 2 0) (H 2 1) (H 2 2)) hw0
    have hq2 := hq.congr_of_eventuallyEq (f₁ := fun s => (applyHomography H (j + s * dx) (i + s * dy)).1) (by
      filter_upwards [hne] with s hs
      unfold applyHomography
      simp only
      rw [if_neg hs])
    refine hq2.congr_deriv ?_
    unfold patchPoint
    simp only [zero_mul, add_zero, mul_zero]
    field_simp
    ring
  · have hq := (hlin (H 1 0) (H 1 1) (H 1 2)).fun_div (hlin (H 2 0) (H 2 1) (H 2 2)) hw0
    have hq2 := hq.congr_of_eventuallyEq (f₁ := fun s => (applyHomography H (j + s * dx) (i + s * dy)).2) (by
      filter_upwards [hne] with s hs
      unfold applyHomography
      simp only
      rw [if_neg hs])
    refine hq2.congr_deriv ?_
    unfold patchPoint
    simp only [zero_mul, add_zero, mul_zero]
    field_simp
    ring

theorem bilateral_pos (c x y : ℝ) : 0 < bilateral c x y := Real.exp_pos _

theorem patch_weights (im0 im1 : Img) (H : M3) (hpz : ℕ) (i j : ℤ) :
    ∀ p ∈ patchSamples im0 im1 H hpz i j, 0 ≤ p.2.2 := by
  intro p hp
  unfold patchSamples at hp
  obtain ⟨dy, -, hp⟩ := List.mem_flatMap.1 hp
  obtain ⟨dx, -, rfl⟩ := List.mem_map.1 hp
  exact (bilateral_pos _ _ _).le

theorem mem_offsets (hpz : ℕ) (d : ℤ) : d ∈ offsets hpz ↔ -(hpz : ℤ) ≤ d ∧ d ≤ hpz := by
  unfold offsets
  rw [List.mem_map]
  constructor
  · rintro ⟨k, hk, rfl⟩
    rw [List.mem_range] at hk
    omega
  · rintro ⟨h1, h2⟩
    exact ⟨(d + hpz).toNat, by rw [List.mem_range]; omega, by omega⟩

/-- C79. The score of a patch is between -1 and 1; it compares exactly the `(2 hpz + 1)²` pixels of the patch; and it
is 1 if the patch has contrast and the other image shows, at the points compared, the patch up to contrast and
brightness. -/
theorem C79_score (im0 im1 : Img) (H : M3) (hpz : ℕ) (i j : ℤ) :
    -1 ≤ patchScore im0 im1 H hpz i j ∧ patchScore im0 im1 H hpz i j ≤ 1 ∧
    (patchSamples im0 im1 H hpz i j).length = (2 * hpz + 1) ^ 2 ∧
    (∀ a b : ℝ, 0 < a → H 2 0 * j + H 2 1 * i + H 2 2 ≠ 0 →
      (∀ dx dy : ℤ, |dx| ≤ hpz → |dy| ≤ hpz →
        interpolate im1 (patchPoint H i j dx dy).2 (patchPoint H i j dx dy).1 = a * im0.at' (i + dy) (j + dx) + b) →
      1 / 10 ≤ wcov (patchSamples im0 im1 H hpz i j) (fun x _ => x) (fun x _ => x) →
      1 / 10 ≤ wcov (patchSamples im0 im1 H hpz i j) (fun _ y => y) (fun _ y => y) →
      patchScore im0 im1 H hpz i j = 1) := by
  have hc := C79_correlation (patchSamples im0 im1 H hpz i j) (patch_weights _ _ _ _ _ _) _ _ rfl rfl
  refine ⟨?_, ?_, ?_, ?_⟩
  · unfold patchScore; split_ifs
    · exact le_refl _
    · exact hc.2.2.1
  · unfold patchScore; split_ifs
    · norm_num
    · exact hc.2.2.2
  · unfold patchSamples
    rw [List.length_flatMap]
    simp only [offsets, List.length_map, List.length_range, List.map_const', List.sum_replicate, smul_eq_mul, pow_two]
  · intro a b ha hw h hx hy
    unfold patchScore
    rw [if_neg hw]
    have hsum : wsum (patchSamples im0 im1 H hpz i j) (fun _ _ => 1) ≠ 0 := by
      intro h0
      unfold wcov at hx
      rw [wmean, h0, div_zero] at hx
      norm_num at hx
    refine (hc.2.1 hsum hx hy).2 a b ha ?_
    intro p hp
    unfold patchSamples at hp
    obtain ⟨dy, hdy, hp⟩ := List.mem_flatMap.1 hp
    obtain ⟨dx, hdx, rfl⟩ := List.mem_map.1 hp
    rw [mem_offsets] at hdx hdy
    exact h dx dy (abs_le.2 hdx) (abs_le.2 hdy)

/-- C79. The matrix given to dense matching is a camera matrix, and the pixel of a point is that of the undistorted
image of C78: the coordinates of the projection scaled by the greater side, with the origin at half of the sides. -/
theorem C79_camera_matrix (f : ℝ) (w h : ℕ) (hf : f ≠ 0) (hw : 0 < w) (R : M3) (t : V3) :
    IsCamera (scaledK f w h) ∧
    ∀ X, (⟨scaledK f w h, R, t⟩ : View).local' X 2 ≠ 0 →
      (⟨scaledK f w h, R, t⟩ : View).pixel X =
        (f * ((⟨scaledK f w h, R, t⟩ : View).local' X 0 / (⟨scaledK f w h, R, t⟩ : View).local' X 2) * max w h + w / 2,
         f * ((⟨scaledK f w h, R, t⟩ : View).local' X 1 / (⟨scaledK f w h, R, t⟩ : View).local' X 2) * max w h + h / 2) := by
  have hm : ((max w h : ℕ) : ℝ) ≠ 0 := by
    have : 0 < max w h := lt_max_of_lt_left hw
    exact_mod_cast this.ne'
  have hcam : IsCamera (scaledK f w h) := by
    refine ⟨?_, rfl, rfl, rfl⟩
    rw [Matrix.det_fin_three]
    unfold scaledK
    simp
    exact ⟨hf, by exact_mod_cast hm⟩
  refine ⟨hcam, ?_⟩
  intro X hz
  have hp : ∀ k, project ⟨scaledK f w h, R, t⟩ X k = (scaledK f w h *ᵥ (⟨scaledK f w h, R, t⟩ : View).local' X) k :=
    fun _ => rfl
  unfold View.pixel
  rw [hp, hp, hp, K_apply_two hcam]
  generalize (⟨scaledK f w h, R, t⟩ : View).local' X = Y at hz ⊢
  have e0 : (scaledK f w h *ᵥ Y) 0 = f * max w h * Y 0 + w / 2 * Y 2 := by
    simp only [Matrix.mulVec, dotProduct, Fin.sum_univ_three]
    unfold scaledK; simp
  have e1 : (scaledK f w h *ᵥ Y) 1 = f * max w h * Y 1 + h / 2 * Y 2 := by
    simp only [Matrix.mulVec, dotProduct, Fin.sum_univ_three]
    unfold scaledK; simp
  rw [e0, e1]
  refine Prod.ext ?_ ?_
  · simp only; field_simp
  · simp only; field_simp

/-! ### Cases in which the hypotheses hold -/

/-- Two views side by side, looking at the plane at depth 2. -/
noncomputable def exA : View := ⟨scaledK 1 4 2, 1, ![0, 0, 0]⟩
noncomputable def exB : View := ⟨scaledK 1 4 2, 1, ![-1, 0, 0]⟩

example : IsCamera exA.K ∧ IsRotation exA.R ∧ IsCamera exB.K ∧
    (![0, 0, -1 / 2] : V3) ⬝ᵥ exA.local' ![1, 1, 2] = -1 ∧ exA.local' ![1, 1, 2] 2 ≠ 0 ∧ exB.local' ![1, 1, 2] 2 ≠ 0 ∧
    exA.pixel ![1, 1, 2] = (4, 3) ∧ exB.pixel ![1, 1, 2] = (2, 3) := by
  have hA := (C79_camera_matrix 1 4 2 one_ne_zero (by norm_num) 1 ![0, 0, 0])
  have hB := (C79_camera_matrix 1 4 2 one_ne_zero (by norm_num) 1 ![-1, 0, 0])
  have lA : exA.local' ![1, 1, 2] = ![1, 1, 2] := by
    unfold View.local' exA
    simp only [Matrix.one_mulVec]
    funext k; fin_cases k <;> simp
  have lB : exB.local' ![1, 1, 2] = ![0, 1, 2] := by
    unfold View.local' exB
    simp only [Matrix.one_mulVec]
    funext k; fin_cases k <;> simp
  have zA : exA.local' ![1, 1, 2] 2 ≠ 0 := by rw [lA]; simp
  have zB : exB.local' ![1, 1, 2] 2 ≠ 0 := by rw [lB]; simp
  refine ⟨hA.1, ?_, hB.1, ?_, zA, zB, ?_, ?_⟩
  · unfold IsRotation exA; simp
  · rw [lA]; simp [dotProduct, Fin.sum_univ_three]
  · have := hA.2 ![1, 1, 2] zA
    have e : (⟨scaledK 1 4 2, 1, ![0, 0, 0]⟩ : View) = exA := rfl
    rw [e, lA] at this
    rw [this]; norm_num [show ∀ a b c : ℝ, ![a, b, c] 2 = c from fun _ _ _ => rfl]
  · have := hB.2 ![1, 1, 2] zB
    have e : (⟨scaledK 1 4 2, 1, ![-1, 0, 0]⟩ : View) = exB := rfl
    rw [e, lB] at this
    rw [this]; norm_num [show ∀ a b c : ℝ, ![a, b, c] 2 = c from fun _ _ _ => rfl]

/-- A plane facing the camera at depth 2. -/
example : 1 / 1000000 ≤ (2 : ℝ) * -((![0, 0, -1] : V3) ⬝ᵥ ray (scaledK 1 4 2) 3 1) := by
  have h := ray_two (C79_camera_matrix 1 4 2 one_ne_zero (by norm_num) 1 ![0, 0, 0]).1 3 1
  simp only [dotProduct, Fin.sum_univ_three]
  rw [h]; simp; norm_num

/-- Samples with weights and contrast. -/
noncomputable def exSamples : List (ℝ × ℝ × ℝ) := [(0, 1, 1), (10, 21, 1)]

example : (∀ p ∈ exSamples, 0 ≤ p.2.2) ∧ wsum exSamples (fun _ _ => 1) ≠ 0 ∧
    1 / 10 ≤ wcov exSamples (fun x _ => x) (fun x _ => x) ∧ 1 / 10 ≤ wcov exSamples (fun _ y => y) (fun _ y => y) ∧
    ∀ p ∈ exSamples, p.2.1 = 2 * p.1 + 1 := by
  unfold exSamples
  refine ⟨?_, ?_, ?_, ?_, ?_⟩
  · intro p hp; fin_cases hp <;> norm_num
  · norm_num [wsum]
  · norm_num [wcov, wmean, wsum]
  · norm_num [wcov, wmean, wsum]
  · intro p hp; fin_cases hp <;> norm_num

end Verif.Depthmap
