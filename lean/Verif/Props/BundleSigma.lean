import Verif.Model.BundleSigma
import Verif.Props.GpsBias
import Verif.Props.CameraIO

/-!
C97: the priors of camera parameters and rig cameras.
-/
set_option linter.unusedSectionVars false
set_option linter.unusedSimpArgs false
namespace Verif.BundleSigma
open Matrix Verif.Superimpose Verif.GpsBias Verif.AlignPrior
open Verif.Camera (ProjType)

/-! ### Specification -/

/-- The standard deviation a user configures for a parameter; `none`: there is no key for it. -/
def configured (c : Sds) : Param → Option ℝ
  | .focal => some c.focal
  | .aspectRatio => some c.aspectRatio
  | .cx => some c.principalPoint
  | .cy => some c.principalPoint
  | .k1 => some c.k1
  | .k2 => some c.k2
  | .k3 => some c.k3
  | .k4 => some c.k4
  | .p1 => some c.p1
  | .p2 => some c.p2
  | _ => none

/-- How far a parameter is from its prior: the logarithm of the ratio for focal length and aspect ratio, else the difference. -/
noncomputable def deviation : Param → ℝ → ℝ → ℝ
  | .focal, x, y => Real.log x - Real.log y
  | .aspectRatio, x, y => Real.log x - Real.log y
  | _, x, y => x - y

/-- The parameters that are called frozen below. -/
def Frozen (p : Param) : Prop := p ∈ [Param.k4, .k5, .k6, .s0, .s1, .s2, .s3, .none]

/-- A conversion of rotations to rotation vectors of length at most π, as Eigen's. -/
def IsLogMin (toVec : Mat 3 → Vec 3) : Prop := ∀ A, IsRot A → vecToMat (toVec A) = A ∧ toVec A ⬝ᵥ toVec A ≤ Real.pi ^ 2

/-- The same projection type in the model of cameras of C65. -/
def ptypeOf : ProjType → CameraIO.PType
  | .perspective => .perspective
  | .brown => .brown
  | .fisheye => .fisheye
  | .fisheyeOpencv => .fisheyeOpencv
  | .fisheye62 => .fisheye62
  | .fisheye624 => .fisheye624
  | .spherical => .spherical
  | .dual => .dual
  | .radial => .radial
  | .simpleRadial => .simpleRadial

/-- The parameter with the same name in the model of cameras of C65. -/
def named : Param → CameraIO.Param
  | .transition => .transition
  | .k1 => .k1
  | .k2 => .k2
  | .k3 => .k3
  | .k4 => .k4
  | .k5 => .k5
  | .k6 => .k6
  | .p1 => .p1
  | .p2 => .p2
  | .s0 => .s0
  | .s1 => .s1
  | .s2 => .s2
  | .s3 => .s3
  | .focal => .focal
  | .aspectRatio => .aspectRatio
  | .cx => .cx
  | .cy => .cy
  | .none => .none

/-! ### Cameras -/

/-- The priors take the parameters in the order in which every camera of the type stores its values. -/
theorem C97_order (t : ProjType) (c : CameraIO.Cam) (hc : CameraIO.Legal c) (ht : c.ptype = ptypeOf t) : (types t).map named = c.types := by
  rw [hc.1, ht]
  cases t <;> rfl

theorem scale_eq {sd : ℝ} (h : 1 / 2 ^ 52 ≤ sd) : scale sd = 1 / sd := by
  unfold scale; rw [max_eq_left h]

theorem scale_small {sd : ℝ} (h : sd ≤ 1 / 2 ^ 52) : scale sd = 2 ^ 52 := by
  unfold scale; rw [max_eq_right h]; norm_num

theorem term_get (c : Sds) (t : ProjType) (values prior : List ℝ) (i : ℕ) (p : Param) (x y : ℝ) (hp : (types t)[i]? = some p)
    (hx : values[i]? = some x) (hy : prior[i]? = some y) : (cameraPrior c t values prior)[i]? = some (term c p x y) := by
  unfold cameraPrior
  rw [List.getElem?_zipWith, hp]
  have : (values.zip prior)[i]? = some (x, y) := by
    rw [List.zip, List.getElem?_zipWith, hx, hy]
  rw [this]

/-- A camera has one residual per parameter. For a parameter that is not frozen and whose configured standard deviation is at least
the machine epsilon it is the deviation from the prior divided by the standard deviation (1 for the transition of a dual camera). -/
theorem C97_camera (c : Sds) (t : ProjType) (values prior : List ℝ) (hv : values.length = (types t).length)
    (hp : prior.length = (types t).length) :
    (types t).length = max 1 t.size ∧ (types t).Nodup ∧ (cameraPrior c t values prior).length = (types t).length ∧
    ∀ (i : ℕ) (p : Param) (x y : ℝ), (types t)[i]? = some p → values[i]? = some x → prior[i]? = some y →
      (p = .focal ∨ p = .aspectRatio → 0 < x ∧ 0 < y) →
      (∀ sd, configured c p = some sd → p ≠ .k4 → 1 / 2 ^ 52 ≤ sd →
        (cameraPrior c t values prior)[i]? = some (deviation p x y / sd)) ∧
      (p = .transition → (cameraPrior c t values prior)[i]? = some (x - y)) := by
  refine ⟨by cases t <;> rfl, by cases t <;> decide, ?_, ?_⟩
  · unfold cameraPrior
    rw [List.length_zipWith, List.length_zip, hv, hp, min_self, min_self]
  · intro i p x y h1 h2 h3 hpos
    rw [term_get c t values prior i p x y h1 h2 h3]
    have hlog : p = .focal ∨ p = .aspectRatio → Real.log (x / y) = Real.log x - Real.log y := fun h =>
      Real.log_div (hpos h).1.ne' (hpos h).2.ne'
    constructor
    · intro sd hc h4 hsd
      congr 1
      unfold term
      cases p <;> simp only [configured, Option.some.injEq, reduceCtorEq] at hc
      case k4 => exact absurd rfl h4
      all_goals
        subst hc
        simp only [stdDev, scale_eq hsd, isLog, deviation, reduceCtorEq, decide_false, decide_true, Bool.or_false,
          Bool.or_true, Bool.true_or, Bool.false_or, if_true, Bool.false_eq_true, if_false]
      all_goals try rw [hlog (by simp)]
      all_goals ring
    · rintro rfl
      unfold term
      simp only [stdDev, isLog, reduceCtorEq, decide_false, Bool.or_false, Bool.false_eq_true, if_false]
      rw [scale_eq (by norm_num)]
      norm_num

/-- A residual vanishes exactly if the parameter has its prior value. -/
theorem C97_zero (c : Sds) (t : ProjType) (values prior : List ℝ) (i : ℕ) (p : Param) (x y r : ℝ) (h1 : (types t)[i]? = some p)
    (h2 : values[i]? = some x) (h3 : prior[i]? = some y) (hpos : p = .focal ∨ p = .aspectRatio → 0 < x ∧ 0 < y)
    (hr : (cameraPrior c t values prior)[i]? = some r) : r = 0 ↔ x = y := by
  rw [term_get c t values prior i p x y h1 h2 h3, Option.some.injEq] at hr
  rw [← hr]
  unfold term
  have hs : scale (stdDev c p) ≠ 0 := by
    unfold scale
    have : 0 < max (stdDev c p) (1 / 2 ^ 52) := lt_max_of_lt_right (by norm_num)
    positivity
  rw [mul_eq_zero, or_iff_right hs]
  split
  · rename_i hl
    have hp : p = .focal ∨ p = .aspectRatio := by
      unfold isLog at hl
      rw [Bool.or_eq_true, decide_eq_true_eq, decide_eq_true_eq] at hl
      exact hl
    obtain ⟨hx, hy⟩ := hpos hp
    constructor
    · intro h
      rw [Real.log_div hx.ne' hy.ne', sub_eq_zero] at h
      exact Real.log_injOn_pos hx hy h
    · rintro rfl
      rw [div_self hx.ne', Real.log_one]
  · exact sub_eq_zero

/-- **Frozen parameters.** The fourth and higher radial coefficients and the thin prism coefficients get the residual 2^52 times the
deviation, whatever is configured; in particular the configured standard deviation of `k4` has no effect at all. -/
theorem C97_frozen (c : Sds) (t : ProjType) (values prior : List ℝ) :
    (∀ (i : ℕ) (p : Param) (x y : ℝ), (types t)[i]? = some p → values[i]? = some x → prior[i]? = some y → Frozen p →
      (cameraPrior c t values prior)[i]? = some (2 ^ 52 * (x - y))) ∧
    (∀ s : ℝ, cameraPrior { c with k4 := s } t values prior = cameraPrior c t values prior) := by
  constructor
  · intro i p x y h1 h2 h3 hf
    rw [term_get c t values prior i p x y h1 h2 h3]
    congr 1
    unfold term
    have h0 : stdDev c p = 0 := by
      unfold Frozen at hf
      simp only [List.mem_cons, List.not_mem_nil, or_false] at hf
      rcases hf with rfl | rfl | rfl | rfl | rfl | rfl | rfl | rfl <;> rfl
    have hl : isLog p = false := by
      unfold Frozen at hf
      simp only [List.mem_cons, List.not_mem_nil, or_false] at hf
      rcases hf with rfl | rfl | rfl | rfl | rfl | rfl | rfl | rfl <;> rfl
    rw [h0, hl, scale_small (by norm_num)]
    simp
  · intro s
    have : ∀ p, stdDev { c with k4 := s } p = stdDev c p := by intro p; cases p <;> rfl
    unfold cameraPrior term
    simp only [this]

/-- So a solution whose cost does not exceed `K` has these parameters within √(2K)/2^52 of the prior. -/
theorem C97_frozen_bound (c : Sds) (t : ProjType) (values prior : List ℝ) (i : ℕ) (p : Param) (x y K : ℝ) (h1 : (types t)[i]? = some p)
    (h2 : values[i]? = some x) (h3 : prior[i]? = some y) (hf : Frozen p) (hK : cost (cameraPrior c t values prior) ≤ K) :
    |x - y| ≤ Real.sqrt (2 * K) / 2 ^ 52 := by
  have hg := (C97_frozen c t values prior).1 i p x y h1 h2 h3 hf
  have hmem : 2 ^ 52 * (x - y) ∈ cameraPrior c t values prior := List.mem_of_getElem? hg
  have hle : (2 ^ 52 * (x - y)) ^ 2 ≤ ((cameraPrior c t values prior).map (fun x => x ^ 2)).sum := by
    apply List.single_le_sum
    · intro z hz
      obtain ⟨w, -, rfl⟩ := List.mem_map.1 hz
      positivity
    · exact List.mem_map_of_mem (f := fun x => x ^ 2) hmem
  unfold cost at hK
  have hb : (2 ^ 52 * (x - y)) ^ 2 ≤ 2 * K := by linarith
  have := Real.abs_le_sqrt hb
  rw [abs_mul, abs_of_pos (by norm_num : (0:ℝ) < 2 ^ 52)] at this
  rw [le_div_iff₀ (by norm_num)]
  linarith

/-- The camera models with parameters that a user expects to be adjusted but that are frozen. -/
theorem C97_models (t : ProjType) : (∃ p ∈ types t, Frozen p ∧ p ≠ .none) ↔ t = .fisheyeOpencv ∨ t = .fisheye62 ∨ t = .fisheye624 := by
  cases t <;> simp [types, Frozen]

/-! ### Rotation vectors -/

theorem vecToMat_smul (a : ℝ) (k : Vec 3) (hk : k ⬝ᵥ k = 1) : vecToMat (a • k) = rod (Real.cos a) (Real.sin a) k := by
  have hk0 : k ≠ 0 := by rintro rfl; simp at hk
  by_cases h0 : a = 0
  · subst h0
    rw [zero_smul, vecToMat_zero, Real.cos_zero, Real.sin_zero]
    ext i j
    fin_cases i <;> fin_cases j <;> simp [rod]
  · have hn : AlignPrior.norm (a • k) = |a| := by
      unfold AlignPrior.norm
      rw [smul_dotProduct, dotProduct_smul, hk]
      simp only [smul_eq_mul, mul_one]
      exact Real.sqrt_mul_self_eq_abs a
    rw [vecToMat_ne _ (smul_ne_zero h0 hk0), hn, smul_smul]
    rcases lt_or_gt_of_ne h0 with h | h
    · rw [abs_of_neg h, show 1 / -a * a = -1 by field_simp]
      rw [Real.cos_neg, Real.sin_neg]
      ext i j
      fin_cases i <;> fin_cases j <;> simp [rod]
    · rw [abs_of_pos h, show 1 / a * a = 1 by field_simp, one_smul]

theorem polar (w : Vec 3) : ∃ (b : ℝ) (j : Vec 3), 0 ≤ b ∧ j ⬝ᵥ j = 1 ∧ w = b • j ∧ b ^ 2 = w ⬝ᵥ w := by
  by_cases h : w = 0
  · refine ⟨0, ![1, 0, 0], le_refl _, by simp [dotProduct, Fin.sum_univ_three], by rw [h, zero_smul], by rw [h]; simp⟩
  · have hn := norm_pos w h
    have hsq : AlignPrior.norm w ^ 2 = w ⬝ᵥ w := by
      unfold AlignPrior.norm
      rw [Real.sq_sqrt (dot_self_nonneg w)]
    refine ⟨AlignPrior.norm w, (1 / AlignPrior.norm w) • w, hn.le, ?_, ?_, hsq⟩
    · rw [smul_dotProduct, dotProduct_smul, ← hsq]
      simp only [smul_eq_mul]
      field_simp
    · rw [smul_smul, mul_one_div_cancel hn.ne', one_smul]

/-- A rotation vector shorter than π is determined by the rotation. -/
theorem log_unique (k w : Vec 3) (a : ℝ) (hk : k ⬝ᵥ k = 1) (ha : |a| < Real.pi) (hw : w ⬝ᵥ w ≤ Real.pi ^ 2)
    (h : vecToMat w = vecToMat (a • k)) : w = a • k := by
  obtain ⟨b, j, hb, hj, rfl, hbw⟩ := polar w
  have hbpi : b ≤ Real.pi := abs_le_of_sq_le_sq' (by rw [hbw]; exact hw) Real.pi_pos.le |>.2
  rw [vecToMat_smul b j hj, vecToMat_smul a k hk] at h
  have e00 := congrFun (congrFun h 0) 0
  have e11 := congrFun (congrFun h 1) 1
  have e22 := congrFun (congrFun h 2) 2
  have e01 := congrFun (congrFun h 0) 1
  have e10 := congrFun (congrFun h 1) 0
  have e02 := congrFun (congrFun h 0) 2
  have e20 := congrFun (congrFun h 2) 0
  have e12 := congrFun (congrFun h 1) 2
  have e21 := congrFun (congrFun h 2) 1
  simp [rod] at e00 e11 e22 e01 e10 e02 e20 e12 e21
  simp only [dotProduct, Fin.sum_univ_three] at hk hj
  have hcos : Real.cos b = Real.cos |a| := by
    rw [Real.cos_abs]
    have := congrArg₂ (· + ·) (congrArg₂ (· + ·) e00 e11) e22
    have e1 : Real.cos b * (3 - (j 0 * j 0 + j 1 * j 1 + j 2 * j 2)) + (j 0 * j 0 + j 1 * j 1 + j 2 * j 2) =
        Real.cos a * (3 - (k 0 * k 0 + k 1 * k 1 + k 2 * k 2)) + (k 0 * k 0 + k 1 * k 1 + k 2 * k 2) := by linear_combination this
    rw [hk, hj] at e1
    linarith
  have hba : b = |a| := Real.injOn_cos ⟨hb, hbpi⟩ ⟨abs_nonneg a, ha.le⟩ hcos
  have s0 : Real.sin b * j 0 = Real.sin a * k 0 := by linear_combination (1 / 2) * e21 - (1 / 2) * e12
  have s1 : Real.sin b * j 1 = Real.sin a * k 1 := by linear_combination (1 / 2) * e02 - (1 / 2) * e20
  have s2 : Real.sin b * j 2 = Real.sin a * k 2 := by linear_combination (1 / 2) * e10 - (1 / 2) * e01
  by_cases h0 : a = 0
  · rw [hba, h0, abs_zero, zero_smul, zero_smul]
  have hbp : 0 < b := by rw [hba]; exact abs_pos.2 h0
  have hsb : 0 < Real.sin b := Real.sin_pos_of_pos_of_lt_pi hbp (by rw [hba]; exact ha)
  have hs : Real.sin a * b = a * Real.sin b := by
    rw [hba]
    rcases lt_or_gt_of_ne h0 with h | h
    · rw [abs_of_neg h, Real.sin_neg]; ring
    · rw [abs_of_pos h]; ring
  funext i
  have key : ∀ (x y : ℝ), Real.sin b * x = Real.sin a * y → b * x = a * y := by
    intro x y hxy
    have : Real.sin b * (b * x) = Real.sin b * (a * y) := by linear_combination b * hxy + y * hs
    exact mul_left_cancel₀ hsb.ne' this
  fin_cases i
  · exact key _ _ s0
  · exact key _ _ s1
  · exact key _ _ s2

theorem rod_period (a : ℝ) (k : Vec 3) (hk : k ⬝ᵥ k = 1) : vecToMat ((a - 2 * Real.pi) • k) = vecToMat (a • k) := by
  rw [vecToMat_smul _ _ hk, vecToMat_smul _ _ hk, Real.cos_sub_two_pi, Real.sin_sub_two_pi]

/-- Such a conversion exists. -/
theorem C97_log : ∃ toVec, IsLogMin toVec := by
  obtain ⟨f, hf⟩ := C95_log
  have : ∀ A : Mat 3, ∃ v : Vec 3, IsRot A → vecToMat v = A ∧ v ⬝ᵥ v ≤ Real.pi ^ 2 := by
    intro A
    by_cases hA : IsRot A
    swap
    · exact ⟨0, fun h => absurd h hA⟩
    obtain ⟨b, j, hb, hj, hw, -⟩ := polar (f A)
    obtain ⟨c, hc, hcb⟩ : ∃ c : ℝ, c ^ 2 ≤ Real.pi ^ 2 ∧ vecToMat (c • j) = vecToMat (b • j) := by
      refine ⟨toIocMod Real.two_pi_pos (-Real.pi) b, ?_, ?_⟩
      · have := toIocMod_mem_Ioc Real.two_pi_pos (-Real.pi) b
        obtain ⟨h1, h2⟩ := this
        apply sq_le_sq' h1.le
        linarith
      · have e : toIocMod Real.two_pi_pos (-Real.pi) b = b - toIocDiv Real.two_pi_pos (-Real.pi) b * (2 * Real.pi) := by
          rw [toIocMod, zsmul_eq_mul]
        rw [vecToMat_smul _ _ hj, vecToMat_smul _ _ hj, e, Real.cos_sub_int_mul_two_pi, Real.sin_sub_int_mul_two_pi]
    refine ⟨c • j, fun _ => ⟨by rw [hcb, ← hw, hf A hA], ?_⟩⟩
    rw [smul_dotProduct, dotProduct_smul, hj]
    simp only [smul_eq_mul, mul_one]
    nlinarith
  choose g hg using this
  exact ⟨g, fun A hA => hg A hA⟩

/-! ### Rig cameras -/

theorem sigma_small (toVec : Mat 3 → Vec 3) (hl : IsLogMin toVec) (c : Sds) (h0 : 0 ≤ c.rigRotation)
    (h1 : c.rigRotation * Real.sqrt 3 < Real.pi) : (rigSigma toVec c).1 = fun _ => c.rigRotation := by
  have h3 : (0 : ℝ) < Real.sqrt 3 := by positivity
  have hk : (fun _ => 1 / Real.sqrt 3 : Vec 3) ⬝ᵥ (fun _ => 1 / Real.sqrt 3) = 1 := by
    have := Real.mul_self_sqrt (show (0:ℝ) ≤ 3 by norm_num)
    simp only [dotProduct, Fin.sum_univ_three]
    field_simp
    linarith
  have e : (fun _ => c.rigRotation : Vec 3) = (c.rigRotation * Real.sqrt 3) • (fun _ => 1 / Real.sqrt 3 : Vec 3) := by
    funext i
    simp only [Pi.smul_apply, smul_eq_mul]
    field_simp
  unfold rigSigma
  simp only
  rw [e]
  have hA := hl _ (vecToMat_rot ((c.rigRotation * Real.sqrt 3) • (fun _ => 1 / Real.sqrt 3 : Vec 3)))
  exact log_unique _ _ _ hk (by rw [abs_of_nonneg (by positivity)]; exact h1) hA.2 hA.1

theorem sigma_large (toVec : Mat 3 → Vec 3) (hl : IsLogMin toVec) (c : Sds) (h1 : Real.pi < c.rigRotation * Real.sqrt 3)
    (h2 : c.rigRotation * Real.sqrt 3 < 2 * Real.pi) : ∀ k, (rigSigma toVec c).1 k < 0 := by
  have h3 : (0 : ℝ) < Real.sqrt 3 := by positivity
  have hk : (fun _ => 1 / Real.sqrt 3 : Vec 3) ⬝ᵥ (fun _ => 1 / Real.sqrt 3) = 1 := by
    have := Real.mul_self_sqrt (show (0:ℝ) ≤ 3 by norm_num)
    simp only [dotProduct, Fin.sum_univ_three]
    field_simp
    linarith
  have e : (fun _ => c.rigRotation : Vec 3) = (c.rigRotation * Real.sqrt 3) • (fun _ => 1 / Real.sqrt 3 : Vec 3) := by
    funext i
    simp only [Pi.smul_apply, smul_eq_mul]
    field_simp
  have hpi := Real.pi_pos
  unfold rigSigma
  simp only
  rw [e, ← rod_period _ _ hk]
  have hA := hl _ (vecToMat_rot ((c.rigRotation * Real.sqrt 3 - 2 * Real.pi) • (fun _ => 1 / Real.sqrt 3 : Vec 3)))
  rw [log_unique _ _ _ hk (by rw [abs_lt]; constructor <;> linarith) hA.2 hA.1]
  intro k
  simp only [Pi.smul_apply, smul_eq_mul]
  apply mul_neg_of_neg_of_pos (by linarith) (by positivity)

/-- The prior of a rig camera: rotation vector and translation are compared with those of the prior, divided by the configured standard
deviations, as long as that of the rotation is below π/√3 (about 1.81). -/
theorem C97_rig (toVec : Mat 3 → Vec 3) (hl : IsLogMin toVec) (c : Sds) (h0 : 1 / 2 ^ 52 ≤ c.rigRotation)
    (h1 : c.rigRotation * Real.sqrt 3 < Real.pi) (ht : 1 / 2 ^ 52 ≤ c.rigTranslation) (w t : Vec 3) (R0 : Mat 3) (t0 : Vec 3) :
    (∀ k, (rigPrior toVec c w t R0 t0).1 k = (w k - toVec R0 k) / c.rigRotation) ∧
    (∀ k, (rigPrior toVec c w t R0 t0).2 k = (t k - t0 k) / c.rigTranslation) := by
  have h0' : 0 ≤ c.rigRotation := le_trans (by norm_num) h0
  constructor
  · intro k
    unfold rigPrior
    simp only
    rw [sigma_small toVec hl c h0' h1, scale_eq h0]
    ring
  · intro k
    unfold rigPrior
    simp only [rigSigma]
    rw [scale_eq ht]
    ring

/-- **Loose becomes tight.** A standard deviation of the rotation between π/√3 and 2π/√3, about 104 to 208 degrees, comes out negative
of the conversions and freezes the rotation: its residual is 2^52 times the deviation. -/
theorem C97_rig_loose (toVec : Mat 3 → Vec 3) (hl : IsLogMin toVec) (c : Sds) (h1 : Real.pi < c.rigRotation * Real.sqrt 3)
    (h2 : c.rigRotation * Real.sqrt 3 < 2 * Real.pi) (w t : Vec 3) (R0 : Mat 3) (t0 : Vec 3) (k : Fin 3) :
    (rigPrior toVec c w t R0 t0).1 k = 2 ^ 52 * (w k - toVec R0 k) := by
  unfold rigPrior
  simp only
  rw [scale_small (le_trans (sigma_large toVec hl c h1 h2 k).le (by norm_num))]

/-- **Half turns.** A rig camera that looks back can differ from its prior by an arbitrarily small rotation and start the adjustment
with a residual of almost 2π standard deviations' worth. -/
theorem C97_rig_flip (toVec : Mat 3 → Vec 3) (hl : IsLogMin toVec) (c : Sds) (h0 : 1 / 2 ^ 52 ≤ c.rigRotation)
    (h1 : c.rigRotation * Real.sqrt 3 < Real.pi) (δ : ℝ) (hd : 0 < δ) (hd1 : δ < 1) :
    ∃ R0 R : Mat 3, IsRot R0 ∧ IsRot R ∧ R = R0 * vecToMat ![0, 0, δ] ∧
      |(rigPrior toVec c (toVec R) 0 R0 0).1 2| = (2 * Real.pi - δ) / c.rigRotation := by
  have hk : (![0, 0, 1] : Vec 3) ⬝ᵥ ![0, 0, 1] = 1 := by simp [dotProduct, Fin.sum_univ_three]
  have hpi := Real.pi_gt_three
  have hz : ∀ a : ℝ, (![0, 0, a] : Vec 3) = a • ![0, 0, 1] := by
    intro a; funext i; fin_cases i <;> simp
  have hrot : ∀ a : ℝ, IsRot (vecToMat ![0, 0, a]) := fun a => vecToMat_rot _
  have hlog : ∀ a : ℝ, |a| < Real.pi → toVec (vecToMat ![0, 0, a]) = ![0, 0, a] := by
    intro a ha
    have hA := hl _ (hrot a)
    rw [hz]
    rw [hz] at hA
    exact log_unique _ _ _ hk ha hA.2 hA.1
  have hmul : ∀ a b : ℝ, vecToMat ![0, 0, a] * vecToMat ![0, 0, b] = vecToMat ![0, 0, a + b] := by
    intro a b
    rw [hz a, hz b, hz (a + b), vecToMat_smul _ _ hk, vecToMat_smul _ _ hk, vecToMat_smul _ _ hk, Real.cos_add, Real.sin_add]
    ext i j
    fin_cases i <;> fin_cases j <;> simp [rod, Matrix.mul_apply, Fin.sum_univ_three] <;> ring
  have hper : vecToMat ![0, 0, Real.pi + δ / 2] = vecToMat ![0, 0, -(Real.pi - δ / 2)] := by
    rw [hz (Real.pi + δ / 2), hz (-(Real.pi - δ / 2)), ← rod_period (Real.pi + δ / 2) _ hk]
    congr 2
    ring
  refine ⟨vecToMat ![0, 0, Real.pi - δ / 2], vecToMat ![0, 0, Real.pi + δ / 2], hrot _, hrot _, ?_, ?_⟩
  · rw [hmul]
    congr 3
    ring_nf
  · have h0' : 0 ≤ c.rigRotation := le_trans (by norm_num) h0
    have hpos : 0 < c.rigRotation := lt_of_lt_of_le (by norm_num) h0
    unfold rigPrior
    simp only
    rw [sigma_small toVec hl c h0' h1, scale_eq h0, hper, hlog _ (by rw [abs_neg, abs_of_pos (by linarith)]; linarith),
      hlog _ (by rw [abs_of_pos (by linarith)]; linarith)]
    simp only [Matrix.cons_val]
    rw [show (1 / c.rigRotation * (-(Real.pi - δ / 2) - (Real.pi - δ / 2))) = -((2 * Real.pi - δ) / c.rigRotation) by ring, abs_neg,
      abs_of_pos (div_pos (by linarith) hpos)]

/-! ### Examples -/

/-- The default standard deviations. -/
noncomputable def defaults : Sds := ⟨0.01, 0.01, 0.01, 0.01, 0.01, 0.01, 0.01, 0.01, 0.01, 0.1, 0.1⟩

/-- A perspective camera with a focal length e times too long is 100 standard deviations off. -/
example : (cameraPrior defaults .perspective [0, 0, Real.exp 1] [0, 0, 1])[2]? = some 100 := by
  have h := (C97_camera defaults .perspective [0, 0, Real.exp 1] [0, 0, 1] rfl rfl).2.2.2 2 .focal (Real.exp 1) 1 rfl rfl rfl
    (fun _ => ⟨Real.exp_pos 1, one_pos⟩)
  rw [h.1 0.01 rfl (by decide) (by norm_num)]
  simp [deviation]
  norm_num

/-- A fisheye camera: k4 off by 0.01 costs 2^104 / 20000. -/
example : (cameraPrior defaults .fisheyeOpencv [0, 0, 0, (0.01 : ℝ), 1, 1, 0, 0] [0, 0, 0, 0, 1, 1, 0, 0])[3]? = some (2 ^ 52 * ((0.01 : ℝ) - 0)) :=
  (C97_frozen defaults .fisheyeOpencv _ _).1 3 .k4 0.01 0 rfl rfl rfl (by simp [Frozen])

/-- The default rotation standard deviation is below the limit; 2 is not. -/
example : defaults.rigRotation * Real.sqrt 3 < Real.pi ∧ Real.pi < 2 * Real.sqrt 3 ∧ 2 * Real.sqrt 3 < 2 * Real.pi := by
  have h1 : Real.sqrt 3 < 2 := by rw [Real.sqrt_lt' (by norm_num)]; norm_num
  have h2 : 1.6 < Real.sqrt 3 := by rw [Real.lt_sqrt (by norm_num)]; norm_num
  have h3 := Real.pi_gt_three
  have h4 := Real.pi_lt_d2
  have h5 : defaults.rigRotation = 0.1 := rfl
  refine ⟨by rw [h5]; linarith, by linarith, by linarith⟩

end Verif.BundleSigma
