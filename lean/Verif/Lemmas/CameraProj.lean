import Verif.Lemmas.CameraStages

/-! The jacobian of every projection stage and of the pose stage. -/
set_option linter.unusedSectionVars false
set_option linter.unusedSimpArgs false
set_option linter.unusedTactic false
set_option linter.unreachableTactic false
namespace Verif.Camera
open Expr

theorem local_perspective : perspective.Local := by
  intro x p q h
  simp [perspective]

theorem jac_perspective (x : Fin 3 → ℝ) (p : Ptr) (hz : x 2 ≠ 0) : perspective.JacobianAt x p := by
  refine jacobianAt_of_expr ![var 0 / var 2, var 1 / var 2] ?_ ?_ ?_
  · intro r; fin_cases r <;> eval_simp <;> exact hz
  · intro r
    refine Filter.Eventually.of_forall (fun v => ?_)
    fin_cases r <;> simp [perspective] <;> eval_simp
  · intro r c
    fin_cases r <;> fin_cases c <;> simp [perspective] <;> eval_simp <;> field_simp <;> try ring

theorem local_fisheye : fisheye.Local := by
  intro x p q h
  simp [fisheye]

theorem jac_fisheye_small (x : Fin 3 → ℝ) (p : Ptr) (hr : Real.sqrt (sqNorm x) < tiny)
    (hz : x 2 ≠ 0) : fisheye.JacobianAt x p := by
  refine jacobianAt_of_expr ![var 0 / var 2, var 1 / var 2] ?_ ?_ ?_
  · intro r; fin_cases r <;> eval_simp <;> exact hz
  · intro r
    have hc : Continuous (fun v : Fin (3 + 0) → ℝ => Real.sqrt (sqNorm (pointOf v))) := by
      simp only [sqNorm, pointOf]; fun_prop
    have := hc.continuousAt.eventually_lt (continuousAt_const (y := tiny))
      (x₀ := join 0 x p) (by simpa using hr)
    filter_upwards [this] with v hv
    fin_cases r <;> simp [fisheye, hv] <;> eval_simp
  · intro r c
    fin_cases r <;> fin_cases c <;> simp [fisheye, hr] <;> eval_simp <;> field_simp <;> try ring

theorem jac_fisheye_main (x : Fin 3 → ℝ) (p : Ptr) (hr : tiny < Real.sqrt (sqNorm x)) :
    fisheye.JacobianAt x p := by
  have hr0 : 0 < Real.sqrt (sqNorm x) := lt_trans (by norm_num [tiny]) hr
  have hs0 : 0 < sqNorm x := Real.sqrt_pos.1 hr0
  let r2 : Expr (3 + 0) := var 0 * var 0 + var 1 * var 1
  let r1 : Expr (3 + 0) := Expr.sqrt r2
  let th : Expr (3 + 0) := Expr.atan2 r1 (var 2)
  refine jacobianAt_of_expr ![th / r1 * var 0, th / r1 * var 1] ?_ ?_ ?_
  · have h1 : x 0 * x 0 + x 1 * x 1 ≠ 0 := hs0.ne'
    have h2 : Real.sqrt (x 0 * x 0 + x 1 * x 1) ≠ 0 := hr0.ne'
    intro r
    fin_cases r <;> simp [th, r1, r2] <;> eval_simp <;> exact ⟨⟨h1, Or.inr h2⟩, h1, h2⟩
  · intro r
    have hc : Continuous (fun v : Fin (3 + 0) → ℝ => Real.sqrt (sqNorm (pointOf v))) := by
      simp only [sqNorm, pointOf]; fun_prop
    have := (continuousAt_const (y := tiny)).eventually_lt hc.continuousAt
      (x₀ := join 0 x p) (by simpa using hr)
    filter_upwards [this] with v hv
    fin_cases r <;> simp [fisheye, not_lt.2 hv.le, th, r1, r2] <;> eval_simp
  · intro r c
    have hr' := not_lt.2 hr.le
    have hq := Real.mul_self_sqrt hs0.le
    simp only [sqNorm] at hr' hq hr0 hs0
    have hR : x 0 * x 0 + x 1 * x 1 + x 2 * x 2 ≠ 0 := by nlinarith [mul_self_nonneg (x 2)]
    have hR' : x 2 * x 2 + (x 0 * x 0 + x 1 * x 1) ≠ 0 := by nlinarith [mul_self_nonneg (x 2)]
    generalize hg : Real.sqrt (x 0 * x 0 + x 1 * x 1) = ρ at *
    rw [← hq] at hR hR'
    fin_cases r <;> fin_cases c <;> simp [fisheye, sqNorm, th, r1, r2] <;>
      eval_simp <;> rw [hg] <;> rw [if_neg hr'] <;> simp [row] <;> (try rw [← hq]) <;> generalize Camera.atan2 ρ (x 2) = th <;> generalize x 0 = a at * <;> generalize x 1 = b at * <;> generalize x 2 = c at * <;> field_simp <;> grind

/-- Where the fisheye jacobian is valid. -/
def FisheyeOk (x : Fin 3 → ℝ) : Prop :=
  tiny < Real.sqrt (sqNorm x) ∨ (Real.sqrt (sqNorm x) < tiny ∧ x 2 ≠ 0)

theorem jac_fisheye (x : Fin 3 → ℝ) (p : Ptr) (h : FisheyeOk x) : fisheye.JacobianAt x p := by
  rcases h with h | ⟨h, hz⟩
  · exact jac_fisheye_main x p h
  · exact jac_fisheye_small x p h hz

theorem local_dual : dual.Local := by
  intro x p q h
  simp [dual, h 0, local_perspective x p q (by intro i hi; omega),
    local_fisheye x p q (by intro i hi; omega)]

theorem jac_dual (x : Fin 3 → ℝ) (p : Ptr) (hz : x 2 ≠ 0) (h : FisheyeOk x) :
    dual.JacobianAt x p := by
  intro r
  have lift : ∀ (F : Functor 3 0 2), F.Local → F.JacobianAt x p →
      IsGrad (fun v : Fin (3 + 1) → ℝ => F.fwd (pointOf v) (paramsOf v) r)
        (fun c => if c.val < 3 then F.jac x p r c.val else 0) (join 1 x p) := by
    intro F hl hj
    let G0 : (Fin (3 + 1) → ℝ) → Fin (3 + 0) → ℝ := fun v i => v ⟨i.val, by omega⟩
    have e0 : ∀ v, F.fwd (pointOf (P := 1) v) (paramsOf v) r =
        F.fwd (pointOf (G0 v)) (paramsOf (G0 v)) r := by
      intro v
      exact congrFun (hl _ _ _ (by intro i hi; omega)) r
    have eG0 : G0 (join 1 x p) = join 0 x p := by funext i; simp [G0, join]
    have h1 := IsGrad.chain (G := G0) (v := join 1 x p)
      (f := fun w => F.fwd (pointOf w) (paramsOf w) r)
      (f' := fun c => F.jac x p r c.val)
      (G' := fun j c => if c = ⟨j.val, by omega⟩ then 1 else 0)
      (fun j => isGrad_var _ _) (by rw [eG0]; exact hj r)
    simp only [e0]
    refine h1.congr (fun c => ?_)
    fin_cases c <;> simp [Fin.sum_univ_succ]
  have hp := lift perspective local_perspective (jac_perspective x p hz)
  have hf := lift fisheye local_fisheye (jac_fisheye x p h)
  have h0 := isGrad_var (a := 3 + 1) 3 (join 1 x p)
  have h1 := isGrad_const (a := 3 + 1) 1 (join 1 x p)
  have := (h0.mul hp).add ((h1.sub h0).mul hf)
  have e : (fun v : Fin (3 + 1) → ℝ => dual.fwd (pointOf v) (paramsOf v) r) =
      fun v => v 3 * perspective.fwd (pointOf v) (paramsOf v) r +
        (1 - v 3) * fisheye.fwd (pointOf v) (paramsOf v) r := by
    funext v
    fin_cases r <;> simp [dual, paramsOf]
  rw [e]
  refine this.congr (fun c => ?_)
  have q1 : perspective.fwd x (paramsOf (join 1 x p)) = perspective.fwd x p := rfl
  have q2 : fisheye.fwd x (paramsOf (join 1 x p)) = fisheye.fwd x p := rfl
  fin_cases c <;> simp [dual, join, q1, q2] <;> try ring

/-- Where the spherical jacobian is valid: off the vertical axis and off the seam behind the camera. -/
def SphericalOk (x : Fin 3 → ℝ) : Prop := 0 < x 2 ∨ x 0 ≠ 0

theorem local_spherical : spherical.Local := by
  intro x p q h
  simp [spherical]

theorem jac_spherical (x : Fin 3 → ℝ) (p : Ptr) (h : SphericalOk x) : spherical.JacobianAt x p := by
  have hs0 : 0 < x 0 * x 0 + x 2 * x 2 := by
    rcases h with h | h
    · nlinarith [mul_self_nonneg (x 0), mul_pos h h]
    · have := mul_self_pos.2 h
      nlinarith [mul_self_nonneg (x 2)]
  have hr0 : 0 < Real.sqrt (x 0 * x 0 + x 2 * x 2) := Real.sqrt_pos.2 hs0
  let rt : Expr (3 + 0) := Expr.sqrt (var 0 * var 0 + var 2 * var 2)
  refine jacobianAt_of_expr
    ![Expr.atan2 (var 0) (var 2) * const (1 / (2 * Real.pi)),
      -(Expr.atan2 (-var 1) rt) * const (1 / (2 * Real.pi))] ?_ ?_ ?_
  · intro r
    fin_cases r <;> simp [rt] <;> eval_simp
    · exact h
    · exact ⟨hs0.ne', Or.inl hs0⟩
  · intro r
    refine Filter.Eventually.of_forall (fun v => ?_)
    fin_cases r <;> simp [spherical, rt] <;> eval_simp
  · intro r c
    have hq := Real.mul_self_sqrt hs0.le
    have hpi := Real.pi_ne_zero
    have hs1 : x 0 * x 0 + x 2 * x 2 ≠ 0 := hs0.ne'
    generalize hg : Real.sqrt (x 0 * x 0 + x 2 * x 2) = ρ at *
    have hR : ρ * ρ + x 1 * x 1 ≠ 0 := by nlinarith [mul_self_nonneg (x 1)]
    have e : x 0 * x 0 + x 1 * x 1 + x 2 * x 2 = ρ * ρ + x 1 * x 1 := by rw [hq]; ring
    have e2 : x 2 * x 2 + x 0 * x 0 = x 0 * x 0 + x 2 * x 2 := by ring
    fin_cases r <;> fin_cases c <;> simp [spherical, rt] <;> eval_simp <;>
      (try rw [hg]) <;> (try rw [e]) <;> (try rw [e2]) <;> field_simp <;> try ring

theorem local_normalize : normalize.Local := by
  intro x p q h
  simp [normalize]

theorem jac_normalize (x : Fin 3 → ℝ) (p : Ptr) (h : x ≠ 0) : normalize.JacobianAt x p := by
  have hs0 : 0 < x 0 * x 0 + x 1 * x 1 + x 2 * x 2 := by
    have h0 := mul_self_nonneg (x 0)
    have h1 := mul_self_nonneg (x 1)
    have h2 := mul_self_nonneg (x 2)
    by_contra hn
    apply h
    have e0 : x 0 = 0 := mul_self_eq_zero.1 (by linarith)
    have e1 : x 1 = 0 := mul_self_eq_zero.1 (by linarith)
    have e2 : x 2 = 0 := mul_self_eq_zero.1 (by linarith)
    funext i
    fin_cases i <;> simp [e0, e1, e2]
  have hr0 : 0 < Real.sqrt (x 0 * x 0 + x 1 * x 1 + x 2 * x 2) := Real.sqrt_pos.2 hs0
  let nn : Expr (3 + 0) := Expr.sqrt (var 0 * var 0 + var 1 * var 1 + var 2 * var 2)
  refine jacobianAt_of_expr ![var 0 * (1 / nn), var 1 * (1 / nn), var 2 * (1 / nn)] ?_ ?_ ?_
  · intro r
    fin_cases r <;> simp [nn] <;> eval_simp <;> exact ⟨hs0.ne', hr0.ne'⟩
  · intro r
    refine Filter.Eventually.of_forall (fun v => ?_)
    fin_cases r <;> simp [normalize, nn] <;> eval_simp
  · intro r c
    have hq := Real.mul_self_sqrt hs0.le
    generalize hg : Real.sqrt (x 0 * x 0 + x 1 * x 1 + x 2 * x 2) = ρ at *
    fin_cases r <;> fin_cases c <;> simp [normalize, nn] <;> eval_simp <;> rw [hg] <;>
      rw [← hq] <;> field_simp <;> grind

/-! ### Pose -/

/-- The rotation part of the input vector of `pose`. -/
def rotVec (v : Fin (3 + 6) → ℝ) : Fin 3 → ℝ := fun i => v ⟨3 + i.val, by omega⟩

/-- The translated point. -/
def xyzVec (v : Fin (3 + 6) → ℝ) : Fin 3 → ℝ := fun i => v ⟨i.val, by omega⟩ - v ⟨6 + i.val, by omega⟩

/-- `R(-w) (p - t)` for any matrix `M` of expressions in the rotation vector. -/
theorem isGrad_rotated (M : Fin 3 → Expr 3) (v : Fin (3 + 6) → ℝ) (hok : ∀ j, (M j).Ok (rotVec v)) :
    IsGrad (fun v => ∑ j, (M j).eval (rotVec v) * xyzVec v j)
      (fun c => if h : c.val < 3 then (M ⟨c.val, h⟩).eval (rotVec v)
        else if h : c.val - 3 < 3 then ∑ j, xyzVec v j * (M j).grad (rotVec v) ⟨c.val - 3, h⟩
        else if h : c.val - 6 < 3 then -(M ⟨c.val - 6, h⟩).eval (rotVec v) else 0) v := by
  have hM : ∀ j, IsGrad (fun v => (M j).eval (rotVec v))
      (fun c => ∑ i, (M j).grad (rotVec v) i * (if c = ⟨3 + i.val, by omega⟩ then 1 else 0)) v :=
    fun j => IsGrad.chain (G := rotVec) (fun i => isGrad_var _ _) (Expr.isGrad _ _ (hok j))
  have hx : ∀ j : Fin 3, IsGrad (fun v => xyzVec v j)
      (fun c => (if c = ⟨j.val, by omega⟩ then 1 else 0) - (if c = ⟨6 + j.val, by omega⟩ then 1 else 0))
      v := fun j => (isGrad_var _ _).sub (isGrad_var _ _)
  have h := (((hM 0).mul (hx 0)).add ((hM 1).mul (hx 1))).add ((hM 2).mul (hx 2))
  simp only [Fin.sum_univ_three]
  refine h.congr (fun c => ?_)
  have hne : ∀ (m n : ℕ) (hm hn), ((⟨m, hm⟩ : Fin (3 + 6)) = ⟨n, hn⟩) = (m = n) := by
    intro m n hm hn; simp
  have := c.2
  obtain ⟨c, hc⟩ := c
  simp only [hne, Fin.sum_univ_three]
  have h2 : ∀ h, (⟨2, h⟩ : Fin 3) = 2 := fun _ => rfl
  interval_cases c <;> norm_num <;> (try simp only [h2]) <;> try ring

theorem local_pose : pose.Local := by
  intro x p q h
  simp [pose, h 0, h 1, h 2, h 3, h 4, h 5]

/-- Squared rotation angle of the pose parameters. -/
def angleSq (rt : Ptr) : ℝ := rt 0 * rt 0 + rt 1 * rt 1 + rt 2 * rt 2

theorem rotMain_ok (w : Fin 3 → ℝ) (h : 0 < w 0 * w 0 + w 1 * w 1 + w 2 * w 2) (i j : Fin 3) :
    (rotMain i j).Ok w := by
  have h1 := h.ne'
  have h2 := (Real.sqrt_pos.2 h).ne'
  fin_cases i <;> fin_cases j <;> simp [rotMain] <;> eval_simp <;> tauto

/-- Rodrigues' formula: the direct evaluation is the product with the matrix. -/
theorem pose_fwd_main (x : Fin 3 → ℝ) (p : Ptr) (h : machEps < angleSq p) (r : Fin 3) :
    pose.fwd x p r = ∑ j : Fin 3, (rotMain r j).eval (rotPart p) * (x j - p (3 + j.val)) := by
  have h0 : (0 : ℝ) < angleSq p := lt_trans (by norm_num [machEps]) h
  simp only [angleSq] at h h0
  have h1 := h0.ne'
  have h2 := (Real.sqrt_pos.2 h0).ne'
  simp only [pose, neg_mul_neg, if_pos h, Fin.sum_univ_three]
  generalize hg : Real.sqrt (p 0 * p 0 + p 1 * p 1 + p 2 * p 2) = θ at *
  have r0 : rotPart p 0 = p 0 := rfl
  have r1 : rotPart p 1 = p 1 := rfl
  have r2 : rotPart p 2 = p 2 := rfl
  fin_cases r <;> simp [rotMain] <;> eval_simp <;> rw [r0, r1, r2, hg] <;> field_simp <;> ring

theorem rotPart_paramsOf (v : Fin (3 + 6) → ℝ) : rotPart (paramsOf v) = rotVec v := by
  funext i
  simp [rotPart, paramsOf, rotVec, show i.val < 6 by omega]

theorem rotPart_join (x : Fin 3 → ℝ) (p : Ptr) : rotVec (join 6 x p) = rotPart p := by
  funext i
  simp [rotPart, rotVec, join]

theorem xyzVec_eq (v : Fin (3 + 6) → ℝ) (j : Fin 3) :
    xyzVec v j = pointOf v j - paramsOf v (3 + j.val) := by
  simp [xyzVec, paramsOf, pointOf, show 3 + j.val < 6 by omega]
  congr 1
  apply Fin.ext
  simp
  omega

theorem xyzVec_join (x : Fin 3 → ℝ) (p : Ptr) (j : Fin 3) :
    xyzVec (join 6 x p) j = x j - p (3 + j.val) := by
  rw [xyzVec_eq, pointOf_join, paramsOf_join _ _ _ (by omega)]

theorem continuous_angleSq : Continuous (fun v : Fin (3 + 6) → ℝ => angleSq (paramsOf v)) := by
  simp only [angleSq, paramsOf]
  norm_num
  fun_prop

theorem jac_pose (x : Fin 3 → ℝ) (p : Ptr) (h : machEps < angleSq p) : pose.JacobianAt x p := by
  intro r
  have h0 : (0 : ℝ) < angleSq p := lt_trans (by norm_num [machEps]) h
  have h1 := isGrad_rotated (rotMain r) (join 6 x p)
    (fun j => by rw [rotPart_join]; exact rotMain_ok _ h0 r j)
  have hA : angleSq (paramsOf (join 6 x p)) = angleSq p := by
    simp only [angleSq]
    rw [paramsOf_join _ _ _ (by omega), paramsOf_join _ _ _ (by omega), paramsOf_join _ _ _ (by omega)]
  have h2 := HasFDerivAt.congr_of_eventuallyEq
      (f₁ := fun v : Fin (3 + 6) → ℝ => pose.fwd (pointOf v) (paramsOf v) r) h1 (by
    have hev := (continuousAt_const (y := machEps)).eventually_lt continuous_angleSq.continuousAt
      (x₀ := join 6 x p) (by rw [hA]; exact h)
    filter_upwards [hev] with v hv
    rw [pose_fwd_main _ _ hv]
    refine Finset.sum_congr rfl (fun j _ => ?_)
    rw [rotPart_paramsOf, xyzVec_eq])
  refine IsGrad.congr h2 (fun c => ?_)
  have hr : angleAxisToRotation (rotPart p) = rotMain := by
    unfold angleAxisToRotation
    exact if_neg (not_lt.2 (le_of_lt h))
  have hx : ∀ j : Fin 3, xyzVec (join 6 x p) j = (![x 0 - p 3, x 1 - p 4, x 2 - p 5] : Fin 3 → ℝ) j := by
    intro j
    rw [xyzVec_join]
    fin_cases j <;> simp
  simp only [pose, hr, rotPart_join, hx]

theorem pose_fwd_small (x : Fin 3 → ℝ) (p : Ptr) (h : angleSq p < machEps) (r : Fin 3) :
    pose.fwd x p r = ∑ j : Fin 3, (rotSmall j r).eval (rotPart p) * (x j - p (3 + j.val)) := by
  simp only [angleSq] at h
  have h' : ¬ (p 0 * p 0 + p 1 * p 1 + p 2 * p 2 > machEps) := not_lt.2 h.le
  simp only [pose, neg_mul_neg, if_neg h', Fin.sum_univ_three]
  have r0 : rotPart p 0 = p 0 := rfl
  have r1 : rotPart p 1 = p 1 := rfl
  have r2 : rotPart p 2 = p 2 := rfl
  fin_cases r <;> simp [rotSmall, skewExpr] <;> eval_simp <;> simp only [r0, r1, r2] <;> ring

theorem rotSmall_ok (w : Fin 3 → ℝ) (i j : Fin 3) : (rotSmall i j).Ok w := by
  fin_cases i <;> fin_cases j <;> simp [rotSmall, skewExpr] <;> eval_simp

theorem rotSmall_grad (w : Fin 3 → ℝ) (i j c : Fin 3) :
    (rotSmall j i).grad w c = -(rotSmall i j).grad w c := by
  fin_cases i <;> fin_cases j <;> simp [rotSmall, skewExpr] <;> eval_simp

/-- The true derivative of the pose stage for a tiny rotation. -/
theorem grad_pose_small (x : Fin 3 → ℝ) (p : Ptr) (h : angleSq p < machEps) (r : Fin 3) :
    IsGrad (fun v : Fin (3 + 6) → ℝ => pose.fwd (pointOf v) (paramsOf v) r)
      (fun c => if hc : c.val < 3 then pose.jac x p ⟨c.val, hc⟩ r.val
        else if c.val < 6 then -pose.jac x p r c.val
        else -pose.jac x p ⟨c.val - 6, by omega⟩ r.val) (join 6 x p) := by
  have h1 := isGrad_rotated (fun j => rotSmall j r) (join 6 x p) (fun j => rotSmall_ok _ _ _)
  have hA : angleSq (paramsOf (join 6 x p)) = angleSq p := by
    simp only [angleSq]
    rw [paramsOf_join _ _ _ (by omega), paramsOf_join _ _ _ (by omega), paramsOf_join _ _ _ (by omega)]
  have h2 := HasFDerivAt.congr_of_eventuallyEq
      (f₁ := fun v : Fin (3 + 6) → ℝ => pose.fwd (pointOf v) (paramsOf v) r) h1 (by
    have hev := continuous_angleSq.continuousAt.eventually_lt (continuousAt_const (y := machEps))
      (x₀ := join 6 x p) (by rw [hA]; exact h)
    filter_upwards [hev] with v hv
    rw [pose_fwd_small _ _ hv]
    refine Finset.sum_congr rfl (fun j _ => ?_)
    rw [rotPart_paramsOf, xyzVec_eq])
  refine IsGrad.congr h2 (fun c => ?_)
  have hr : angleAxisToRotation (rotPart p) = rotSmall := by
    unfold angleAxisToRotation
    exact if_pos h
  have hx : ∀ j : Fin 3, xyzVec (join 6 x p) j = (![x 0 - p 3, x 1 - p 4, x 2 - p 5] : Fin 3 → ℝ) j := by
    intro j
    rw [xyzVec_join]
    fin_cases j <;> simp
  simp only [pose, hr, rotPart_join, hx]
  by_cases h3 : c.val < 3
  · simp [h3]
  · by_cases h6 : c.val < 6
    · have h33 : c.val - 3 < 3 := by omega
      simp only [h3, h6, h33, dite_true, dite_false, if_true]
      rw [← Finset.sum_neg_distrib]
      refine Finset.sum_congr rfl (fun j _ => ?_)
      rw [rotSmall_grad]; ring
    · have h33 : ¬ c.val - 3 < 3 := by omega
      have h66 : c.val - 6 < 3 := by omega
      simp [h3, h6, h33, h66]

end Verif.Camera
