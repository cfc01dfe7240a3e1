import Verif.Props.CameraJacobian
import Verif.Props.CameraInverse
import Mathlib.Analysis.Calculus.Deriv.Pow
import Mathlib.Analysis.Calculus.Deriv.Polynomial

/-! C63: the derivatives used by the undistortion solvers; C41: what the solvers guarantee when they stop;
C64: the bearing of the centre of a dual camera. -/
set_option linter.unusedSectionVars false
set_option linter.unusedSimpArgs false
namespace Verif.Camera

/-! ### C63 -/

theorem deriv_poly4 (k1 k2 k3 k4 rd x : ℝ) :
    HasDerivAt (fun x => x * (1 + x * x * (k1 + x * x * (k2 + x * x * (k3 + x * x * k4)))) - rd)
      (1 + 3 * k1 * x ^ 2 + 5 * k2 * x ^ 4 + 7 * k3 * x ^ 6 + 9 * k4 * x ^ 8) x := by
  have h : (fun x : ℝ => x * (1 + x * x * (k1 + x * x * (k2 + x * x * (k3 + x * x * k4)))) - rd) =
      fun x => x + k1 * x ^ 3 + k2 * x ^ 5 + k3 * x ^ 7 + k4 * x ^ 9 - rd := by funext x; ring
  rw [h]
  have h1 := ((((hasDerivAt_id x).add ((hasDerivAt_pow 3 x).const_mul k1)).add
    ((hasDerivAt_pow 5 x).const_mul k2)).add ((hasDerivAt_pow 7 x).const_mul k3)).add
    ((hasDerivAt_pow 9 x).const_mul k4) |>.sub_const rd
  refine h1.congr_deriv ?_
  norm_num
  ring

/-- C63. Fisheye OpenCV (Disto2468): the derivative given to the solver is the derivative of the distorted
radius. -/
theorem C63_disto2468 (k1 k2 k3 k4 rd x : ℝ) :
    HasDerivAt (fun x => x * disto2468Dist k1 k2 k3 k4 (x * x) - rd)
      (disto2468Deriv k1 k2 k3 k4 (x * x)) x := by
  refine (deriv_poly4 k1 k2 k3 k4 rd x).congr_deriv ?_
  simp only [disto2468Deriv]; ring

/-- C63. Perspective, fisheye, dual and radial (Disto24): it is not, unless the distortion vanishes at
that radius: the factors 3 and 5 are 2 and 4. -/
theorem C63_disto24 (k1 k2 rd x : ℝ) :
    HasDerivAt (fun x => x * disto24Dist k1 k2 (x * x) - rd) (disto24Deriv k1 k2 (x * x)) x ↔
      x = 0 ∨ k1 + k2 * x ^ 2 = 0 := by
  have h0 : HasDerivAt (fun x => x * disto24Dist k1 k2 (x * x) - rd)
      (1 + 3 * k1 * x ^ 2 + 5 * k2 * x ^ 4) x := by
    have := deriv_poly4 k1 k2 0 0 rd x
    have e : (fun x => x * disto24Dist k1 k2 (x * x) - rd) =
        fun x => x * (1 + x * x * (k1 + x * x * (k2 + x * x * (0 + x * x * 0)))) - rd := by
      funext x; simp only [disto24Dist]; ring
    rw [e]
    exact this.congr_deriv (by ring)
  have e : disto24Deriv k1 k2 (x * x) = 1 + 2 * k1 * x ^ 2 + 4 * k2 * x ^ 4 := by
    simp only [disto24Deriv]; ring
  rw [e]
  constructor
  · intro h
    have := h.unique h0
    have h2 : x ^ 2 * (k1 + k2 * x ^ 2) = 0 := by linarith
    rcases mul_eq_zero.1 h2 with h3 | h3
    · exact Or.inl (pow_eq_zero_iff (by norm_num) |>.1 h3)
    · exact Or.inr h3
  · intro h
    refine h0.congr_deriv ?_
    have : x ^ 2 * (k1 + k2 * x ^ 2) = 0 := by
      rcases h with rfl | h
      · norm_num
      · rw [h, mul_zero]
    linarith

/-- C63. Simple radial (Disto2): the same. -/
theorem C63_disto2 (k1 rd x : ℝ) :
    HasDerivAt (fun x => x * disto2Dist k1 (x * x) - rd) (disto2Deriv k1 (x * x)) x ↔
      x = 0 ∨ k1 = 0 := by
  have := C63_disto24 k1 0 rd x
  have e1 : (fun x => x * disto24Dist k1 0 (x * x) - rd) = fun x => x * disto2Dist k1 (x * x) - rd := by
    funext x; simp only [disto24Dist, disto2Dist]; ring
  have e2 : disto24Deriv k1 0 (x * x) = disto2Deriv k1 (x * x) := by
    simp only [disto24Deriv, disto2Deriv]; ring
  rw [e1, e2] at this
  simpa using this

/-- `M` is the matrix of partial derivatives of `f` at `q`. -/
def IsJacobian (f : (Fin 2 → ℝ) → Fin 2 → ℝ) (M : Matrix (Fin 2) (Fin 2) ℝ) (q : Fin 2 → ℝ) : Prop :=
  ∀ i, IsGrad (fun v => f v i) (M i) q

theorem point_jac {P : ℕ} {F : Functor 2 P 2} (hl : F.Local) {q : Fin 2 → ℝ} {k : Ptr}
    (h : F.JacobianAt q k) (p : Fin 2 → ℝ) :
    IsJacobian (fun v => F.fwd v k - p) (Matrix.of fun i j => F.jac q k i j.val) q := by
  intro i
  have := point_of_jacobian hl h 1 (p i) i (fun v => (F.fwd v k - p) i) (by intro v; simp)
  refine IsGrad.congr this (fun j => ?_)
  simp

/-- C63. Brown and Fisheye62: the matrix given to the solver is the jacobian of the distorted point. -/
theorem C63_tangential (k : Ptr) (p q : Fin 2 → ℝ) :
    IsJacobian (fun v => brown.fwd v k - p) (newtonMatrix (fun v => brown.jac v k) q) q ∧
    IsJacobian (fun v => disto62.fwd v k - p) (newtonMatrix (fun v => disto62.jac v k) q) q := by
  constructor
  · have := point_jac local_brown (jac_brown q k) p
    convert this using 1
    ext i j
    fin_cases i <;> fin_cases j <;> simp [newtonMatrix, brown, brownJac, row] <;> ring
  · have := point_jac local_disto62 (jac_disto62 q k) p
    convert this using 1
    ext i j
    fin_cases i <;> fin_cases j <;> simp [newtonMatrix, disto62, disto62Jac, row] <;> ring

/-- C63. Fisheye624: because of the thin prism terms the jacobian is not symmetric and the matrix given
to the solver, its transpose, is the jacobian only where the two mixed terms agree. -/
theorem C63_thin_prism (k : Ptr) (p q : Fin 2 → ℝ) :
    IsJacobian (fun v => disto624.fwd v k - p) (newtonMatrix (fun v => disto624.jac v k) q) q ↔
      q 1 * (k 8 + 2 * k 9 * (q 0 ^ 2 + q 1 ^ 2)) = q 0 * (k 10 + 2 * k 11 * (q 0 ^ 2 + q 1 ^ 2)) := by
  have h := point_jac local_disto624 (jac_disto624 q k) p
  constructor
  · intro h'
    have e := congrFun (IsGrad.unique (h' 0) (h 0)) 1
    simp [newtonMatrix, disto624, disto624Jac, row] at e
    linarith
  · intro e
    convert h using 1
    ext i j
    fin_cases i <;> fin_cases j <;> simp [newtonMatrix, disto624, disto624Jac, row] <;> linarith

/-- The factors are really different: k1 = 1, radius 1. -/
example : ¬ HasDerivAt (fun x : ℝ => x * disto24Dist 1 0 (x * x) - 2) (disto24Deriv 1 0 (1 * 1)) 1 := by
  rw [C63_disto24]; norm_num

/-! ### What the solver guarantees when it stops -/

/-- The undamped Newton iterates. -/
noncomputable def iterate2 (f : (Fin 2 → ℝ) → (Fin 2 → ℝ))
    (d : (Fin 2 → ℝ) → Matrix (Fin 2) (Fin 2) ℝ) : ℕ → (Fin 2 → ℝ) → (Fin 2 → ℝ)
  | 0, x => x
  | n + 1, x => iterate2 f d n (x - solveDecr2 (d x) (f x))

/-- The solver stops on its tolerance within `n` iterations. -/
def Converges2 (f : (Fin 2 → ℝ) → (Fin 2 → ℝ)) (d : (Fin 2 → ℝ) → Matrix (Fin 2) (Fin 2) ℝ)
    (tol : ℝ) (n : ℕ) (x : Fin 2 → ℝ) : Prop :=
  ∃ k < n, radius (solveDecr2 (d (iterate2 f d k x)) (f (iterate2 f d k x))) < tol

theorem newton2_stops {f : (Fin 2 → ℝ) → (Fin 2 → ℝ)} {d : (Fin 2 → ℝ) → Matrix (Fin 2) (Fin 2) ℝ}
    {tol : ℝ} : ∀ {n : ℕ} {x : Fin 2 → ℝ}, Converges2 f d tol n x →
      radius (solveDecr2 (d (newton2 f d tol n x)) (f (newton2 f d tol n x))) < tol := by
  intro n
  induction n with
  | zero => rintro x ⟨k, hk, _⟩; omega
  | succ n ih =>
    rintro x ⟨k, hk, h⟩
    by_cases hs : Real.sqrt (sqNorm (solveDecr2 (d x) (f x))) < tol
    · have : newton2 f d tol (n + 1) x = x := by simp only [newton2, if_pos hs]
      rw [this]; exact hs
    · have e : newton2 f d tol (n + 1) x = newton2 f d tol n (x - solveDecr2 (d x) (f x)) := by
        simp only [newton2, if_neg hs]
      rw [e]
      apply ih
      cases k with
      | zero => exact absurd h hs
      | succ k => exact ⟨k, by omega, h⟩

theorem solve_spec {d : Matrix (Fin 2) (Fin 2) ℝ} (hd : d.det ≠ 0) (f : Fin 2 → ℝ) :
    d.mulVec (solveDecr2 d f) = f := by
  have hu : IsUnit d.det := hd.isUnit
  have hut : IsUnit d.transpose.det := by rwa [Matrix.det_transpose]
  rw [solveDecr2, Matrix.mulVec_mulVec, Matrix.mul_inv_rev, Matrix.mul_assoc, Matrix.nonsing_inv_mul _ hut,
    Matrix.mul_one, Matrix.mul_nonsing_inv _ hu, Matrix.one_mulVec]

/-- Size of a 2x2 matrix (Frobenius norm). -/
noncomputable def frob (M : Matrix (Fin 2) (Fin 2) ℝ) : ℝ :=
  Real.sqrt (M 0 0 ^ 2 + M 0 1 ^ 2 + M 1 0 ^ 2 + M 1 1 ^ 2)

theorem radius_mulVec_le (M : Matrix (Fin 2) (Fin 2) ℝ) (v : Fin 2 → ℝ) :
    radius (M.mulVec v) ≤ frob M * radius v := by
  unfold radius frob
  rw [← Real.sqrt_mul (by positivity)]
  apply Real.sqrt_le_sqrt
  simp only [Matrix.mulVec, dotProduct, Fin.sum_univ_two]
  nlinarith [sq_nonneg (M 0 0 * v 1 - M 0 1 * v 0), sq_nonneg (M 1 0 * v 1 - M 1 1 * v 0)]

/-- When the solver of the undistortion stops on its tolerance within its ten iterations, at a point
where its matrix is invertible, then distorting the undistorted point gives the point back up to 1e-6
times the size of the matrix. -/
def UndistortBound {P : ℕ} (F : Functor 2 P 2) (k : Ptr) (p : Fin 2 → ℝ) : Prop :=
  Converges2 (fun v => F.fwd v k - p) (newtonMatrix (fun v => F.jac v k)) (1 / 10 ^ 6) 10 p →
  (newtonMatrix (fun v => F.jac v k) (F.bwd p k)).det ≠ 0 →
  radius (F.fwd (F.bwd p k) k - p) ≤
    frob (newtonMatrix (fun v => F.jac v k) (F.bwd p k)) * (1 / 10 ^ 6)

theorem undistortBound_of {P : ℕ} (F : Functor 2 P 2) (k : Ptr) (p : Fin 2 → ℝ)
    (hb : F.bwd p k = newton2 (fun v => F.fwd v k - p) (newtonMatrix (fun v => F.jac v k))
      (1 / 10 ^ 6) 10 p) : UndistortBound F k p := by
  intro hs hd
  have h1 := newton2_stops hs
  rw [← hb] at h1
  have h2 := solve_spec hd (F.fwd (F.bwd p k) k - p)
  have h3 := radius_mulVec_le (newtonMatrix (fun v => F.jac v k) (F.bwd p k))
    (solveDecr2 (newtonMatrix (fun v => F.jac v k) (F.bwd p k)) (F.fwd (F.bwd p k) k - p))
  rw [h2] at h3
  refine le_trans h3 (mul_le_mul_of_nonneg_left h1.le (Real.sqrt_nonneg _))

/-- C41. Distortions with tangential terms. -/
theorem C41_undistort_error (k : Ptr) (p : Fin 2 → ℝ) (hp : 1 / 2 ^ 52 ≤ radius p) :
    UndistortBound brown k p ∧ UndistortBound disto62 k p ∧ UndistortBound disto624 k p := by
  have hm : ¬ Real.sqrt (sqNorm p) < machEps := by
    refine not_lt.2 (le_trans (le_of_eq ?_) hp); norm_num [machEps]
  have ht : newtonTol = 1 / 10 ^ 6 := by norm_num [newtonTol]
  refine ⟨undistortBound_of _ _ _ ?_, undistortBound_of _ _ _ ?_, undistortBound_of _ _ _ ?_⟩
  · simp only [brown, newtonBackward, if_neg hm, ht]
  · simp only [disto62, newtonBackward, if_neg hm, ht]
  · simp only [disto624, newtonBackward, if_neg hm, ht]

/-- The one-dimensional iterates (derivative independent of the step). -/
noncomputable def iterate1 (f d : ℝ → ℝ) : ℕ → ℝ → ℝ
  | 0, x => x
  | n + 1, x => iterate1 f d n (x - f x / d x)

theorem newton1_stops {f d : ℝ → ℝ} {tol : ℝ} : ∀ {n i : ℕ} {x : ℝ},
    (∃ k < n, |f (iterate1 f d k x) / d (iterate1 f d k x)| < tol) →
      |f (newton1 f (fun _ => d) tol i n x) / d (newton1 f (fun _ => d) tol i n x)| < tol := by
  intro n
  induction n with
  | zero => rintro i x ⟨k, hk, _⟩; omega
  | succ n ih =>
    rintro i x ⟨k, hk, h⟩
    by_cases hs : |f x / d x| < tol
    · have : newton1 f (fun _ => d) tol i (n + 1) x = x := by simp only [newton1, if_pos hs]
      rw [this]; exact hs
    · have e : newton1 f (fun _ => d) tol i (n + 1) x =
          newton1 f (fun _ => d) tol (i + 1) n (x - f x / d x) := by
        simp only [newton1, if_neg hs]
      rw [e]
      apply ih
      cases k with
      | zero => exact absurd h hs
      | succ k => exact ⟨k, by omega, h⟩

/-- C41. Radial distortions: when the solver stops on its tolerance within its ten iterations, the radius
`ru` it found solves the distortion equation up to 1e-6 times its derivative, and the undistorted point
is the point scaled to that radius: its radius times the distortion factor at `ru` is the radius of the
point. `dist`, `deriv` are those of Disto2, Disto24 or Disto2468. -/
theorem C41_radial_error (dist deriv : ℝ → ℝ) (p : Fin 2 → ℝ) (hp : 1 / 2 ^ 52 ≤ radius p)
    (hs : ∃ n < 10,
      let x := iterate1 (fun x => x * dist (x * x) - radius p) (fun x => deriv (x * x)) n (radius p)
      |(x * dist (x * x) - radius p) / deriv (x * x)| < 1 / 10 ^ 6) :
    ∃ ru, (deriv (ru * ru) ≠ 0 → |ru * dist (ru * ru) - radius p| ≤ |deriv (ru * ru)| * (1 / 10 ^ 6)) ∧
      ∀ i, radialBackward dist deriv p i = p i / dist (ru * ru) := by
  have hm : ¬ Real.sqrt (sqNorm p) < machEps := by
    refine not_lt.2 (le_trans (le_of_eq ?_) hp); norm_num [machEps]
  have ht : newtonTol = 1 / 10 ^ 6 := by norm_num [newtonTol]
  refine ⟨radialRoot dist deriv (radius p), fun hd => ?_, fun i => ?_⟩
  · have h1 := newton1_stops (f := fun x => x * dist (x * x) - radius p)
      (d := fun x => deriv (x * x)) (i := 0) hs
    rw [← ht] at h1
    change |(radialRoot dist deriv (radius p) *
      dist (radialRoot dist deriv (radius p) * radialRoot dist deriv (radius p)) - radius p) /
      deriv (radialRoot dist deriv (radius p) * radialRoot dist deriv (radius p))| < newtonTol at h1
    rw [ht, abs_div, div_lt_iff₀ (abs_pos.2 hd)] at h1
    linarith
  · simp only [radialBackward, if_neg hm]
    fin_cases i <;> rfl

theorem disto24_bwd (p : Fin 2 → ℝ) (k : Ptr) :
    disto24.bwd p k = radialBackward (disto24Dist (k 0) (k 1)) (disto24Deriv (k 0) (k 1)) p := rfl

/-- C41. The equation that the dual camera's solver works on is the right one: the angle between the
optical axis and a direction in front of the camera is a zero of it, for the radius at which the
camera projects that direction. -/
theorem C41_dual_equation (q : Fin 3 → ℝ) (tr : ℝ) (h0 : 0 ≤ tr) (h1 : tr ≤ 1) (hz : 0 < q 2)
    (hr : tiny ≤ Real.sqrt (sqNorm q)) :
    thetaEval (radius (dual.fwd q (fun _ => tr))) tr (atan2 (Real.sqrt (sqNorm q)) (q 2)) = 0 := by
  have ht : ¬ Real.sqrt (sqNorm q) < tiny := not_lt.2 hr
  have hrp : 0 < Real.sqrt (sqNorm q) := lt_of_lt_of_le (by norm_num [tiny]) hr
  set r := Real.sqrt (sqNorm q) with hrd
  have hsq : q 0 * q 0 + q 1 * q 1 = r * r := by
    rw [hrd, Real.mul_self_sqrt]
    · rfl
    · unfold sqNorm; nlinarith [mul_self_nonneg (q 0), mul_self_nonneg (q 1)]
  have hθ0 : 0 ≤ atan2 r (q 2) := by
    unfold atan2; exact Complex.arg_nonneg_iff.2 hrp.le
  have htan : Real.tan (atan2 r (q 2)) = r / q 2 := by
    unfold atan2; rw [Complex.tan_arg]
  set θ := atan2 r (q 2) with hθ
  have hk : 0 ≤ tr / q 2 + (1 - tr) * θ / r := by
    have := sub_nonneg.2 h1
    positivity
  have e : radius (dual.fwd q (fun _ => tr)) = (tr / q 2 + (1 - tr) * θ / r) * r := by
    have e2 : sqNorm (dual.fwd q (fun _ => tr)) =
        ((tr / q 2 + (1 - tr) * θ / r) * r) * ((tr / q 2 + (1 - tr) * θ / r) * r) := by
      have : sqNorm (dual.fwd q (fun _ => tr)) =
          (tr / q 2 + (1 - tr) * θ / r) * (tr / q 2 + (1 - tr) * θ / r) *
            (q 0 * q 0 + q 1 * q 1) := by
        have f : ∀ k, fisheye.fwd q k = ![θ / r * q 0, θ / r * q 1] := by
          intro k
          simp only [fisheye, ← hrd, if_neg ht, ← hθ]
        have g : dual.fwd q (fun _ => tr) = ![tr * (q 0 / q 2) + (1 - tr) * (θ / r * q 0),
            tr * (q 1 / q 2) + (1 - tr) * (θ / r * q 1)] := by
          funext i
          fin_cases i <;> simp [dual, perspective, f]
        rw [g]
        simp only [sqNorm, Matrix.cons_val_zero, Matrix.cons_val_one]
        ring
      rw [this, hsq]; ring
    show Real.sqrt (sqNorm (dual.fwd q (fun _ => tr))) = _
    rw [e2, Real.sqrt_mul_self (mul_nonneg hk hrp.le)]
  rw [thetaEval, e, htan]
  field_simp
  ring

/-- C63. The derivative the dual camera's solver uses is that of its equation (from the second step
on; the first step is halved on purpose). -/
theorem C63_dual_derivative (r tr x : ℝ) (hx : Real.cos x ≠ 0) (i : ℕ) (hi : i ≠ 0) :
    HasDerivAt (thetaEval r tr) (thetaDeriv tr i x) x := by
  have h1 := ((Real.hasDerivAt_tan hx).const_mul tr).add ((hasDerivAt_id x).const_mul (1 - tr))
  have h2 := h1.sub_const r
  refine (h2.congr_deriv ?_).congr_of_eventuallyEq (Filter.Eventually.of_forall fun y => ?_)
  · simp only [thetaDeriv, if_neg hi]; field_simp
    ring
  · simp [thetaEval]

example : thetaEval (radius (dual.fwd ![3, 4, 12] (fun _ => 1 / 2))) (1 / 2)
    (atan2 (Real.sqrt (sqNorm (![3, 4, 12] : Fin 3 → ℝ))) 12) = 0 :=
  C41_dual_equation ![3, 4, 12] (1 / 2) (by norm_num) (by norm_num) (by simp) (by
    rw [Real.le_sqrt' (by norm_num [tiny])]; norm_num [tiny, sqNorm])

/-! ### C64 -/

/-- C64. A dual camera: for every undistorted point within 2e-6 of the centre the solver returns the angle
0, and the scale of the bearing is computed as 0 / 0. -/
theorem C64_dual_center (q : Fin 2 → ℝ) (tr : ℝ) (h : radius q < 2 / 10 ^ 6) :
    dualTheta (radius q) tr = 0 ∧ dualDenom (radius q) tr = 0 ∧
      Real.tan (dualTheta (radius q) tr) = 0 := by
  have h0 : dualTheta (radius q) tr = 0 := by
    have hs : |thetaEval (radius q) tr 0 / thetaDeriv tr 0 0| < newtonTol := by
      have e1 : thetaEval (radius q) tr 0 = -radius q := by simp [thetaEval]
      have e2 : thetaDeriv tr 0 0 = 2 := by simp [thetaDeriv]
      rw [e1, e2, abs_div, abs_neg, abs_of_nonneg (radius_nonneg q)]
      norm_num [newtonTol] at h ⊢
      linarith
    show newton1 (thetaEval (radius q) tr) (thetaDeriv tr) newtonTol 0 5 0 = 0
    simp only [newton1, if_pos hs]
  refine ⟨h0, ?_, by rw [h0, Real.tan_zero]⟩
  simp [dualDenom, h0]

/-- The centre of the image itself. -/
example : dualDenom (radius (undistortion .dual (fun i => if i = 0 then 1 / 2 else if i = 3 then 1 else 0)
    (planar .dual (fun i => if i = 0 then 1 / 2 else if i = 3 then 1 else 0) ![0, 0]))) (1 / 2) = 0 := by
  refine (C64_dual_center _ _ ?_).2.1
  rw [(C41_no_distortion .dual _ (by simp [NoDistortion]) _).1]
  simp [planar, radius, ProjType.hasAspect]

/-! ### Non-vacuity of C41 -/

/-- The hypotheses of `UndistortBound` hold without distortion: the solver starts on the solution. -/
example : Converges2 (fun v => brown.fwd v (fun _ => 0) - ![1, 2])
      (newtonMatrix (fun v => brown.jac v (fun _ => 0))) (1 / 10 ^ 6) 10 ![1, 2] ∧
    (newtonMatrix (fun v => brown.jac v (fun _ => 0)) (brown.bwd ![1, 2] (fun _ => 0))).det ≠ 0 := by
  constructor
  · refine ⟨0, by norm_num, ?_⟩
    have : brown.fwd ![1, 2] (fun _ => 0) - ![1, 2] = 0 := by
      funext i; fin_cases i <;> simp [brown, brownFwd, radial3, tangential]
    simp only [iterate2, this, solveDecr2, Matrix.mulVec_zero]
    norm_num [radius]
  · simp [newtonMatrix, brown, brownJac, Matrix.det_fin_two, row]

/-- Those of `C41_radial_error`: a small coefficient. -/
example : ∃ n < 10,
    let x := iterate1 (fun x => x * disto2Dist (1 / 10 ^ 7) (x * x) - 1)
      (fun x => disto2Deriv (1 / 10 ^ 7) (x * x)) n 1
    |(x * disto2Dist (1 / 10 ^ 7) (x * x) - 1) / disto2Deriv (1 / 10 ^ 7) (x * x)| < (1 / 10 ^ 6 : ℝ) :=
  ⟨0, by norm_num, by norm_num [iterate1, disto2Dist, disto2Deriv]⟩

/-- A Brown camera without distortion: focal 1/2, aspect 2, principal point (1/10, 1/5). -/
noncomputable def sampleBrown : Ptr :=
  fun i => if i = 5 then 1 / 2 else if i = 6 then 2 else if i = 7 then 1 / 10 else if i = 8 then 1 / 5 else 0

example (p : Fin 2 → ℝ) : project .brown sampleBrown (bearing .brown sampleBrown p) = p := by
  refine C41_project_bearing_undistorted .brown sampleBrown p (fun _ => ?_) ?_ trivial
  · norm_num [sampleBrown, ProjType.focalIdx]
  · intro i hi
    have : i < 5 := hi
    interval_cases i <;> simp [sampleBrown]

/-- A fisheye of focal 1/2 seen 1 radian from the axis. -/
example : project .fisheye (fun i => if i = 2 then 1 / 2 else 0)
    (bearing .fisheye (fun i => if i = 2 then 1 / 2 else 0) ![1 / 2, 0]) = ![1 / 2, 0] := by
  refine C41_project_bearing_undistorted .fisheye _ _ (fun _ => ?_) ?_ ?_
  · simp [ProjType.focalIdx, ProjType.hasAspect]
  · intro i hi
    have : i < 2 := hi
    interval_cases i <;> simp
  · have e : planar .fisheye (fun i => if i = 2 then 1 / 2 else 0) ![1 / 2, 0] = ![1, 0] := by
      simp [planar, ProjType.hasAspect, ProjType.focalIdx]
    simp only [Visible]
    rw [e]
    right
    have hr : radius ![1, 0] = 1 := by simp [radius]
    rw [hr]
    have h1 := Real.sin_gt_sub_cube (x := 1) (by norm_num)
    refine ⟨?_, by linarith [Real.two_le_pi]⟩
    norm_num at h1 ⊢
    linarith

example : project .spherical (fun _ => 0) (bearing .spherical (fun _ => 0) ![1 / 3, -(1 / 8)]) =
    ![1 / 3, -(1 / 8)] := by
  refine C41_project_bearing_undistorted .spherical _ _ (fun h => absurd rfl h) ?_ ?_
  · intro i hi; simp [ProjType.focalIdx] at hi
  · simp only [Visible, planar]
    norm_num

end Verif.Camera
