import Verif.Model.Geo
import Mathlib.Analysis.SpecialFunctions.Trigonometric.Deriv
import Mathlib.Analysis.InnerProductSpace.PiL2
import Mathlib.Tactic.LinearCombination
import Mathlib.Tactic.FinCases

/-!
# C43: geographic conversions
-/
set_option linter.unusedSectionVars false
set_option linter.unusedSimpArgs false
namespace Verif.Geo

/-! ## Specification -/

/-- Squared Euclidean distance. -/
def sqDist (u v : Fin 3 → ℝ) : ℝ := (u 0 - v 0) ^ 2 + (u 1 - v 1) ^ 2 + (u 2 - v 2) ^ 2

/-- The axes of the topocentric frame, as columns. -/
noncomputable def frame (lat lon alt : ℝ) : Matrix (Fin 3) (Fin 3) ℝ :=
  Matrix.of fun i j => topoTransform lat lon alt i.castSucc j.castSucc

/-- A curve moves in direction `d` at time `t`: its derivative there is a positive multiple of `d`. -/
def Heads (c : ℝ → Fin 3 → ℝ) (t : ℝ) (d : Fin 3 → ℝ) : Prop :=
  ∃ k : ℝ, 0 < k ∧ ∀ i, HasDerivAt (fun s => c s i) (k * d i) t

/-! ## The ellipsoid -/

/-- The square of the denominator of `L`. -/
noncomputable def den (lat : ℝ) : ℝ := wgsA ^ 2 * Real.cos lat ^ 2 + wgsB ^ 2 * Real.sin lat ^ 2

theorem wgsA_pos : 0 < wgsA := by unfold wgsA; norm_num
theorem wgsB_pos : 0 < wgsB := by unfold wgsB; norm_num
theorem wgsB_lt : wgsB < wgsA := by unfold wgsA wgsB; norm_num

theorem den_pos (lat : ℝ) : 0 < den lat := by
  unfold den
  have h := Real.sin_sq_add_cos_sq lat
  have ha : 0 < wgsA ^ 2 := by have := wgsA_pos; positivity
  have hb : 0 < wgsB ^ 2 := by have := wgsB_pos; positivity
  have hab : wgsB ^ 2 ≤ wgsA ^ 2 := pow_le_pow_left₀ wgsB_pos.le wgsB_lt.le 2
  nlinarith [sq_nonneg (Real.sin lat), sq_nonneg (Real.cos lat)]

theorem den_le (lat : ℝ) : den lat ≤ wgsA ^ 2 := by
  unfold den
  have h := Real.sin_sq_add_cos_sq lat
  have hab : wgsB ^ 2 ≤ wgsA ^ 2 := pow_le_pow_left₀ wgsB_pos.le wgsB_lt.le 2
  nlinarith [sq_nonneg (Real.sin lat), sq_nonneg (Real.cos lat)]

theorem ecefL_eq (lat : ℝ) : ecefL lat = 1 / Real.sqrt (den lat) := rfl

theorem ecefL_pos (lat : ℝ) : 0 < ecefL lat := by
  rw [ecefL_eq]; exact one_div_pos.2 (Real.sqrt_pos.2 (den_pos lat))

theorem ecefL_sq (lat : ℝ) : ecefL lat ^ 2 * den lat = 1 := by
  rw [ecefL_eq, div_pow, one_pow, Real.sq_sqrt (den_pos lat).le]
  exact one_div_mul_cancel (den_pos lat).ne'

/-- The distance to the axis is at least the equatorial radius times the cosine. -/
theorem N_ge (lat : ℝ) : wgsA ≤ wgsA ^ 2 * ecefL lat := by
  have h1 : Real.sqrt (den lat) ≤ wgsA := by
    rw [Real.sqrt_le_left wgsA_pos.le]; exact den_le lat
  have h2 : 0 < Real.sqrt (den lat) := Real.sqrt_pos.2 (den_pos lat)
  rw [ecefL_eq, mul_one_div, le_div_iff₀ h2, sq]
  exact mul_le_mul_of_nonneg_left h1 wgsA_pos.le

theorem ea_sq : ea ^ 2 = (wgsA ^ 2 - wgsB ^ 2) / wgsA ^ 2 := by
  unfold ea
  rw [Real.sq_sqrt]
  have hab : wgsB ^ 2 ≤ wgsA ^ 2 := pow_le_pow_left₀ wgsB_pos.le wgsB_lt.le 2
  exact div_nonneg (by linarith) (sq_nonneg _)

theorem eb_sq : eb ^ 2 = (wgsA ^ 2 - wgsB ^ 2) / wgsB ^ 2 := by
  unfold eb
  rw [Real.sq_sqrt]
  have hab : wgsB ^ 2 ≤ wgsA ^ 2 := pow_le_pow_left₀ wgsB_pos.le wgsB_lt.le 2
  exact div_nonneg (by linarith) (sq_nonneg _)

theorem N_eq (lat : ℝ) :
    wgsA / Real.sqrt (1 - ea ^ 2 * Real.sin lat ^ 2) = wgsA ^ 2 * ecefL lat := by
  have ha := wgsA_pos
  have h : 1 - ea ^ 2 * Real.sin lat ^ 2 = den lat / wgsA ^ 2 := by
    rw [ea_sq]; unfold den
    have := Real.sin_sq_add_cos_sq lat
    field_simp
    linear_combination -(wgsA ^ 2) * this
  rw [h, Real.sqrt_div (den_pos lat).le, Real.sqrt_sq ha.le, ecefL_eq]
  have : 0 < Real.sqrt (den lat) := Real.sqrt_pos.2 (den_pos lat)
  field_simp

/-! ## arctan2 -/

theorem arctan2_mul_cos_sin {k t : ℝ} (hk : 0 < k) (h1 : -Real.pi < t) (h2 : t ≤ Real.pi) :
    arctan2 (k * Real.sin t) (k * Real.cos t) = t := by
  unfold arctan2
  have : (⟨k * Real.cos t, k * Real.sin t⟩ : ℂ) = (k : ℂ) * (Complex.cos t + Complex.sin t * Complex.I) := by
    apply Complex.ext <;> simp [Complex.cos_ofReal_re, Complex.sin_ofReal_re]
  rw [this, Complex.arg_mul_cos_add_sin_mul_I hk ⟨h1, h2⟩]

theorem norm_mk (x y : ℝ) : ‖(⟨x, y⟩ : ℂ)‖ = Real.sqrt (x ^ 2 + y ^ 2) := by
  rw [Complex.norm_def, Complex.normSq_mk, sq, sq]

theorem cos_arctan2 (x y : ℝ) : Real.sqrt (x ^ 2 + y ^ 2) * Real.cos (arctan2 y x) = x := by
  have := Complex.norm_mul_cos_arg (⟨x, y⟩ : ℂ)
  rwa [norm_mk] at this

theorem sin_arctan2 (x y : ℝ) : Real.sqrt (x ^ 2 + y ^ 2) * Real.sin (arctan2 y x) = y := by
  have := Complex.norm_mul_sin_arg (⟨x, y⟩ : ℂ)
  rwa [norm_mk] at this

theorem degrees_radians (d : ℝ) : degrees (radians d) = d := by
  unfold degrees radians
  have := Real.pi_ne_zero
  field_simp

theorem radians_degrees (d : ℝ) : radians (degrees d) = d := by
  unfold degrees radians
  have := Real.pi_ne_zero
  field_simp

theorem cos_radians_pos {lat : ℝ} (h1 : -90 < lat) (h2 : lat < 90) : 0 < Real.cos (radians lat) := by
  have hpi := Real.pi_pos
  apply Real.cos_pos_of_mem_Ioo
  unfold radians
  constructor <;> nlinarith

theorem radians_range {lon : ℝ} (h1 : -180 < lon) (h2 : lon ≤ 180) :
    -Real.pi < radians lon ∧ radians lon ≤ Real.pi := by
  have hpi := Real.pi_pos
  unfold radians
  constructor <;> nlinarith

/-! ## The topocentric frame -/

/-- The inverse of the transform. -/
theorem topo_inv (lat lon alt : ℝ) :
    (topoTransform lat lon alt)⁻¹ =
      let q := ecefFromLla lat lon alt
      let sa := Real.sin (radians lat)
      let ca := Real.cos (radians lat)
      let so := Real.sin (radians lon)
      let co := Real.cos (radians lon)
      !![-so, co, 0, so * q 0 - co * q 1;
         -sa * co, -sa * so, ca, sa * co * q 0 + sa * so * q 1 - ca * q 2;
         ca * co, ca * so, sa, -(ca * co * q 0) - ca * so * q 1 - sa * q 2;
         0, 0, 0, 1] := by
  apply Matrix.inv_eq_left_inv
  have h1 := Real.sin_sq_add_cos_sq (radians lat)
  have h2 := Real.sin_sq_add_cos_sq (radians lon)
  unfold topoTransform
  simp only
  generalize ecefFromLla lat lon alt = q
  generalize Real.sin (radians lat) = sa at *
  generalize Real.cos (radians lat) = ca at *
  generalize Real.sin (radians lon) = so at *
  generalize Real.cos (radians lon) = co at *
  ext i j
  fin_cases i <;> fin_cases j <;>
    simp [Matrix.mul_apply, Fin.sum_univ_four] <;>
    first
    | done
    | ring1
    | linear_combination h2
    | linear_combination h1 + sa ^ 2 * h2
    | linear_combination h1 + ca ^ 2 * h2
    | linear_combination (-(sa * ca)) * h2
    | linear_combination (sa * ca) * h2

/-- **C43.** Converting a position to the topocentric frame of any reference, and the result back,
gives the ECEF coordinates of the position; conversely every topocentric point is recovered from
its ECEF coordinates. -/
theorem C43_roundtrip (p ref : Lla) (q : Fin 3 → ℝ) :
    ecefFromTopocentric (topocentricFromLla p ref) ref = ecefFromLla p.lat p.lon p.alt ∧
    applyTransform (topoTransform ref.lat ref.lon ref.alt)⁻¹ (ecefFromTopocentric q ref) = q := by
  unfold ecefFromTopocentric topocentricFromLla
  rw [topo_inv]
  have h1 := Real.sin_sq_add_cos_sq (radians ref.lat)
  have h2 := Real.sin_sq_add_cos_sq (radians ref.lon)
  unfold topoTransform applyTransform
  simp only
  generalize ecefFromLla ref.lat ref.lon ref.alt = t
  generalize ecefFromLla p.lat p.lon p.alt = e
  generalize Real.sin (radians ref.lat) = sa at *
  generalize Real.cos (radians ref.lat) = ca at *
  generalize Real.sin (radians ref.lon) = so at *
  generalize Real.cos (radians ref.lon) = co at *
  have hs : so ^ 2 = 1 - co ^ 2 := by linarith
  have ha : sa ^ 2 = 1 - ca ^ 2 := by linarith
  constructor <;> ext i <;> fin_cases i <;> simp [Matrix.vecHead, Matrix.vecTail] <;> ring_nf <;>
    simp only [hs, ha] <;> ring

/-- The reference position is the origin of its topocentric frame. -/
theorem C43_origin (ref : Lla) : topocentricFromLla ref ref = 0 := by
  unfold topocentricFromLla
  rw [topo_inv]
  have h1 := Real.sin_sq_add_cos_sq (radians ref.lat)
  have h2 := Real.sin_sq_add_cos_sq (radians ref.lon)
  unfold applyTransform
  simp only
  generalize ecefFromLla ref.lat ref.lon ref.alt = t
  ext i; fin_cases i <;> simp [Matrix.vecHead, Matrix.vecTail] <;> ring

/-- The conversion preserves distances. -/
theorem C43_distance (p q ref : Lla) :
    sqDist (topocentricFromLla p ref) (topocentricFromLla q ref) =
      sqDist (ecefFromLla p.lat p.lon p.alt) (ecefFromLla q.lat q.lon q.alt) := by
  unfold topocentricFromLla
  rw [topo_inv]
  have h1 := Real.sin_sq_add_cos_sq (radians ref.lat)
  have h2 := Real.sin_sq_add_cos_sq (radians ref.lon)
  unfold applyTransform sqDist
  simp only
  generalize ecefFromLla ref.lat ref.lon ref.alt = t
  generalize ecefFromLla p.lat p.lon p.alt = e
  generalize ecefFromLla q.lat q.lon q.alt = f
  generalize Real.sin (radians ref.lat) = sa at *
  generalize Real.cos (radians ref.lat) = ca at *
  generalize Real.sin (radians ref.lon) = so at *
  generalize Real.cos (radians ref.lon) = co at *
  have hs : so ^ 2 = 1 - co ^ 2 := by linarith
  have ha : sa ^ 2 = 1 - ca ^ 2 := by linarith
  simp [Matrix.vecHead, Matrix.vecTail]
  have g0 : so ^ 4 = (1 - co ^ 2) ^ 2 := by rw [← hs]; ring
  have g1 : so ^ 3 = so * (1 - co ^ 2) := by rw [← hs]; ring
  ring_nf
  simp only [hs, ha, g0, g1]
  ring

/-! ## The axes of the frame -/

theorem frame_eq (lat lon alt : ℝ) : frame lat lon alt =
    !![-Real.sin (radians lon), -Real.sin (radians lat) * Real.cos (radians lon),
        Real.cos (radians lat) * Real.cos (radians lon);
      Real.cos (radians lon), -Real.sin (radians lat) * Real.sin (radians lon),
        Real.cos (radians lat) * Real.sin (radians lon);
      0, Real.cos (radians lat), Real.sin (radians lat)] := by
  ext i j; fin_cases i <;> fin_cases j <;> rfl

theorem hasDerivAt_radians (t : ℝ) : HasDerivAt radians (Real.pi / 180) t := by
  unfold radians
  have := ((hasDerivAt_id t).mul_const Real.pi).div_const 180
  simpa using this

theorem hasDerivAt_L (t : ℝ) :
    HasDerivAt ecefL ((wgsA ^ 2 - wgsB ^ 2) * Real.sin t * Real.cos t * ecefL t ^ 3) t := by
  have hs := Real.hasDerivAt_sin t
  have hc := Real.hasDerivAt_cos t
  have hd : HasDerivAt den (-(2 * (wgsA ^ 2 - wgsB ^ 2) * Real.sin t * Real.cos t)) t := by
    unfold den
    have := ((hc.pow 2).const_mul (wgsA ^ 2)).add ((hs.pow 2).const_mul (wgsB ^ 2))
    refine this.congr_deriv ?_
    push_cast
    ring
  have hpos := den_pos t
  have hq := hd.sqrt hpos.ne'
  have hi := hq.inv (Real.sqrt_pos.2 hpos).ne'
  have e : ecefL = (fun y => Real.sqrt (den y))⁻¹ := by
    funext y; rw [ecefL_eq, one_div]; rfl
  have hv : ecefL t = (Real.sqrt (den t))⁻¹ := by rw [ecefL_eq, one_div]
  rw [hv, e]
  refine hi.congr_deriv ?_
  have hp : 0 < Real.sqrt (den t) := Real.sqrt_pos.2 hpos
  field_simp

theorem radius_pos {alt : ℝ} (h : -6335000 < alt) (t : ℝ) :
    0 < wgsA ^ 2 * wgsB ^ 2 * ecefL t ^ 3 + alt ∧ 0 < wgsA ^ 2 * ecefL t + alt := by
  have h1 := N_ge t
  have hA := wgsA_pos
  have hB := wgsB_pos
  have hL := ecefL_pos t
  have h3 : 1 ≤ wgsA * ecefL t := by
    by_contra hc
    rw [not_le] at hc
    nlinarith
  have h4 : 1 ≤ (wgsA * ecefL t) ^ 3 := one_le_pow₀ h3
  have h5 : wgsB ^ 2 / wgsA ≤ wgsA ^ 2 * wgsB ^ 2 * ecefL t ^ 3 := by
    rw [div_le_iff₀ hA]
    have : wgsA ^ 2 * wgsB ^ 2 * ecefL t ^ 3 * wgsA = wgsB ^ 2 * (wgsA * ecefL t) ^ 3 := by ring
    rw [this]
    nlinarith [sq_nonneg wgsB]
  have h6 : (6335000 : ℝ) < wgsB ^ 2 / wgsA := by unfold wgsA wgsB; norm_num
  have h7 : (6335000 : ℝ) < wgsA := by unfold wgsA; norm_num
  constructor <;> linarith

/-- **C43, the axes.** At every reference that is not a pole (and less than 6335 km below the
ellipsoid), the first axis of the topocentric frame heads east, the second north and the third up:
they are the directions in which the ECEF point moves when the longitude, the latitude and the
altitude increase; the axes are orthonormal and direct. -/
theorem C43_axes (lat lon alt : ℝ) (h1 : -90 < lat) (h2 : lat < 90) (h3 : -6335000 < alt) :
    Heads (fun l => ecefFromLla lat l alt) lon
      (fun i => frame lat lon alt i 0) ∧
    Heads (fun l => ecefFromLla l lon alt) lat
      (fun i => frame lat lon alt i 1) ∧
    Heads (fun l => ecefFromLla lat lon l) alt
      (fun i => frame lat lon alt i 2) ∧
    (frame lat lon alt).transpose * frame lat lon alt = 1 ∧ (frame lat lon alt).det = 1 := by
  have hpi := Real.pi_pos
  have hc := cos_radians_pos h1 h2
  obtain ⟨hM, hN⟩ := radius_pos h3 (radians lat)
  refine ⟨?_, ?_, ?_, ?_⟩
  · refine ⟨(wgsA ^ 2 * ecefL (radians lat) + alt) * Real.cos (radians lat) * (Real.pi / 180),
      by positivity, ?_⟩
    have hr := hasDerivAt_radians lon
    have d1 := (Real.hasDerivAt_cos (radians lon)).comp lon hr
    have d2 := (Real.hasDerivAt_sin (radians lon)).comp lon hr
    intro i
    fin_cases i
    · refine HasDerivAt.congr_deriv (d1.const_mul ((wgsA ^ 2 * ecefL (radians lat) + alt) * Real.cos (radians lat))) ?_
      symm
      show _ * -Real.sin (radians lon) = _
      ring
    · refine HasDerivAt.congr_deriv (d2.const_mul ((wgsA ^ 2 * ecefL (radians lat) + alt) * Real.cos (radians lat))) ?_
      symm
      show _ * Real.cos (radians lon) = _
      ring
    · refine HasDerivAt.congr_deriv (hasDerivAt_const lon (ecefFromLla lat lon alt 2)) ?_
      symm
      show _ * (0 : ℝ) = 0
      ring
  · refine ⟨(wgsA ^ 2 * wgsB ^ 2 * ecefL (radians lat) ^ 3 + alt) * (Real.pi / 180),
      by positivity, ?_⟩
    have hr := hasDerivAt_radians lat
    have d1 := (Real.hasDerivAt_cos (radians lat)).comp lat hr
    have d2 := (Real.hasDerivAt_sin (radians lat)).comp lat hr
    have d3 := (hasDerivAt_L (radians lat)).comp lat hr
    have eA := (d3.const_mul (wgsA ^ 2)).add_const alt
    have eB := (d3.const_mul (wgsB ^ 2)).add_const alt
    have hsq := ecefL_sq (radians lat)
    have htr := Real.sin_sq_add_cos_sq (radians lat)
    unfold den at hsq
    intro i
    fin_cases i
    · refine HasDerivAt.congr_deriv ((eA.mul d1).mul_const (Real.cos (radians lon))) ?_
      symm
      show _ * (-Real.sin (radians lat) * Real.cos (radians lon)) = _
      simp only [Function.comp]
      generalize ecefL (radians lat) = L at *
      generalize Real.sin (radians lat) = sa at *
      generalize Real.cos (radians lat) = ca at *
      linear_combination (Real.cos (radians lon) * Real.pi / 180 * sa * wgsA ^ 2 * L) *
        (-hsq + L ^ 2 * wgsB ^ 2 * htr)
    · refine HasDerivAt.congr_deriv ((eA.mul d1).mul_const (Real.sin (radians lon))) ?_
      symm
      show _ * (-Real.sin (radians lat) * Real.sin (radians lon)) = _
      simp only [Function.comp]
      generalize ecefL (radians lat) = L at *
      generalize Real.sin (radians lat) = sa at *
      generalize Real.cos (radians lat) = ca at *
      linear_combination (Real.sin (radians lon) * Real.pi / 180 * sa * wgsA ^ 2 * L) *
        (-hsq + L ^ 2 * wgsB ^ 2 * htr)
    · refine HasDerivAt.congr_deriv (eB.mul d2) ?_
      symm
      show _ * Real.cos (radians lat) = _
      simp only [Function.comp]
      generalize ecefL (radians lat) = L at *
      generalize Real.sin (radians lat) = sa at *
      generalize Real.cos (radians lat) = ca at *
      linear_combination (Real.pi / 180 * ca * wgsB ^ 2 * L) *
        (hsq - L ^ 2 * wgsA ^ 2 * htr)
  · refine ⟨1, one_pos, ?_⟩
    have d1 := (hasDerivAt_id alt).const_add (wgsA ^ 2 * ecefL (radians lat))
    have d2 := (hasDerivAt_id alt).const_add (wgsB ^ 2 * ecefL (radians lat))
    intro i
    fin_cases i
    · refine HasDerivAt.congr_deriv ((d1.mul_const (Real.cos (radians lat))).mul_const (Real.cos (radians lon))) ?_
      symm
      show 1 * (Real.cos (radians lat) * Real.cos (radians lon)) = _
      ring
    · refine HasDerivAt.congr_deriv ((d1.mul_const (Real.cos (radians lat))).mul_const (Real.sin (radians lon))) ?_
      symm
      show 1 * (Real.cos (radians lat) * Real.sin (radians lon)) = _
      ring
    · refine HasDerivAt.congr_deriv (d2.mul_const (Real.sin (radians lat))) ?_
      symm
      show 1 * Real.sin (radians lat) = _
      ring
  · have g1 := Real.sin_sq_add_cos_sq (radians lat)
    have g2 := Real.sin_sq_add_cos_sq (radians lon)
    rw [frame_eq]
    generalize Real.sin (radians lat) = sa at *
    generalize Real.cos (radians lat) = ca at *
    generalize Real.sin (radians lon) = so at *
    generalize Real.cos (radians lon) = co at *
    have hs : so ^ 2 = 1 - co ^ 2 := by linarith
    have ha : sa ^ 2 = 1 - ca ^ 2 := by linarith
    constructor
    · ext i j
      fin_cases i <;> fin_cases j <;>
        simp [Matrix.mul_apply, Fin.sum_univ_three, Matrix.one_apply] <;> ring_nf <;>
        simp only [hs, ha] <;> ring
    · rw [Matrix.det_fin_three]
      simp
      ring_nf
      simp only [hs, ha]
      ring

/-! ## From ECEF back to latitude, longitude and altitude -/

theorem axis_distance (lat lon alt : ℝ)
    (h : 0 ≤ (wgsA ^ 2 * ecefL (radians lat) + alt) * Real.cos (radians lat)) :
    Real.sqrt (ecefFromLla lat lon alt 0 ^ 2 + ecefFromLla lat lon alt 1 ^ 2) =
      (wgsA ^ 2 * ecefL (radians lat) + alt) * Real.cos (radians lat) := by
  have h2 := Real.sin_sq_add_cos_sq (radians lon)
  have : ecefFromLla lat lon alt 0 ^ 2 + ecefFromLla lat lon alt 1 ^ 2 =
      ((wgsA ^ 2 * ecefL (radians lat) + alt) * Real.cos (radians lat)) ^ 2 := by
    show ((wgsA ^ 2 * ecefL (radians lat) + alt) * Real.cos (radians lat) *
        Real.cos (radians lon)) ^ 2 +
      ((wgsA ^ 2 * ecefL (radians lat) + alt) * Real.cos (radians lat) *
        Real.sin (radians lon)) ^ 2 = _
    linear_combination (((wgsA ^ 2 * ecefL (radians lat) + alt) * Real.cos (radians lat)) ^ 2) * h2
  rw [this, Real.sqrt_sq h]

theorem lon_exact (lat lon alt : ℝ)
    (h : 0 < (wgsA ^ 2 * ecefL (radians lat) + alt) * Real.cos (radians lat))
    (h1 : -180 < lon) (h2 : lon ≤ 180) :
    degrees (arctan2 (ecefFromLla lat lon alt 1) (ecefFromLla lat lon alt 0)) = lon := by
  obtain ⟨g1, g2⟩ := radians_range h1 h2
  have : arctan2 (ecefFromLla lat lon alt 1) (ecefFromLla lat lon alt 0) = radians lon := by
    exact arctan2_mul_cos_sin h g1 g2
  rw [this, degrees_radians]

/-- On the ellipsoid the latitude is recovered. -/
theorem latOf_surface (t : ℝ) (h1 : -(Real.pi / 2) < t) (h2 : t < Real.pi / 2) :
    latOf (wgsA ^ 2 * ecefL t * Real.cos t) (wgsB ^ 2 * ecefL t * Real.sin t) = t := by
  have hA := wgsA_pos
  have hB := wgsB_pos
  have hL := ecefL_pos t
  have hsq := ecefL_sq t
  have htr := Real.sin_sq_add_cos_sq t
  have hpi := Real.pi_pos
  set L := ecefL t with hLdef
  set u := wgsA ^ 2 * L * Real.cos t * wgsB with hu
  set v := wgsB ^ 2 * L * Real.sin t * wgsA with hv
  have hnorm : Real.sqrt (u ^ 2 + v ^ 2) = wgsA * wgsB := by
    have : u ^ 2 + v ^ 2 = (wgsA * wgsB) ^ 2 := by
      unfold den at hsq
      rw [hu, hv]
      linear_combination (wgsA * wgsB) ^ 2 * hsq
    rw [this, Real.sqrt_sq (by positivity)]
  have hAB : wgsA * wgsB ≠ 0 := by positivity
  have hcos : Real.cos (arctan2 v u) = wgsA * L * Real.cos t := by
    have := cos_arctan2 u v
    rw [hnorm] at this
    apply mul_left_cancel₀ hAB
    rw [this, hu]; ring
  have hsin : Real.sin (arctan2 v u) = wgsB * L * Real.sin t := by
    have := sin_arctan2 u v
    rw [hnorm] at this
    apply mul_left_cancel₀ hAB
    rw [this, hv]; ring
  unfold latOf
  simp only
  rw [← hu, ← hv, hcos, hsin, ea_sq, eb_sq]
  have e1 : wgsB ^ 2 * L * Real.sin t +
      (wgsA ^ 2 - wgsB ^ 2) / wgsB ^ 2 * wgsB * (wgsB * L * Real.sin t) ^ 3 =
      (wgsA ^ 2 * wgsB ^ 2 * L ^ 3) * Real.sin t := by
    unfold den at hsq
    field_simp
    linear_combination Real.sin t * ((-1 : ℝ) * hsq + L ^ 2 * wgsA ^ 2 * htr)
  have e2 : wgsA ^ 2 * L * Real.cos t -
      (wgsA ^ 2 - wgsB ^ 2) / wgsA ^ 2 * wgsA * (wgsA * L * Real.cos t) ^ 3 =
      (wgsA ^ 2 * wgsB ^ 2 * L ^ 3) * Real.cos t := by
    unfold den at hsq
    have hc : 0 < Real.cos t := Real.cos_pos_of_mem_Ioo ⟨h1, h2⟩
    field_simp
    linear_combination (-1 : ℝ) * hsq + L ^ 2 * wgsB ^ 2 * htr
  rw [e1, e2]
  exact arctan2_mul_cos_sin (by positivity) (by linarith) (by linarith)

/-- **C43, inverse on the ellipsoid.** Away from the poles a position on the ellipsoid is recovered
exactly from its ECEF coordinates. -/
theorem C43_surface (lat lon : ℝ) (h1 : -90 < lat) (h2 : lat < 90) (h3 : -180 < lon)
    (h4 : lon ≤ 180) :
    llaFromEcef (ecefFromLla lat lon 0 0) (ecefFromLla lat lon 0 1) (ecefFromLla lat lon 0 2) =
      ⟨lat, lon, 0⟩ := by
  have hc := cos_radians_pos h1 h2
  have hL := ecefL_pos (radians lat)
  have hA := wgsA_pos
  have hpos : 0 < (wgsA ^ 2 * ecefL (radians lat) + 0) * Real.cos (radians lat) := by positivity
  have hpi := Real.pi_pos
  unfold llaFromEcef
  simp only
  rw [axis_distance _ _ _ hpos.le, lon_exact _ _ _ hpos h3 h4]
  have hz : ecefFromLla lat lon 0 2 = wgsB ^ 2 * ecefL (radians lat) * Real.sin (radians lat) := by
    show (wgsB ^ 2 * ecefL (radians lat) + 0) * Real.sin (radians lat) = _
    ring
  have hr : -(Real.pi / 2) < radians lat ∧ radians lat < Real.pi / 2 := by
    unfold radians; constructor <;> nlinarith
  rw [hz, add_zero, latOf_surface _ hr.1 hr.2, degrees_radians, N_eq]
  have : wgsA ^ 2 * ecefL (radians lat) * Real.cos (radians lat) / Real.cos (radians lat) -
      wgsA ^ 2 * ecefL (radians lat) = 0 := by
    field_simp; ring
  rw [this]

theorem cos_latOf_pos (p z : ℝ) (hp : 0 < p)
    (hout : ea ^ 4 < (p / wgsA) ^ 2 + (z / wgsB) ^ 2) : 0 < Real.cos (latOf p z) := by
  have hA := wgsA_pos
  have hB := wgsB_pos
  unfold latOf
  simp only
  set u := p * wgsB with hu
  set v := z * wgsA with hv
  have hup : 0 < u := by positivity
  set R := Real.sqrt (u ^ 2 + v ^ 2) with hR
  have hRpos : 0 < R := Real.sqrt_pos.2 (by positivity)
  have hc := cos_arctan2 u v
  rw [← hR] at hc
  set c := Real.cos (arctan2 v u) with hcdef
  have hcpos : 0 < c := by
    by_contra h
    rw [not_lt] at h
    nlinarith
  have hc1 : c ≤ 1 := Real.cos_le_one _
  have hRbig : ea ^ 2 * (wgsA * wgsB) < R := by
    apply Real.lt_sqrt_of_sq_lt
    have : (ea ^ 2 * (wgsA * wgsB)) ^ 2 = ea ^ 4 * (wgsA ^ 2 * wgsB ^ 2) := by ring
    rw [this]
    have e : u ^ 2 + v ^ 2 = ((p / wgsA) ^ 2 + (z / wgsB) ^ 2) * (wgsA ^ 2 * wgsB ^ 2) := by
      rw [hu, hv]; field_simp
    rw [e]
    exact mul_lt_mul_of_pos_right hout (by positivity)
  have hx : 0 < p - ea ^ 2 * wgsA * c ^ 3 := by
    have hpc : p = R * c / wgsB := by rw [hc, hu]; field_simp
    have h2 : ea ^ 2 * wgsA * c ^ 3 < R * c / wgsB := by
      rw [lt_div_iff₀ hB]
      have hcc : c ^ 2 ≤ 1 := pow_le_one₀ hcpos.le hc1
      have : ea ^ 2 * wgsA * c ^ 3 * wgsB = (ea ^ 2 * (wgsA * wgsB)) * c ^ 2 * c := by ring
      rw [this]
      apply mul_lt_mul_of_pos_right _ hcpos
      have h0 : 0 ≤ ea ^ 2 * (wgsA * wgsB) := by positivity
      calc ea ^ 2 * (wgsA * wgsB) * c ^ 2 ≤ ea ^ 2 * (wgsA * wgsB) * 1 :=
            mul_le_mul_of_nonneg_left hcc h0
        _ < R := by rw [mul_one]; exact hRbig
    linarith
  generalize z + eb ^ 2 * wgsB * Real.sin (arctan2 v u) ^ 3 = y
  have := cos_arctan2 (p - ea ^ 2 * wgsA * c ^ 3) y
  have hs : 0 < Real.sqrt ((p - ea ^ 2 * wgsA * c ^ 3) ^ 2 + y ^ 2) :=
    Real.sqrt_pos.2 (by positivity)
  by_contra h
  rw [not_lt] at h
  nlinarith

/-- **C43, any point.** For every ECEF point off the polar axis and outside the ellipsoid of
half-axes `ea² a` and `ea² b` (43 km) around the centre of the Earth, the latitude is strictly
between -90 and 90, the longitude in (-180, 180], and the position returned has exactly the given
`x` and `y` coordinates. -/
theorem C43_ecef_xy (x y z : ℝ) (hp : 0 < x ^ 2 + y ^ 2)
    (hout : ea ^ 4 < (x ^ 2 + y ^ 2) / wgsA ^ 2 + z ^ 2 / wgsB ^ 2) (q : Lla)
    (hq : q = llaFromEcef x y z) :
    -90 < q.lat ∧ q.lat < 90 ∧ -180 < q.lon ∧ q.lon ≤ 180 ∧
    ecefFromLla q.lat q.lon q.alt 0 = x ∧ ecefFromLla q.lat q.lon q.alt 1 = y := by
  have hpp : 0 < Real.sqrt (x ^ 2 + y ^ 2) := Real.sqrt_pos.2 hp
  have hcl := cos_latOf_pos (Real.sqrt (x ^ 2 + y ^ 2)) z hpp (by
    rw [div_pow, div_pow, Real.sq_sqrt hp.le]; exact hout)
  have hpi := Real.pi_pos
  subst hq
  unfold llaFromEcef
  simp only
  set lat := latOf (Real.sqrt (x ^ 2 + y ^ 2)) z with hlat
  have hr1 : -Real.pi < lat ∧ lat ≤ Real.pi := by
    rw [hlat]; unfold latOf; exact ⟨Complex.neg_pi_lt_arg _, Complex.arg_le_pi _⟩
  have hr2 : -(Real.pi / 2) < lat ∧ lat < Real.pi / 2 := by
    constructor
    · by_contra h
      rw [not_lt] at h
      have := Real.cos_nonpos_of_pi_div_two_le_of_le (x := -lat) (by linarith) (by linarith)
      rw [Real.cos_neg] at this
      linarith
    · by_contra h
      rw [not_lt] at h
      have := Real.cos_nonpos_of_pi_div_two_le_of_le (x := lat) (by linarith) (by linarith)
      linarith
  have hlon : -Real.pi < arctan2 y x ∧ arctan2 y x ≤ Real.pi :=
    ⟨Complex.neg_pi_lt_arg _, Complex.arg_le_pi _⟩
  have hk : ∀ t : ℝ, (wgsA ^ 2 * ecefL lat + (Real.sqrt (x ^ 2 + y ^ 2) / Real.cos lat -
      wgsA / Real.sqrt (1 - ea ^ 2 * Real.sin lat ^ 2))) * Real.cos lat * t =
      Real.sqrt (x ^ 2 + y ^ 2) * t := by
    intro t
    rw [N_eq]
    field_simp
    ring
  refine ⟨?_, ?_, ?_, ?_, ?_, ?_⟩
  · unfold degrees; rw [lt_div_iff₀ hpi]; linarith [hr2.1]
  · unfold degrees; rw [div_lt_iff₀ hpi]; linarith [hr2.2]
  · unfold degrees; rw [lt_div_iff₀ hpi]; linarith [hlon.1]
  · unfold degrees; rw [div_le_iff₀ hpi]; linarith [hlon.2]
  · show (wgsA ^ 2 * ecefL (radians (degrees lat)) + _) * Real.cos (radians (degrees lat)) *
      Real.cos (radians (degrees (arctan2 y x))) = x
    rw [radians_degrees, radians_degrees, hk, cos_arctan2]
  · show (wgsA ^ 2 * ecefL (radians (degrees lat)) + _) * Real.cos (radians (degrees lat)) *
      Real.sin (radians (degrees (arctan2 y x))) = y
    rw [radians_degrees, radians_degrees, hk, sin_arctan2]

/-- **C43, longitude and equator.** At any altitude the longitude is recovered exactly; on the
equator the latitude and the altitude too. -/
theorem C43_longitude (lat lon alt : ℝ) (h1 : -90 < lat) (h2 : lat < 90) (h3 : -180 < lon)
    (h4 : lon ≤ 180) (h5 : -6335000 < alt) :
    (llaFromEcef (ecefFromLla lat lon alt 0) (ecefFromLla lat lon alt 1)
      (ecefFromLla lat lon alt 2)).lon = lon ∧
    (lat = 0 → llaFromEcef (ecefFromLla lat lon alt 0) (ecefFromLla lat lon alt 1)
      (ecefFromLla lat lon alt 2) = ⟨0, lon, alt⟩) := by
  have hc := cos_radians_pos h1 h2
  have hN := (radius_pos h5 (radians lat)).2
  have hpos : 0 < (wgsA ^ 2 * ecefL (radians lat) + alt) * Real.cos (radians lat) := by positivity
  have hlon := lon_exact lat lon alt hpos h3 h4
  refine ⟨hlon, ?_⟩
  rintro rfl
  have hA := wgsA_pos
  have hr0 : radians 0 = 0 := by unfold radians; simp
  have hL0 : wgsA ^ 2 * ecefL 0 = wgsA := by
    rw [ecefL_eq]; unfold den
    simp only [Real.cos_zero, Real.sin_zero]
    rw [show wgsA ^ 2 * 1 ^ 2 + wgsB ^ 2 * 0 ^ 2 = wgsA ^ 2 by ring, Real.sqrt_sq hA.le]
    field_simp
  unfold llaFromEcef
  simp only
  rw [axis_distance _ _ _ hpos.le, hlon]
  have hz : ecefFromLla 0 lon alt 2 = 0 := by
    show (_ + alt) * Real.sin (radians 0) = 0
    rw [hr0, Real.sin_zero, mul_zero]
  rw [hz, hr0, hL0, Real.cos_zero, mul_one]
  have hh : 0 < wgsA + alt := by rw [hr0, hL0] at hN; exact hN
  have hlat : latOf (wgsA + alt) 0 = 0 := by
    have hB := wgsB_pos
    have e0 : arctan2 (0 * wgsA) ((wgsA + alt) * wgsB) = 0 := by
      have := arctan2_mul_cos_sin (k := (wgsA + alt) * wgsB) (t := 0) (by positivity)
        (by linarith [Real.pi_pos]) Real.pi_pos.le
      simpa using this
    unfold latOf
    simp only
    rw [e0, Real.sin_zero, Real.cos_zero]
    have hk : 0 < wgsA + alt - ea ^ 2 * wgsA * 1 ^ 3 := by
      have : ea ^ 2 * wgsA ≤ 43000 := by
        rw [ea_sq]; unfold wgsA wgsB; norm_num
      have : (43000 : ℝ) + 6335000 < wgsA := by unfold wgsA; norm_num
      linarith
    have := arctan2_mul_cos_sin (k := wgsA + alt - ea ^ 2 * wgsA * 1 ^ 3) (t := 0) hk
        (by linarith [Real.pi_pos]) Real.pi_pos.le
    simpa using this
  rw [hlat, N_eq, hL0, Real.cos_zero]
  unfold degrees
  simp

/-- Through the topocentric frame of any reference: a position on the ellipsoid is recovered. -/
theorem C43_topocentric_surface (lat lon : ℝ) (ref : Lla) (h1 : -90 < lat) (h2 : lat < 90)
    (h3 : -180 < lon) (h4 : lon ≤ 180) :
    llaFromTopocentric (topocentricFromLla ⟨lat, lon, 0⟩ ref) ref = ⟨lat, lon, 0⟩ := by
  unfold llaFromTopocentric
  simp only
  rw [(C43_roundtrip ⟨lat, lon, 0⟩ ref 0).1]
  exact C43_surface lat lon h1 h2 h3 h4

/-! ## Distances between GPS positions -/

/-- **C43, `gps_distance`** is a distance: symmetric, zero from a position to itself, with the
triangle inequality; between positions given by their usual coordinates it is zero only if they are
equal; and it is at most the diameter of the equator. -/
theorem C43_gps_distance (p q r : ℝ × ℝ) :
    0 ≤ gpsDistance p q ∧ gpsDistance p p = 0 ∧ gpsDistance p q = gpsDistance q p ∧
    gpsDistance p r ≤ gpsDistance p q + gpsDistance q r ∧ gpsDistance p q ≤ 2 * wgsA ∧
    (-90 < p.1 → p.1 < 90 → -180 < p.2 → p.2 ≤ 180 → -90 < q.1 → q.1 < 90 → -180 < q.2 →
      q.2 ≤ 180 → gpsDistance p q = 0 → p = q) := by
  have hdist : ∀ p q : ℝ × ℝ, gpsDistance p q =
      dist (WithLp.toLp 2 (ecefFromLla p.1 p.2 0)) (WithLp.toLp 2 (ecefFromLla q.1 q.2 0)) := by
    intro p q
    rw [EuclideanSpace.dist_eq, Fin.sum_univ_three]
    simp only [Real.dist_eq, sq_abs]
    rfl
  have hbound : ∀ p : ℝ × ℝ, dist (WithLp.toLp 2 (ecefFromLla p.1 p.2 0)) 0 ≤ wgsA := by
    intro p
    rw [EuclideanSpace.dist_eq, Fin.sum_univ_three]
    simp only [Real.dist_eq, sq_abs]
    rw [Real.sqrt_le_left wgsA_pos.le]
    have hsq := ecefL_sq (radians p.1)
    have g1 := Real.sin_sq_add_cos_sq (radians p.1)
    have g2 := Real.sin_sq_add_cos_sq (radians p.2)
    have hAB : wgsB ^ 2 ≤ wgsA ^ 2 := pow_le_pow_left₀ wgsB_pos.le wgsB_lt.le 2
    show ((wgsA ^ 2 * ecefL (radians p.1) + 0) * Real.cos (radians p.1) *
        Real.cos (radians p.2) - 0) ^ 2 +
      ((wgsA ^ 2 * ecefL (radians p.1) + 0) * Real.cos (radians p.1) *
        Real.sin (radians p.2) - 0) ^ 2 +
      ((wgsB ^ 2 * ecefL (radians p.1) + 0) * Real.sin (radians p.1) - 0) ^ 2 ≤ wgsA ^ 2
    unfold den at hsq
    generalize ecefL (radians p.1) = L at *
    generalize Real.sin (radians p.1) = sa at *
    generalize Real.cos (radians p.1) = ca at *
    generalize Real.sin (radians p.2) = so at *
    generalize Real.cos (radians p.2) = co at *
    have e : ((wgsA ^ 2 * L + 0) * ca * co - 0) ^ 2 + ((wgsA ^ 2 * L + 0) * ca * so - 0) ^ 2 +
        ((wgsB ^ 2 * L + 0) * sa - 0) ^ 2 =
        wgsA ^ 2 - wgsB ^ 2 * (L * sa) ^ 2 * (wgsA ^ 2 - wgsB ^ 2) := by
      linear_combination (wgsA ^ 2 * L * ca) ^ 2 * g2 + wgsA ^ 2 * hsq
    rw [e]
    have : 0 ≤ wgsB ^ 2 * (L * sa) ^ 2 * (wgsA ^ 2 - wgsB ^ 2) :=
      mul_nonneg (by positivity) (by linarith)
    linarith
  refine ⟨by rw [hdist]; exact dist_nonneg, by rw [hdist, dist_self],
    by rw [hdist, hdist, dist_comm], by rw [hdist, hdist, hdist]; exact dist_triangle _ _ _, ?_, ?_⟩
  · rw [hdist]
    have := dist_triangle_right (WithLp.toLp 2 (ecefFromLla p.1 p.2 0))
      (WithLp.toLp 2 (ecefFromLla q.1 q.2 0)) 0
    linarith [hbound p, hbound q]
  · intro a1 a2 a3 a4 b1 b2 b3 b4 h
    rw [hdist, dist_eq_zero] at h
    have h' : ecefFromLla p.1 p.2 0 = ecefFromLla q.1 q.2 0 := by
      have := congrArg WithLp.ofLp h
      exact this
    have s1 := C43_surface p.1 p.2 a1 a2 a3 a4
    have s2 := C43_surface q.1 q.2 b1 b2 b3 b4
    rw [h', s2] at s1
    injection s1 with e1 e2
    exact Prod.ext e1.symm e2.symm

/-! ## The hypotheses are met -/

example : Heads (fun l => ecefFromLla 45 l 100) 7 (fun i => frame 45 7 100 i 0) :=
  (C43_axes 45 7 100 (by norm_num) (by norm_num) (by norm_num)).1

example : llaFromEcef (ecefFromLla (-33) 151 0 0) (ecefFromLla (-33) 151 0 1)
    (ecefFromLla (-33) 151 0 2) = ⟨-33, 151, 0⟩ :=
  C43_surface _ _ (by norm_num) (by norm_num) (by norm_num) (by norm_num)

example : ∃ x y z : ℝ, 0 < x ^ 2 + y ^ 2 ∧
    ea ^ 4 < (x ^ 2 + y ^ 2) / wgsA ^ 2 + z ^ 2 / wgsB ^ 2 := by
  refine ⟨4000000, 1000000, -4500000, by norm_num, ?_⟩
  rw [show ea ^ 4 = (ea ^ 2) ^ 2 by ring, ea_sq]
  unfold wgsA wgsB
  norm_num

end Verif.Geo
