import Verif.Model.ExifOpk
import Verif.Props.Geo
import Verif.Props.Angles
import Verif.Props.AlignPrior

/-! # C125: the orientation read from the tags of drone images -/
set_option linter.unusedSectionVars false
set_option linter.unusedSimpArgs false
set_option linter.unusedVariables false
namespace Verif.ExifOpk
open Matrix Verif.Superimpose Verif.AlignPrior
open Verif.Geo

/-! ### The direction computed for north -/

/-- The radius of a parallel decreases with the distance of the latitude to the equator. -/
theorem parallel_lt {c1 c2 D1 D2 alt : ℝ} (h : -6335000 < alt) (h1 : 0 < c1) (h12 : c1 < c2)
    (hD1 : 0 < D1) (hD2 : 0 < D2) (l1 : D1 ≤ wgsA) (l2 : D2 ≤ wgsA)
    (e1 : D1 ^ 2 = wgsB ^ 2 + (wgsA ^ 2 - wgsB ^ 2) * c1 ^ 2) (e2 : D2 ^ 2 = wgsB ^ 2 + (wgsA ^ 2 - wgsB ^ 2) * c2 ^ 2) :
    (wgsA ^ 2 * (1 / D1) + alt) * c1 < (wgsA ^ 2 * (1 / D2) + alt) * c2 := by
  have hA := wgsA_pos
  have hB := wgsB_pos
  have h6 : (6335000 : ℝ) < wgsB ^ 2 / wgsA := by unfold wgsA wgsB; norm_num
  have hprod : (c2 * D1 - c1 * D2) * (c2 * D1 + c1 * D2) = wgsB ^ 2 * ((c2 - c1) * (c2 + c1)) := by
    have : (c2 * D1 - c1 * D2) * (c2 * D1 + c1 * D2) = c2 ^ 2 * D1 ^ 2 - c1 ^ 2 * D2 ^ 2 := by ring
    rw [this, e1, e2]; ring
  have hc2 : 0 < c2 := h1.trans h12
  have hs : 0 < c2 * D1 + c1 * D2 := by positivity
  have hpos : 0 < c2 * D1 - c1 * D2 := by
    have : 0 < wgsB ^ 2 * ((c2 - c1) * (c2 + c1)) := by
      have : 0 < c2 - c1 := by linarith
      positivity
    rw [← hprod] at this
    exact (pos_iff_pos_of_mul_pos this).2 hs
  have hle : c2 * D1 + c1 * D2 ≤ wgsA * (c2 + c1) := by nlinarith
  have hbound : wgsB ^ 2 * (c2 - c1) ≤ wgsA * (c2 * D1 - c1 * D2) := by
    have : wgsB ^ 2 * (c2 - c1) * (c2 + c1) ≤ wgsA * (c2 * D1 - c1 * D2) * (c2 + c1) := by nlinarith
    exact le_of_mul_le_mul_right this (by positivity)
  have hfrac : wgsB ^ 2 / wgsA * (c2 - c1) ≤ c2 * D1 - c1 * D2 := by
    rw [div_mul_eq_mul_div, div_le_iff₀ hA]; linarith
  have hDD : D1 * D2 ≤ wgsA ^ 2 := by nlinarith
  have hq : c2 * D1 - c1 * D2 ≤ wgsA ^ 2 * (1 / D2) * c2 - wgsA ^ 2 * (1 / D1) * c1 := by
    have : wgsA ^ 2 * (1 / D2) * c2 - wgsA ^ 2 * (1 / D1) * c1 = wgsA ^ 2 * (c2 * D1 - c1 * D2) / (D1 * D2) := by
      field_simp
    rw [this, le_div_iff₀ (by positivity)]
    nlinarith
  nlinarith

theorem den_cos (t : ℝ) : Real.sqrt (den t) ^ 2 = wgsB ^ 2 + (wgsA ^ 2 - wgsB ^ 2) * Real.cos t ^ 2 := by
  rw [Real.sq_sqrt (den_pos t).le]
  unfold den
  have := Real.sin_sq_add_cos_sq t
  have e : Real.sin t ^ 2 = 1 - Real.cos t ^ 2 := by linarith
  rw [e]; ring

theorem den_root_le (t : ℝ) : Real.sqrt (den t) ≤ wgsA :=
  Real.sqrt_le_iff.2 ⟨wgsA_pos.le, den_le t⟩

/-- The distance to the axis of the earth is smaller where the cosine of the latitude is. -/
theorem axis_lt {s t alt : ℝ} (h : -6335000 < alt) (hc : Real.cos s < Real.cos t) (ht : 0 < Real.cos t) :
    (wgsA ^ 2 * ecefL s + alt) * Real.cos s < (wgsA ^ 2 * ecefL t + alt) * Real.cos t := by
  rcases lt_or_ge 0 (Real.cos s) with h0 | h0
  · exact parallel_lt h h0 hc (Real.sqrt_pos.2 (den_pos s)) (Real.sqrt_pos.2 (den_pos t)) (den_root_le s) (den_root_le t)
      (den_cos s) (den_cos t)
  · have h1 := (radius_pos h s).2
    have h2 := (radius_pos h t).2
    have : 0 < (wgsA ^ 2 * ecefL t + alt) * Real.cos t := by positivity
    nlinarith

theorem ecefL_neg (t : ℝ) : ecefL (-t) = ecefL t := by unfold ecefL; rw [Real.cos_neg, Real.sin_neg]; ring_nf

theorem ecefL_pi (t : ℝ) : ecefL (Real.pi - t) = ecefL t := by
  unfold ecefL; rw [Real.cos_pi_sub, Real.sin_pi_sub]; ring_nf

theorem north_eq (lat lon alt : ℝ) : north lat lon alt =
    ![((wgsA ^ 2 * ecefL (radians (lat + delta)) + alt) * Real.cos (radians (lat + delta)) -
        (wgsA ^ 2 * ecefL (radians (lat - delta)) + alt) * Real.cos (radians (lat - delta))) * Real.cos (radians lon),
      ((wgsA ^ 2 * ecefL (radians (lat + delta)) + alt) * Real.cos (radians (lat + delta)) -
        (wgsA ^ 2 * ecefL (radians (lat - delta)) + alt) * Real.cos (radians (lat - delta))) * Real.sin (radians lon),
      (wgsB ^ 2 * ecefL (radians (lat + delta)) + alt) * Real.sin (radians (lat + delta)) -
        (wgsB ^ 2 * ecefL (radians (lat - delta)) + alt) * Real.sin (radians (lat - delta))] := by
  unfold north ecefFromLla
  ext i; fin_cases i <;> simp <;> ring

theorem cos_closer {lat : ℝ} (h0 : 0 < lat) (h1 : lat ≤ 90) :
    Real.cos (radians (lat + delta)) < Real.cos (radians (lat - delta)) ∧ 0 < Real.cos (radians (lat - delta)) := by
  have hpi := Real.pi_pos
  have hd : (0 : ℝ) < delta := by unfold delta; norm_num
  have hd1 : delta < 1 := by unfold delta; norm_num
  refine ⟨?_, cos_radians_pos (by linarith) (by linarith)⟩
  rw [← Real.cos_abs (radians (lat - delta))]
  apply Real.cos_lt_cos_of_nonneg_of_le_pi (abs_nonneg _)
  · unfold radians; nlinarith
  · unfold radians
    rw [abs_lt]
    constructor <;> nlinarith

theorem mirror (lat : ℝ) : radians (-lat + delta) = -radians (lat - delta) ∧ radians (-lat - delta) = -radians (lat + delta) := by
  unfold radians; constructor <;> ring

/-- What `xnp` is: a unit vector in the plane of the meridian, whose horizontal part points to the axis of the earth on the
northern half and away from it on the southern half. -/
theorem unit_north (lat lon alt : ℝ) (h1 : -90 ≤ lat) (h2 : lat ≤ 90) (h3 : -6335000 < alt) :
    AlignPrior.norm (north lat lon alt) ≠ 0 ∧ ∃ σ ζ : ℝ, (1 / AlignPrior.norm (north lat lon alt)) • north lat lon alt =
      ![σ * Real.cos (radians lon), σ * Real.sin (radians lon), ζ] ∧ σ ^ 2 + ζ ^ 2 = 1 ∧ (0 < lat → σ < 0) ∧ (lat < 0 → 0 < σ) ∧
      (lat = 0 → σ = 0) ∧ (lat = 90 → ζ = 0) ∧ (lat = -90 → ζ = 0) := by
  obtain ⟨s, hs⟩ : ∃ s, s = (wgsA ^ 2 * ecefL (radians (lat + delta)) + alt) * Real.cos (radians (lat + delta)) -
        (wgsA ^ 2 * ecefL (radians (lat - delta)) + alt) * Real.cos (radians (lat - delta)) := ⟨_, rfl⟩
  obtain ⟨z, hz⟩ : ∃ z, z = (wgsB ^ 2 * ecefL (radians (lat + delta)) + alt) * Real.sin (radians (lat + delta)) -
        (wgsB ^ 2 * ecefL (radians (lat - delta)) + alt) * Real.sin (radians (lat - delta)) := ⟨_, rfl⟩
  have hn : north lat lon alt = ![s * Real.cos (radians lon), s * Real.sin (radians lon), z] := by rw [north_eq, ← hs, ← hz]
  have hd : (0 : ℝ) < delta := by unfold delta; norm_num
  have hd1 : delta < 1 := by unfold delta; norm_num
  have hpi := Real.pi_pos
  have hpos : 0 < lat → s < 0 := by
    intro h0
    obtain ⟨q1, q2⟩ := cos_closer h0 h2
    have := axis_lt h3 q1 q2
    rw [hs]; linarith
  have hneg : lat < 0 → 0 < s := by
    intro h0
    obtain ⟨q1, q2⟩ := cos_closer (lat := -lat) (by linarith) (by linarith)
    have := axis_lt h3 q1 q2
    rw [(mirror lat).1, (mirror lat).2, Real.cos_neg, Real.cos_neg, ecefL_neg, ecefL_neg] at this
    rw [hs]; linarith
  have hzero : lat = 0 → s = 0 ∧ 0 < z := by
    rintro rfl
    have e : radians (0 - delta) = -radians (0 + delta) := by unfold radians; ring
    have hB := (radius_pos h3 (radians (0 + delta))).2
    have hr : 0 < radians (0 + delta) ∧ radians (0 + delta) < Real.pi := by
      unfold radians; constructor <;> nlinarith
    have hsin := Real.sin_pos_of_pos_of_lt_pi hr.1 hr.2
    have hb2 : 0 < wgsB ^ 2 * ecefL (radians (0 + delta)) + alt := by
      have hL : 1 ≤ wgsA * ecefL (radians (0 + delta)) := by
        rw [ecefL_eq]
        have := den_root_le (radians (0 + delta))
        rw [mul_one_div, le_div_iff₀ (Real.sqrt_pos.2 (den_pos _))]; linarith
      have h6 : (6335000 : ℝ) < wgsB ^ 2 / wgsA := by unfold wgsA wgsB; norm_num
      have : wgsB ^ 2 / wgsA ≤ wgsB ^ 2 * ecefL (radians (0 + delta)) := by
        rw [div_le_iff₀ wgsA_pos]
        have := sq_nonneg wgsB
        nlinarith
      linarith
    rw [hs, hz, e, Real.cos_neg, Real.sin_neg, ecefL_neg]
    constructor
    · ring
    · have : 0 < (wgsB ^ 2 * ecefL (radians (0 + delta)) + alt) * Real.sin (radians (0 + delta)) := by positivity
      linarith
  have hpole : lat = 90 → z = 0 := by
    rintro rfl
    have e : radians (90 + delta) = Real.pi - radians (90 - delta) := by unfold radians; ring
    rw [hz, e, Real.sin_pi_sub, ecefL_pi]; ring
  have hpole2 : lat = -90 → z = 0 := by
    rintro rfl
    have e : radians (-90 - delta) = -(Real.pi - radians (90 - delta)) := by unfold radians; ring
    have e2 : radians (-90 + delta) = -radians (90 - delta) := by unfold radians; ring
    rw [hz, e, e2, Real.sin_neg, Real.sin_neg, Real.sin_pi_sub, ecefL_neg, ecefL_neg, ecefL_pi]; ring
  have hdot : north lat lon alt ⬝ᵥ north lat lon alt = s ^ 2 + z ^ 2 := by
    rw [hn]
    have := Real.sin_sq_add_cos_sq (radians lon)
    simp [dotProduct, Fin.sum_univ_three]
    linear_combination s ^ 2 * this
  have hnz : 0 < s ^ 2 + z ^ 2 := by
    rcases lt_trichotomy lat 0 with h | h | h
    · have := hneg h; positivity
    · have := (hzero h).2; positivity
    · have := hpos h; nlinarith [sq_nonneg z]
  have hm : 0 < AlignPrior.norm (north lat lon alt) := by
    unfold AlignPrior.norm; rw [hdot]; exact Real.sqrt_pos.2 hnz
  have hm2 : AlignPrior.norm (north lat lon alt) ^ 2 = s ^ 2 + z ^ 2 := by
    unfold AlignPrior.norm; rw [hdot, Real.sq_sqrt hnz.le]
  obtain ⟨m, hmd⟩ : ∃ m, m = AlignPrior.norm (north lat lon alt) := ⟨_, rfl⟩
  rw [← hmd] at hm hm2 ⊢
  refine ⟨hm.ne', s / m, z / m, ?_, ?_, ?_, ?_, ?_, ?_, ?_⟩
  · rw [hn]
    ext i; fin_cases i <;> simp <;> ring
  · rw [div_pow, div_pow, ← add_div, hm2, div_self hnz.ne']
  · intro h; exact div_neg_of_neg_of_pos (hpos h) hm
  · intro h; exact div_pos (hneg h) hm
  · intro h; rw [(hzero h).1, zero_div]
  · intro h; rw [hpole h, zero_div]
  · intro h; rw [hpole2 h, zero_div]

/-! ### The matrix -/

theorem cen_eq (a b c : ℝ) : cen ![a, b, c] = !![a, b, 0; b, -a, 0; c, 0, -1] := by
  unfold cen Angles.columns cross
  ext i j; fin_cases i <;> fin_cases j <;> simp

theorem ceb_entries (σ ζ l y p r : ℝ) :
    let M := cen ![σ * Real.cos l, σ * Real.sin l, ζ] * cnb y p r * cbb
    M 0 0 = σ * (Real.cos l * (cnb y p r) 0 1 + Real.sin l * (cnb y p r) 1 1) ∧
    M 0 1 = σ * (Real.cos l * (cnb y p r) 0 0 + Real.sin l * (cnb y p r) 1 0) ∧
    M 0 2 = -(σ * (Real.cos l * (cnb y p r) 0 2 + Real.sin l * (cnb y p r) 1 2)) ∧
    M 1 2 = -(σ * (Real.sin l * (cnb y p r) 0 2 - Real.cos l * (cnb y p r) 1 2)) ∧
    M 2 2 = -(ζ * (cnb y p r) 0 2) + (cnb y p r) 2 2 := by
  simp only [cen_eq, cbb]
  refine ⟨?_, ?_, ?_, ?_, ?_⟩ <;> simp [Matrix.mul_apply, Fin.sum_univ_three, Matrix.vecMul, dotProduct] <;> ring

theorem opkOf_eq (lat lon alt : ℝ) (h1 : -90 ≤ lat) (h2 : lat ≤ 90) (h3 : -6335000 < alt) (v : Vec 3) :
    ∃ σ ζ : ℝ, σ ^ 2 + ζ ^ 2 = 1 ∧ (0 < lat → σ < 0) ∧ (lat < 0 → 0 < σ) ∧
      (lat = 0 → σ = 0) ∧ (lat = 90 → ζ = 0) ∧ (lat = -90 → ζ = 0) ∧
      ∀ y p r l, y = radians (v 0) → p = radians (v 1) → r = radians (v 2) → l = radians lon →
      ∀ M, M = cen ![σ * Real.cos l, σ * Real.sin l, ζ] * cnb y p r * cbb →
      opkOf lat lon alt v =
        some (degrees (arctan2 (-M 1 2) (M 2 2)), degrees (Real.arcsin (M 0 2)), degrees (arctan2 (-M 0 1) (M 0 0))) := by
  obtain ⟨hm, σ, ζ, e, q1, q2, q3, q4, q5, q6⟩ := unit_north lat lon alt h1 h2 h3
  refine ⟨σ, ζ, q1, q2, q3, q4, q5, q6, ?_⟩
  rintro y p r l rfl rfl rfl rfl M rfl
  unfold opkOf
  simp only
  rw [if_neg hm, e]

/-! ### Which tags are read -/

/-- What the tags say about yaw, pitch and roll, in degrees, pitch 0 for a camera that looks down: the tags of the camera, or those
of the gimbal (whose pitch is -90 when it looks down) when one of the former is missing. -/
def Says (parse : String → Option ℝ) (x : String → Option String) (v : Vec 3) : Prop :=
  (∃ a b c, x "@Camera:Yaw" = some a ∧ x "@Camera:Pitch" = some b ∧ x "@Camera:Roll" = some c ∧
    parse a = some (v 0) ∧ parse b = some (v 1) ∧ parse c = some (v 2)) ∨
  ((x "@Camera:Yaw" = none ∨ x "@Camera:Pitch" = none ∨ x "@Camera:Roll" = none) ∧
    ∃ a b c, x "@drone-dji:GimbalYawDegree" = some a ∧ x "@drone-dji:GimbalPitchDegree" = some b ∧
      x "@drone-dji:GimbalRollDegree" = some c ∧ parse a = some (v 0) ∧ parse b = some (v 1 - 90) ∧ parse c = some (v 2))

theorem readThree_some (parse : String → Option ℝ) (a b c : String) (v : Vec 3) :
    readThree parse a b c = some v ↔ parse a = some (v 0) ∧ parse b = some (v 1) ∧ parse c = some (v 2) := by
  unfold readThree
  split
  · rename_i u w z h1 h2 h3
    rw [h1, h2, h3]
    simp only [Option.some.injEq]
    constructor
    · rintro rfl; simp
    · rintro ⟨rfl, rfl, rfl⟩
      ext i; fin_cases i <;> rfl
  · rename_i h
    constructor
    · intro h'; cases h'
    · rintro ⟨h1, h2, h3⟩
      exact absurd h3 (h _ _ _ h1 h2)

theorem ypr_some (parse : String → Option ℝ) (x : String → Option String) (v : Vec 3) : ypr parse x = some v ↔ Says parse x v := by
  unfold ypr Says
  obtain ⟨k1, e1⟩ : ∃ k, k = "@Camera:Yaw" := ⟨_, rfl⟩
  obtain ⟨k2, e2⟩ : ∃ k, k = "@Camera:Pitch" := ⟨_, rfl⟩
  obtain ⟨k3, e3⟩ : ∃ k, k = "@Camera:Roll" := ⟨_, rfl⟩
  obtain ⟨k4, e4⟩ : ∃ k, k = "@drone-dji:GimbalYawDegree" := ⟨_, rfl⟩
  obtain ⟨k5, e5⟩ : ∃ k, k = "@drone-dji:GimbalPitchDegree" := ⟨_, rfl⟩
  obtain ⟨k6, e6⟩ : ∃ k, k = "@drone-dji:GimbalRollDegree" := ⟨_, rfl⟩
  rw [← e1, ← e2, ← e3, ← e4, ← e5, ← e6]
  clear e1 e2 e3 e4 e5 e6
  split
  · rename_i a b c h1 h2 h3
    rw [h1, h2, h3, readThree_some]
    simp
  · rename_i h
    have hmiss : x k1 = none ∨ x k2 = none ∨ x k3 = none := by
      cases g1 : x k1 with
      | none => exact Or.inl rfl
      | some a =>
        cases g2 : x k2 with
        | none => exact Or.inr (Or.inl rfl)
        | some b =>
          cases g3 : x k3 with
          | none => exact Or.inr (Or.inr rfl)
          | some c => exact absurd g3 (h _ _ _ g1 g2)
    split
    · rename_i a b c h4 h5 h6
      rw [h4, h5, h6, Option.map_eq_some_iff]
      constructor
      · rintro ⟨w, hw, rfl⟩
        refine Or.inr ⟨hmiss, a, b, c, rfl, rfl, rfl, ?_⟩
        obtain ⟨w1, w2, w3⟩ := (readThree_some _ _ _ _ _).1 hw
        refine ⟨w1, ?_, w3⟩
        rw [w2]; simp
      · rintro (⟨a', b', c', h1, h2, h3, _⟩ | ⟨_, a', b', c', h1, h2, h3, w1, w2, w3⟩)
        · exact absurd h3 (h _ _ _ h1 h2)
        · cases h1; cases h2; cases h3
          refine ⟨![v 0, v 1 - 90, v 2], (readThree_some _ _ _ _ _).2 ⟨w1, w2, w3⟩, ?_⟩
          ext i; fin_cases i <;> simp
    · rename_i h'
      constructor
      · intro q; cases q
      · rintro (⟨a', b', c', h1, h2, h3, _⟩ | ⟨_, a', b', c', h1, h2, h3, _⟩)
        · exact absurd h3 (h _ _ _ h1 h2)
        · exact absurd h3 (h' _ _ _ h1 h2)

theorem extract_some {parse : String → Option ℝ} {x : String → Option String} {rest : List (String → Option String)} {geo : GeoTag}
    {lat lon : ℝ} {v : Vec 3} (hlat : geo.lat = some lat) (hlon : geo.lon = some lon) (hv : Says parse x v) :
    extractOpk parse (x :: rest) geo = opkOf lat lon (geo.alt.getD 0) v := by
  unfold extractOpk
  rw [hlat, hlon]
  simp only
  rw [(ypr_some parse x v).2 hv]
  rfl

/-- C125: an image gets angles exactly when it has XMP data, a latitude and a longitude, and three tags that are numbers: those of
the camera if it has all three of them (also when they are not numbers), otherwise those of the gimbal. -/
theorem C125_present (parse : String → Option ℝ) (xmp : List (String → Option String)) (geo : GeoTag)
    (h1 : ∀ lat, geo.lat = some lat → -90 ≤ lat ∧ lat ≤ 90) (h3 : ∀ alt, geo.alt = some alt → -6335000 < alt) :
    (∃ opk, extractOpk parse xmp geo = some opk) ↔
      (∃ lat, geo.lat = some lat) ∧ (∃ lon, geo.lon = some lon) ∧ ∃ x rest v, xmp = x :: rest ∧ Says parse x v := by
  constructor
  · rintro ⟨opk, h⟩
    unfold extractOpk at h
    split at h
    · rename_i x rest lat lon hlat hlon
      obtain ⟨v, hv, _⟩ := Option.bind_eq_some_iff.1 h
      exact ⟨⟨_, hlat⟩, ⟨_, hlon⟩, x, rest, v, rfl, (ypr_some _ _ _).1 hv⟩
    · cases h
  · rintro ⟨⟨lat, hlat⟩, ⟨lon, hlon⟩, x, rest, v, rfl, hv⟩
    rw [extract_some hlat hlon hv]
    have halt : -6335000 < geo.alt.getD 0 := by
      cases hg : geo.alt with
      | none => norm_num
      | some a => exact h3 a hg
    obtain ⟨σ, ζ, _, _, _, _, _, _, h⟩ := opkOf_eq lat lon _ (h1 _ hlat).1 (h1 _ hlat).2 halt v
    exact ⟨_, h _ _ _ _ rfl rfl rfl rfl _ rfl⟩

theorem deg_rad (t : ℝ) : radians (degrees t) = t := by
  unfold radians degrees
  have := Real.pi_pos
  field_simp

theorem degrees_zero : degrees 0 = 0 := by unfold degrees; simp

theorem degrees_range (a b : ℝ) : -180 < degrees (arctan2 a b) ∧ degrees (arctan2 a b) ≤ 180 := by
  have := Complex.arg_mem_Ioc ⟨b, a⟩
  have hpi := Real.pi_pos
  unfold degrees arctan2
  constructor
  · rw [lt_div_iff₀ hpi]; nlinarith [this.1]
  · rw [div_le_iff₀ hpi]; nlinarith [this.2]

theorem cnb_nadir (y : ℝ) : cnb y 0 0 = !![Real.cos y, -Real.sin y, 0; Real.sin y, Real.cos y, 0; 0, 0, 1] := by
  unfold cnb
  ext i j; fin_cases i <;> fin_cases j <;> simp

/-- The angles of a camera that looks down. -/
theorem opkOf_nadir (lat lon alt yaw : ℝ) (h1 : -90 ≤ lat) (h2 : lat ≤ 90) (h3 : -6335000 < alt) :
    ∃ kappa, opkOf lat lon alt ![yaw, 0, 0] = some (0, 0, kappa) ∧ -180 < kappa ∧ kappa ≤ 180 ∧
      (0 < lat → Real.cos (radians kappa) = Real.cos (radians (lon - yaw + 90)) ∧
        Real.sin (radians kappa) = Real.sin (radians (lon - yaw + 90))) ∧
      (lat < 0 → Real.cos (radians kappa) = Real.cos (radians (lon - yaw - 90)) ∧
        Real.sin (radians kappa) = Real.sin (radians (lon - yaw - 90))) ∧
      (lat = 0 → kappa = 0) := by
  obtain ⟨σ, ζ, q1, q2, q3, q4, q5, q6, h⟩ := opkOf_eq lat lon alt h1 h2 h3 ![yaw, 0, 0]
  have hr0 : radians 0 = 0 := by unfold radians; simp
  have h := h (radians yaw) 0 0 (radians lon) rfl (by simp [hr0]) (by simp [hr0]) rfl _ rfl
  obtain ⟨c1, c2, c3, c4, c5⟩ := ceb_entries σ ζ (radians lon) (radians yaw) 0 0
  rw [c1, c2, c3, c4, c5, cnb_nadir] at h
  have e1 : σ * (-(Real.cos (radians lon) * Real.sin (radians yaw)) + Real.sin (radians lon) * Real.cos (radians yaw)) =
      σ * Real.sin (radians lon - radians yaw) := by rw [Real.sin_sub]; ring
  have e2 : σ * (Real.cos (radians lon) * Real.cos (radians yaw) + Real.sin (radians lon) * Real.sin (radians yaw)) =
      σ * Real.cos (radians lon - radians yaw) := by rw [Real.cos_sub]
  have hone : arctan2 0 1 = 0 := by
    have := arctan2_mul_cos_sin (k := 1) (t := 0) one_pos (by linarith [Real.pi_pos]) Real.pi_pos.le
    simpa using this
  simp [e1, e2, hone, degrees_zero] at h
  have f1 : radians (lon - yaw + 90) = radians lon - radians yaw + Real.pi / 2 := by unfold radians; ring
  have f2 : radians (lon - yaw - 90) = radians lon - radians yaw - Real.pi / 2 := by unfold radians; ring
  obtain ⟨d, hd⟩ : ∃ d, d = radians lon - radians yaw := ⟨_, rfl⟩
  rw [← hd] at h f1 f2
  have hsq : Real.sqrt ((σ * Real.sin d) ^ 2 + (-(σ * Real.cos d)) ^ 2) = |σ| := by
    rw [← Real.sqrt_sq_eq_abs]
    congr 1
    have := Real.sin_sq_add_cos_sq d
    linear_combination σ ^ 2 * this
  have g1 := cos_arctan2 (σ * Real.sin d) (-(σ * Real.cos d))
  have g2 := sin_arctan2 (σ * Real.sin d) (-(σ * Real.cos d))
  rw [hsq] at g1 g2
  refine ⟨_, h, (degrees_range _ _).1, (degrees_range _ _).2, ?_, ?_, ?_⟩
  · intro hl
    have hs := q2 hl
    rw [abs_of_neg hs] at g1 g2
    rw [deg_rad, f1, Real.cos_add_pi_div_two, Real.sin_add_pi_div_two]
    constructor
    · have : -σ * (Real.cos (arctan2 (-(σ * Real.cos d)) (σ * Real.sin d)) + Real.sin d) = 0 := by linarith
      rcases mul_eq_zero.1 this with h0 | h0
      · linarith
      · linarith
    · have : -σ * (Real.sin (arctan2 (-(σ * Real.cos d)) (σ * Real.sin d)) - Real.cos d) = 0 := by linarith
      rcases mul_eq_zero.1 this with h0 | h0
      · linarith
      · linarith
  · intro hl
    have hs := q3 hl
    rw [abs_of_pos hs] at g1 g2
    rw [deg_rad, f2, Real.cos_sub_pi_div_two, Real.sin_sub_pi_div_two]
    constructor
    · have : σ * (Real.cos (arctan2 (-(σ * Real.cos d)) (σ * Real.sin d)) - Real.sin d) = 0 := by linarith
      rcases mul_eq_zero.1 this with h0 | h0
      · linarith
      · linarith
    · have : σ * (Real.sin (arctan2 (-(σ * Real.cos d)) (σ * Real.sin d)) + Real.cos d) = 0 := by linarith
      rcases mul_eq_zero.1 this with h0 | h0
      · linarith
      · linarith
  · intro hl
    rw [q4 hl]
    have : arctan2 0 0 = 0 := by
      unfold arctan2
      have : (⟨0, 0⟩ : ℂ) = 0 := rfl
      rw [this, Complex.arg_zero]
    simp [this, degrees_zero]

/-! ### Where the camera ends up -/

theorem opk_down (w p k : ℝ) (hw : w = 0) (hp : p = 0) :
    (Angles.rotationFromOpk (radians w) (radians p) (radians k)) 2 = ![0, 0, -1] ∧
    -(Angles.rotationFromOpk (radians w) (radians p) (radians k)) 1 = ![-Real.sin (radians k), Real.cos (radians k), 0] := by
  have hr0 : radians 0 = 0 := by unfold radians; simp
  subst hw hp
  rw [Angles.opk_matrix, hr0]
  constructor
  · ext j; fin_cases j <;> simp
  · ext j; fin_cases j <;> simp

/-- C125, northern half: the angles of a camera that looks down are those of a camera that looks down (third axis), but the top of its
image, which the tags say points to `(sin yaw, cos yaw)` (east, north), is turned from there by the longitude and 90 degrees. -/
theorem C125_north (parse : String → Option ℝ) (x : String → Option String) (rest : List (String → Option String)) (geo : GeoTag)
    (lat lon yaw : ℝ) (hlat : geo.lat = some lat) (hlon : geo.lon = some lon) (h1 : 0 < lat) (h2 : lat ≤ 90)
    (h3 : ∀ alt, geo.alt = some alt → -6335000 < alt) (hv : Says parse x ![yaw, 0, 0]) :
    ∃ w p k, extractOpk parse (x :: rest) geo = some (w, p, k) ∧ w = 0 ∧ p = 0 ∧ -180 < k ∧ k ≤ 180 ∧
      (Angles.rotationFromOpk (radians w) (radians p) (radians k)) 2 = ![0, 0, -1] ∧
      -(Angles.rotationFromOpk (radians w) (radians p) (radians k)) 1 =
        ![Real.sin (radians (yaw - (lon + 90))), Real.cos (radians (yaw - (lon + 90))), 0] := by
  have halt : -6335000 < geo.alt.getD 0 := by
    cases hg : geo.alt with
    | none => norm_num
    | some a => exact h3 a hg
  obtain ⟨k, e, k1, k2, k3, _⟩ := opkOf_nadir lat lon (geo.alt.getD 0) yaw (by linarith) h2 halt
  obtain ⟨c1, c2⟩ := k3 h1
  obtain ⟨r1, r2⟩ := opk_down 0 0 k rfl rfl
  refine ⟨0, 0, k, by rw [extract_some hlat hlon hv, e], rfl, rfl, k1, k2, r1, ?_⟩
  have : radians (yaw - (lon + 90)) = -radians (lon - yaw + 90) := by unfold radians; ring
  rw [r2, c1, c2, this, Real.sin_neg, Real.cos_neg]

/-- C125, southern half: turned by the longitude less 90 degrees. -/
theorem C125_south (parse : String → Option ℝ) (x : String → Option String) (rest : List (String → Option String)) (geo : GeoTag)
    (lat lon yaw : ℝ) (hlat : geo.lat = some lat) (hlon : geo.lon = some lon) (h1 : lat < 0) (h2 : -90 ≤ lat)
    (h3 : ∀ alt, geo.alt = some alt → -6335000 < alt) (hv : Says parse x ![yaw, 0, 0]) :
    ∃ w p k, extractOpk parse (x :: rest) geo = some (w, p, k) ∧ w = 0 ∧ p = 0 ∧ -180 < k ∧ k ≤ 180 ∧
      (Angles.rotationFromOpk (radians w) (radians p) (radians k)) 2 = ![0, 0, -1] ∧
      -(Angles.rotationFromOpk (radians w) (radians p) (radians k)) 1 =
        ![Real.sin (radians (yaw - (lon - 90))), Real.cos (radians (yaw - (lon - 90))), 0] := by
  have halt : -6335000 < geo.alt.getD 0 := by
    cases hg : geo.alt with
    | none => norm_num
    | some a => exact h3 a hg
  obtain ⟨k, e, k1, k2, _, k3, _⟩ := opkOf_nadir lat lon (geo.alt.getD 0) yaw h2 (by linarith) halt
  obtain ⟨c1, c2⟩ := k3 h1
  obtain ⟨r1, r2⟩ := opk_down 0 0 k rfl rfl
  refine ⟨0, 0, k, by rw [extract_some hlat hlon hv, e], rfl, rfl, k1, k2, r1, ?_⟩
  have : radians (yaw - (lon - 90)) = -radians (lon - yaw - 90) := by unfold radians; ring
  rw [r2, c1, c2, this, Real.sin_neg, Real.cos_neg]

/-- C125: so, for a camera that looks down on the northern half, the top of the image ends up where the tags say exactly at longitude
-90 (and 270), and it points the other way at longitude 90. -/
theorem C125_where (parse : String → Option ℝ) (x : String → Option String) (rest : List (String → Option String)) (geo : GeoTag)
    (lat lon yaw : ℝ) (hlat : geo.lat = some lat) (hlon : geo.lon = some lon) (h1 : 0 < lat) (h2 : lat ≤ 90)
    (h3 : ∀ alt, geo.alt = some alt → -6335000 < alt) (hv : Says parse x ![yaw, 0, 0]) (w p k : ℝ)
    (h : extractOpk parse (x :: rest) geo = some (w, p, k)) :
    (-(Angles.rotationFromOpk (radians w) (radians p) (radians k)) 1) ⬝ᵥ ![Real.sin (radians yaw), Real.cos (radians yaw), 0] =
      -Real.sin (radians lon) ∧
    (-(Angles.rotationFromOpk (radians w) (radians p) (radians k)) 1 = ![Real.sin (radians yaw), Real.cos (radians yaw), 0] ↔
      ∃ n : ℤ, lon = -90 + n * 360) := by
  obtain ⟨w', p', k', e, _, _, _, _, _, r⟩ := C125_north parse x rest geo lat lon yaw hlat hlon h1 h2 h3 hv
  rw [h] at e
  obtain ⟨rfl, rfl, rfl⟩ : w = w' ∧ p = p' ∧ k = k' := by simpa using e
  have hpi := Real.pi_pos
  have e1 : radians (yaw - (lon + 90)) = radians yaw - radians lon - Real.pi / 2 := by unfold radians; ring
  have e2 : Real.sin (radians (yaw - (lon + 90))) = -Real.cos (radians yaw - radians lon) := by
    rw [e1, Real.sin_sub_pi_div_two]
  have e3 : Real.cos (radians (yaw - (lon + 90))) = Real.sin (radians yaw - radians lon) := by
    rw [e1, Real.cos_sub_pi_div_two]
  rw [r, e2, e3]
  have hs := Real.sin_sq_add_cos_sq (radians yaw)
  have hl := Real.sin_sq_add_cos_sq (radians lon)
  have hdot : (![-Real.cos (radians yaw - radians lon), Real.sin (radians yaw - radians lon), 0] : Vec 3) ⬝ᵥ
      ![Real.sin (radians yaw), Real.cos (radians yaw), 0] = -Real.sin (radians lon) := by
    rw [Real.cos_sub, Real.sin_sub]
    simp [dotProduct, Fin.sum_univ_three]
    linear_combination (-Real.sin (radians lon)) * hs
  refine ⟨hdot, ?_⟩
  constructor
  · intro heq
    rw [heq] at hdot
    have hone : (![Real.sin (radians yaw), Real.cos (radians yaw), 0] : Vec 3) ⬝ᵥ
        ![Real.sin (radians yaw), Real.cos (radians yaw), 0] = 1 := by
      simp [dotProduct, Fin.sum_univ_three]; linarith
    rw [hone] at hdot
    have hsin : Real.sin (radians lon) = -1 := by linarith
    obtain ⟨n, hn⟩ := Real.sin_eq_neg_one_iff.1 hsin
    refine ⟨n, ?_⟩
    unfold radians at hn
    have : Real.pi * (lon - (-90 + n * 360)) = 0 := by linear_combination (-180) * hn
    rcases mul_eq_zero.1 this with h0 | h0
    · exact absurd h0 hpi.ne'
    · linarith
  · rintro ⟨n, rfl⟩
    have : radians yaw - radians (-90 + n * 360) = radians yaw + Real.pi / 2 - n * (2 * Real.pi) := by unfold radians; ring
    rw [this, Real.cos_sub_int_mul_two_pi, Real.sin_sub_int_mul_two_pi, Real.cos_add_pi_div_two, Real.sin_add_pi_div_two, neg_neg]

/-- C125, the equator: whatever yaw, pitch and roll are, the camera is put looking straight down or straight up with its image
towards the north or the south. -/
theorem C125_equator (parse : String → Option ℝ) (x : String → Option String) (rest : List (String → Option String)) (geo : GeoTag)
    (lon : ℝ) (v : Vec 3) (hlat : geo.lat = some 0) (hlon : geo.lon = some lon)
    (h3 : ∀ alt, geo.alt = some alt → -6335000 < alt) (hv : Says parse x v) :
    ∃ w, extractOpk parse (x :: rest) geo = some (w, 0, 0) ∧ (w = 0 ∨ w = 180) := by
  have halt : -6335000 < geo.alt.getD 0 := by
    cases hg : geo.alt with
    | none => norm_num
    | some a => exact h3 a hg
  obtain ⟨σ, ζ, q1, q2, q3, q4, q5, q6, h⟩ := opkOf_eq 0 lon (geo.alt.getD 0) (by norm_num) (by norm_num) halt v
  have h := h _ _ _ _ rfl rfl rfl rfl _ rfl
  obtain ⟨c1, c2, c3, c4, c5⟩ := ceb_entries σ ζ (radians lon) (radians (v 0)) (radians (v 1)) (radians (v 2))
  rw [c1, c2, c3, c4, c5, q4 rfl] at h
  have h00 : arctan2 0 0 = 0 := by
    unfold arctan2
    have : (⟨0, 0⟩ : ℂ) = 0 := rfl
    rw [this, Complex.arg_zero]
  simp only [zero_mul, neg_zero, Real.arcsin_zero, h00, degrees_zero] at h
  refine ⟨_, by rw [extract_some hlat hlon hv, h], ?_⟩
  generalize -(ζ * cnb (radians (v 0)) (radians (v 1)) (radians (v 2)) 0 2) + cnb (radians (v 0)) (radians (v 1)) (radians (v 2)) 2 2 = c
  unfold arctan2
  have hc : (⟨c, 0⟩ : ℂ) = (c : ℂ) := rfl
  rw [hc]
  rcases le_or_gt 0 c with h0 | h0
  · left; rw [Complex.arg_ofReal_of_nonneg h0, degrees_zero]
  · right
    rw [Complex.arg_ofReal_of_neg h0]
    unfold degrees
    have := Real.pi_pos
    field_simp

/-- C125: at the north pole the orientation is the one of the tags turned about the vertical by the longitude and 90 degrees, for every
yaw, pitch and roll (rows: right, down and forward of the camera in east, north and up), unless the camera looks level along the turned
east axis. -/
theorem C125_pole (parse : String → Option ℝ) (x : String → Option String) (rest : List (String → Option String)) (geo : GeoTag)
    (lon : ℝ) (v : Vec 3) (hlat : geo.lat = some 90) (hlon : geo.lon = some lon)
    (h3 : ∀ alt, geo.alt = some alt → -6335000 < alt) (hv : Says parse x v) (y p r β : ℝ)
    (hy : y = v 0 * Real.pi / 180) (hp : p = v 1 * Real.pi / 180) (hr : r = v 2 * Real.pi / 180)
    (hβ : β = (lon + 90) * Real.pi / 180) (right top forward : Vec 3)
    (hright : right = ![Real.sin y * Real.sin p * Real.sin r + Real.cos y * Real.cos r,
      Real.cos y * Real.sin p * Real.sin r - Real.sin y * Real.cos r, -(Real.cos p * Real.sin r)])
    (htop : top = ![Real.sin y * Real.cos p, Real.cos y * Real.cos p, Real.sin p])
    (hforward : forward = ![Real.sin y * Real.sin p * Real.cos r - Real.cos y * Real.sin r,
      Real.cos y * Real.sin p * Real.cos r + Real.sin y * Real.sin r, -(Real.cos p * Real.cos r)])
    (hl : (Real.cos β * forward 0 - Real.sin β * forward 1) ^ 2 < 1) :
    ∃ o f k, extractOpk parse (x :: rest) geo = some (o, f, k) ∧
      ∀ R, R = Angles.rotationFromOpk (o * Real.pi / 180) (f * Real.pi / 180) (k * Real.pi / 180) →
        R 0 = !![Real.cos β, -Real.sin β, 0; Real.sin β, Real.cos β, 0; 0, 0, 1] *ᵥ right ∧
        R 1 = !![Real.cos β, -Real.sin β, 0; Real.sin β, Real.cos β, 0; 0, 0, 1] *ᵥ (-top) ∧
        R 2 = !![Real.cos β, -Real.sin β, 0; Real.sin β, Real.cos β, 0; 0, 0, 1] *ᵥ forward := by
  have halt : -6335000 < geo.alt.getD 0 := by
    cases hg : geo.alt with
    | none => norm_num
    | some a => exact h3 a hg
  obtain ⟨σ, ζ, q1, q2, q3, q4, q5, q6, h⟩ := opkOf_eq 90 lon (geo.alt.getD 0) (by norm_num) le_rfl halt v
  have hz : ζ = 0 := q5 rfl
  have hσ : σ = -1 := by
    have := q2 (by norm_num)
    rw [hz] at q1
    nlinarith
  have h := h y p r (radians lon) hy hp hr rfl _ rfl
  subst hz hσ
  have b1 : β = radians lon + Real.pi / 2 := by rw [hβ]; unfold radians; ring
  have b2 : Real.cos β = -Real.sin (radians lon) := by rw [b1, Real.cos_add_pi_div_two]
  have b3 : Real.sin β = Real.cos (radians lon) := by rw [b1, Real.sin_add_pi_div_two]
  obtain ⟨M, hM⟩ : ∃ M, M = cen ![-1 * Real.cos (radians lon), -1 * Real.sin (radians lon), 0] * cnb y p r * cbb := ⟨_, rfl⟩
  rw [← hM] at h
  obtain ⟨R, hR⟩ : ∃ R : Mat 3, R = (M * Angles.opkAxes)ᵀ := ⟨_, rfl⟩
  have hopp : Angles.opkAxes * Angles.opkAxes = 1 := by
    ext i j; fin_cases i <;> fin_cases j <;> simp [Angles.opkAxes, Matrix.mul_apply, Fin.sum_univ_three]
  have hrows : R 0 = !![Real.cos β, -Real.sin β, 0; Real.sin β, Real.cos β, 0; 0, 0, 1] *ᵥ right ∧
        R 1 = !![Real.cos β, -Real.sin β, 0; Real.sin β, Real.cos β, 0; 0, 0, 1] *ᵥ (-top) ∧
        R 2 = !![Real.cos β, -Real.sin β, 0; Real.sin β, Real.cos β, 0; 0, 0, 1] *ᵥ forward := by
    rw [hR, hM, cen_eq, b2, b3, hright, htop, hforward]
    unfold cnb cbb Angles.opkAxes
    refine ⟨?_, ?_, ?_⟩ <;> ext j <;> fin_cases j <;>
      simp [Matrix.mul_apply, Fin.sum_univ_three, Matrix.mulVec, Matrix.vecMul, dotProduct] <;> ring
  have hrot : IsRot R := by
    have t1 : IsRot (cen ![-1 * Real.cos (radians lon), -1 * Real.sin (radians lon), 0]) := by
      have := Real.sin_sq_add_cos_sq (radians lon)
      rw [cen_eq]
      refine ⟨?_, ?_⟩
      · ext i j; fin_cases i <;> fin_cases j <;> simp [Matrix.mul_apply, Fin.sum_univ_three] <;> linarith
      · rw [det_fin_three]; simp; linarith
    have t2 : ∀ i t, IsRot (Angles.turn i t) := by
      intro i t
      have := Real.sin_sq_add_cos_sq t
      unfold Angles.turn
      refine ⟨?_, ?_⟩
      · fin_cases i <;> ext a b <;> fin_cases a <;> fin_cases b <;> simp [Matrix.mul_apply, Fin.sum_univ_three] <;> linarith
      · fin_cases i <;> (simp only []; rw [det_fin_three]; simp; linarith)
    have t3 : cnb y p r = Angles.turn 2 y * Angles.turn 1 p * Angles.turn 0 r := by
      unfold cnb Angles.turn
      ext i j; fin_cases i <;> fin_cases j <;> simp [Matrix.mul_apply, Fin.sum_univ_three, Matrix.vecMul, dotProduct] <;> ring
    have t4 : IsRot cbb := by
      unfold cbb
      refine ⟨?_, ?_⟩
      · ext i j; fin_cases i <;> fin_cases j <;> simp [Matrix.mul_apply, Fin.sum_univ_three]
      · rw [det_fin_three]; simp
    have t5 : IsRot Angles.opkAxes := by
      unfold Angles.opkAxes
      refine ⟨?_, ?_⟩
      · ext i j; fin_cases i <;> fin_cases j <;> simp [Matrix.mul_apply, Fin.sum_univ_three]
      · rw [det_fin_three]; simp
    have t6 : IsRot (M * Angles.opkAxes) := by
      rw [hM, t3]
      exact AlignPrior.rot_mul (AlignPrior.rot_mul (AlignPrior.rot_mul t1 (AlignPrior.rot_mul (AlignPrior.rot_mul (t2 _ _) (t2 _ _)) (t2 _ _))) t4) t5
    rw [hR]
    exact RelativePose.rot_transpose t6
  have hopk : Angles.opkFromRotation R = (arctan2 (-M 1 2) (M 2 2), Real.arcsin (M 0 2), arctan2 (-M 0 1) (M 0 0)) := by
    unfold Angles.opkFromRotation
    rw [hR, transpose_transpose, Matrix.mul_assoc, hopp, Matrix.mul_one]
  have hlock : R 2 0 ^ 2 < 1 := by
    rw [hrows.2.2]
    have : (!![Real.cos β, -Real.sin β, 0; Real.sin β, Real.cos β, 0; 0, 0, 1] *ᵥ forward) 0 =
        Real.cos β * forward 0 - Real.sin β * forward 1 := by
      simp [Matrix.mulVec, dotProduct, Fin.sum_univ_three]; ring
    rw [this]; exact hl
  have hinv := Angles.C106_opk_inverse R hrot hlock _ _ _ hopk
  refine ⟨_, _, _, by rw [extract_some hlat hlon hv, h], ?_⟩
  rintro R' rfl
  have er : ∀ t, degrees t * Real.pi / 180 = t := fun t => deg_rad t
  rw [er, er, er, hinv]
  exact hrows

/-! ### Examples -/

/-- A drone at Greenwich's longitude whose image points north. -/
def exTags (k : String) : Option String :=
  if k = "@drone-dji:GimbalYawDegree" then some "+0.00" else if k = "@drone-dji:GimbalPitchDegree" then some "-90.00"
  else if k = "@drone-dji:GimbalRollDegree" then some "+0.00" else none

/-- `float` on the texts of the example. -/
noncomputable def exParse (s : String) : Option ℝ := if s = "+0.00" then some 0 else if s = "-90.00" then some (-90) else none

theorem exSays : Says exParse exTags ![0, 0, 0] := by
  right
  refine ⟨Or.inl (by decide +kernel), "+0.00", "-90.00", "+0.00", by decide +kernel, by decide +kernel, by decide +kernel, ?_, ?_, ?_⟩
  · unfold exParse; rw [if_pos rfl]; simp
  · unfold exParse; rw [if_neg (by decide +kernel), if_pos rfl]; simp
  · unfold exParse; rw [if_pos rfl]; simp

/-- C125, what it means: a drone over Greenwich that looks down with the top of its image to the north is put with the top to the
west. -/
theorem C125_greenwich : ∃ k, extractOpk exParse [exTags] ⟨some 51.5, some 0, some 100⟩ = some (0, 0, k) ∧
    -(Angles.rotationFromOpk 0 0 (radians k)) 1 = ![-1, 0, 0] := by
  obtain ⟨w, p, k, e, rfl, rfl, _, _, _, r⟩ := C125_north exParse exTags [] ⟨some 51.5, some 0, some 100⟩ 51.5 0 0 rfl rfl (by norm_num)
    (by norm_num) (by intro a ha; cases ha; norm_num) exSays
  refine ⟨k, e, ?_⟩
  have h0 : radians 0 = 0 := by unfold radians; simp
  have h1 : radians (0 - (0 + 90)) = -(Real.pi / 2) := by unfold radians; ring
  rw [h0, h1, Real.sin_neg, Real.cos_neg, Real.sin_pi_div_two, Real.cos_pi_div_two] at r
  exact r

end Verif.ExifOpk
