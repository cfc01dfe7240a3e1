import Verif.Model.Gpx
import Mathlib.Tactic.Linarith
import Mathlib.Tactic.FieldSimp
import Mathlib.Tactic.LinearCombination
import Mathlib.Algebra.Order.Field.Basic

/-!
# C54, C68: positions from a GPX track, and points sampled along it
-/
set_option linter.unusedSectionVars false
set_option linter.unusedSimpArgs false
namespace Verif.Gpx

theorem enclosing_spec (t : ℚ) (l : List Pt) (prev : Pt) (hp : prev.t ≤ t) (hl : ∃ p ∈ l, t < p.t) :
    ∃ l1 before after l2, prev :: l = l1 ++ before :: after :: l2 ∧
      enclosing t (some prev) l = some (before, after) ∧ before.t ≤ t ∧ t < after.t ∧
      ∀ p ∈ l1, p.t ≤ t := by
  induction l generalizing prev with
  | nil => simp at hl
  | cons p l ih =>
    by_cases h : t < p.t
    · exact ⟨[], prev, p, l, rfl, by simp [enclosing, h], hp, h, by simp⟩
    · have hl' : ∃ q ∈ l, t < q.t := by
        obtain ⟨q, hq, hlt⟩ := hl
        rcases List.mem_cons.1 hq with rfl | hq
        · exact absurd hlt h
        · exact ⟨q, hq, hlt⟩
      obtain ⟨l1, be, af, l2, he, hen, h1, h2, h3⟩ := ih p (le_of_not_gt h) hl'
      refine ⟨prev :: l1, be, af, l2, by rw [he]; rfl, by simp [enclosing, h, hen], h1, h2, ?_⟩
      intro q hq
      rcases List.mem_cons.1 hq with rfl | hq
      · exact hp
      · exact h3 q hq

/-- The value at the fraction `w` between two values. -/
def between (w a b : ℚ) : ℚ := (1 - w) * a + w * b

/-- C54. A time before the first point, or not before the last one, is refused; so is an empty track. -/
theorem C54_outside (points : List Pt) (t : ℚ)
    (h : ∀ first last, points.head? = some first → points.getLast? = some last → t < first.t ∨ last.t ≤ t) :
    interpolate points t = none := by
  unfold interpolate
  cases h1 : points.head? with
  | none => rfl
  | some f =>
    cases h2 : points.getLast? with
    | none => rfl
    | some l => simp only; rw [if_pos (h f l h1 h2)]

/-- C54. Any other time lies between two consecutive points, the first such pair, and the position is the
mean of theirs weighted with the times; the elevation too. -/
theorem C54_inside (points : List Pt) (t : ℚ) (first last : Pt) (hf : points.head? = some first)
    (hl : points.getLast? = some last) (h1 : first.t ≤ t) (h2 : t < last.t)
    (hele : ∀ p ∈ points, p.ele.isSome) :
    ∃ l1 before after l2, ∃ w ea eb : ℚ, points = l1 ++ before :: after :: l2 ∧ (∀ p ∈ l1, p.t ≤ t) ∧
      before.t ≤ t ∧ t < after.t ∧ w = (t - before.t) / (after.t - before.t) ∧ 0 ≤ w ∧ w < 1 ∧
      before.ele = some ea ∧ after.ele = some eb ∧
      interpolate points t = some (between w before.lat after.lat, between w before.lon after.lon,
        some (between w ea eb), before, after) := by
  cases points with
  | nil => cases hf
  | cons p l =>
    simp only [List.head?_cons, Option.some.injEq] at hf
    subst hf
    have hlast : last ∈ p :: l := List.mem_of_getLast? hl
    have hex : ∃ q ∈ l, t < q.t := by
      rcases List.mem_cons.1 hlast with rfl | h
      · exact absurd h2 (not_lt.2 h1)
      · exact ⟨last, h, h2⟩
    obtain ⟨l1, be, af, l2, he, hen, h3, h4, h5⟩ := enclosing_spec t l p h1 hex
    have hbe := hele be (by rw [he]; simp)
    have haf := hele af (by rw [he]; simp)
    obtain ⟨ea, hea⟩ := Option.isSome_iff_exists.1 hbe
    obtain ⟨eb, heb⟩ := Option.isSome_iff_exists.1 haf
    have hpos : 0 < af.t - be.t := by linarith
    have hsum : t - be.t + (af.t - t) = af.t - be.t := by ring
    have hen' : enclosing t none (p :: l) = some (be, af) := by
      rw [enclosing, if_neg (not_lt.2 h1)]; exact hen
    refine ⟨l1, be, af, l2, _, ea, eb, he, h5, h3, h4, rfl, div_nonneg (by linarith) hpos.le, ?_, hea, heb, ?_⟩
    · rw [div_lt_one hpos]; linarith
    · unfold interpolate
      rw [hl]
      simp only [List.head?_cons]
      rw [if_neg (by push Not; exact ⟨h1, h2⟩)]
      simp only [hen', hea, heb, hsum]
      rw [if_neg hpos.ne']
      have hmix : ∀ a b : ℚ, (a * (af.t - t) + b * (t - be.t)) / (af.t - be.t) =
          between ((t - be.t) / (af.t - be.t)) a b := by
        intro a b
        unfold between
        field_simp
        ring
      simp only [hmix]

/-- C54. At the time of a point the position is that point. -/
theorem C54_at_point (points : List Pt) (hs : points.Pairwise (fun a b => a.t < b.t)) (p last : Pt)
    (hp : p ∈ points) (hl : points.getLast? = some last) (h2 : p.t < last.t)
    (hele : ∀ p ∈ points, p.ele.isSome) :
    ∃ after, interpolate points p.t = some (p.lat, p.lon, p.ele, p, after) := by
  cases hpts : points with
  | nil => subst hpts; cases hp
  | cons first l =>
    have h1 : first.t ≤ p.t := by
      subst hpts
      rcases List.mem_cons.1 hp with rfl | h
      · exact le_refl _
      · exact (List.pairwise_cons.1 hs).1 p h |>.le
    obtain ⟨l1, be, af, l2, w, ea, eb, he, h5, h3, h4, hw, -, -, hea, heb, hres⟩ :=
      C54_inside points p.t first last (by rw [hpts]; rfl) hl h1 h2 hele
    have hbe : be = p := by
      rw [he] at hp hs
      rcases List.mem_append.1 hp with h | h
      · have := (List.pairwise_append.1 hs).2.2 p h be (by simp)
        linarith
      · rcases List.mem_cons.1 h with rfl | h
        · rfl
        · have hs2 := (List.pairwise_append.1 hs).2.1
          rcases List.mem_cons.1 h with rfl | h
          · linarith
          · have := (List.pairwise_cons.1 (List.pairwise_cons.1 hs2).2).1 p h
            linarith
    subst hbe
    have hw0 : w = 0 := by rw [hw]; simp
    refine ⟨af, ?_⟩
    rw [← hpts, hres, hw0, hea]
    simp [between]

theorem between_bounds (w a b : ℚ) (h0 : 0 ≤ w) (h1 : w ≤ 1) :
    min a b ≤ between w a b ∧ between w a b ≤ max a b := by
  unfold between
  constructor
  · have h2 := min_le_left a b
    have h3 := min_le_right a b
    nlinarith
  · have h2 := le_max_left a b
    have h3 := le_max_right a b
    nlinarith

/-- C54. Every computed latitude, longitude and elevation is between those of two consecutive points. -/
theorem C54_bounds (points : List Pt) (t : ℚ) (first last : Pt) (hf : points.head? = some first)
    (hl : points.getLast? = some last) (h1 : first.t ≤ t) (h2 : t < last.t)
    (hele : ∀ p ∈ points, p.ele.isSome) (lat lon : ℚ) (ele : Option ℚ) (a b : Pt)
    (h : interpolate points t = some (lat, lon, ele, a, b)) :
    (min a.lat b.lat ≤ lat ∧ lat ≤ max a.lat b.lat) ∧ (min a.lon b.lon ≤ lon ∧ lon ≤ max a.lon b.lon) ∧
      ∃ e ea eb : ℚ, ele = some e ∧ a.ele = some ea ∧ b.ele = some eb ∧ min ea eb ≤ e ∧ e ≤ max ea eb := by
  obtain ⟨l1, be, af, l2, w, ea, eb, -, -, -, -, -, hw0, hw1, hea, heb, hres⟩ :=
    C54_inside points t first last hf hl h1 h2 hele
  rw [hres] at h
  obtain ⟨rfl, rfl, rfl, rfl, rfl⟩ : _ ∧ _ ∧ _ ∧ _ ∧ _ := by simpa using h
  exact ⟨between_bounds w _ _ hw0 hw1.le, between_bounds w _ _ hw0 hw1.le,
    _, ea, eb, rfl, hea, heb, between_bounds w _ _ hw0 hw1.le⟩

/-- C54. A track that crosses the antimeridian is interpolated the wrong way round the globe. -/
theorem C54_antimeridian :
    ∃ points : List Pt, (∀ p ∈ points, 179 ≤ |p.lon|) ∧ ∃ t lat ele a b,
      interpolate points t = some (lat, 0, ele, a, b) := by
  refine ⟨[⟨0, 0, 179, some 0⟩, ⟨2, 0, -179, some 0⟩], ?_, 1, 0, some 0, ⟨0, 0, 179, some 0⟩,
    ⟨2, 0, -179, some 0⟩, ?_⟩
  · intro p hp
    simp only [List.mem_cons, List.not_mem_nil, or_false] at hp
    rcases hp with rfl | rfl <;> norm_num
  · decide +kernel

/-- C54. A point with an elevation followed by one without makes the call raise. -/
theorem C54_elevation (t0 t1 t la lo la' lo' e : ℚ) (h0 : t0 ≤ t) (h1 : t < t1) :
    interpolate [⟨t0, la, lo, some e⟩, ⟨t1, la', lo', none⟩] t = none := by
  unfold interpolate
  simp only [List.head?_cons, List.getLast?_cons_cons, List.getLast?_singleton]
  rw [if_neg (by push Not; exact ⟨h0, h1⟩)]
  simp only [enclosing, not_lt.2 h0, if_false, h1, if_true, Option.getD_some]
  split <;> rfl

/-! ### The coordinates written to EXIF -/

theorem pyRound_le (q : ℚ) : |(Calibration.pyRound q : ℚ) - q| ≤ 1 / 2 := by
  unfold Calibration.pyRound
  have h1 := Int.floor_le q
  have h2 := Int.lt_floor_add_one q
  simp only
  split
  · rw [abs_le]; constructor <;> linarith
  · split
    · push_cast; rw [abs_le]; constructor <;> linarith
    · rename_i ha hb
      have : q - (⌊q⌋ : ℚ) = 1 / 2 := le_antisymm (not_lt.1 hb) (not_lt.1 ha)
      split
      · rw [abs_le]; constructor <;> linarith
      · push_cast; rw [abs_le]; constructor <;> linarith

/-- C54. A latitude or longitude written to EXIF and read again is the same up to half a millionth of an arc
second, with its sign, zero included. -/
theorem C54_dms (value : ℚ) (neg pos : List Char) (h : (neg, pos) = (['S'], ['N']) ∨ (neg, pos) = (['W'], ['E'])) :
    ∃ v : ℚ, Exif.gpsToDecimal (exifDms value neg pos).1 (exifDms value neg pos).2 = some (some v) ∧
      |v - value| ≤ 1 / 2 / 1000000 / 3600 := by
  have hfl : ∀ z : ℤ, ⌊((z : ℚ) / 1000000) * 1000000⌋ = z := by
    intro z
    rw [div_mul_cancel₀ _ (by norm_num : (1000000 : ℚ) ≠ 0), Int.floor_intCast]
  unfold exifDms toDeg round6
  simp only [hfl]
  set m := ⌊|value|⌋ with hm
  set t1 := (|value| - (m : ℚ)) * 60 with ht1
  set k := ⌊t1⌋ with hk
  set z := Calibration.pyRound ((t1 - (k : ℚ)) * 60 * 1000000) with hz
  have hr := pyRound_le ((t1 - (k : ℚ)) * 60 * 1000000)
  rw [← hz] at hr
  have hcore : |((m : ℚ) + k / 60 + (z / 1000000) / 3600) - (|value|)| ≤ 1 / 2 / 1000000 / 3600 := by
    have e : ((m : ℚ) + k / 60 + (z / 1000000) / 3600) - (|value|) =
        ((z : ℚ) - (t1 - (k : ℚ)) * 60 * 1000000) / (1000000 * 3600) := by
      rw [ht1]; ring
    rw [e, abs_div, abs_of_pos (by norm_num : (0 : ℚ) < 1000000 * 3600)]
    rw [div_le_iff₀ (by norm_num)]
    calc _ ≤ 1 / 2 := hr
      _ ≤ _ := by norm_num
  unfold Exif.gpsToDecimal Exif.evalFrac
  simp only [one_ne_zero, if_false, Int.cast_one, div_one,
    (by norm_num : (1000000 : ℤ) ≠ 0), Int.cast_ofNat]
  refine ⟨_, rfl, ?_⟩
  rcases lt_trichotomy value 0 with hv | hv | hv
  · rw [if_pos hv]
    have hn : ¬ (neg = [] ∨ neg = ['N'] ∨ neg = ['E'] ∨ neg = ['N', 'E']) := by
      rcases h with h | h <;> (obtain ⟨rfl, rfl⟩ := Prod.mk.inj h; simp)
    rw [if_neg hn]
    rw [abs_of_neg hv] at hcore
    rw [abs_le] at hcore ⊢
    constructor <;> linarith [hcore.1, hcore.2]
  · have e1 : (if value < 0 then neg else if value > 0 then pos else []) = ([] : List Char) := by
      simp [hv]
    rw [e1, if_pos (Or.inl rfl)]
    rw [hv, abs_zero] at hcore
    rw [hv, one_mul]
    exact hcore
  · rw [if_neg (not_lt.2 hv.le), if_pos hv]
    have hp : (pos = [] ∨ pos = ['N'] ∨ pos = ['E'] ∨ pos = ['N', 'E']) := by
      rcases h with h | h <;> (obtain ⟨rfl, rfl⟩ := Prod.mk.inj h; simp)
    rw [if_pos hp, one_mul]
    rwa [abs_of_pos hv] at hcore

/-! ### The bearing -/

/-- C54. A bearing is in `[0, 360)`. -/
theorem C54_bearing_range (lat1 lon1 lat2 lon2 : ℝ) :
    0 ≤ bearing lat1 lon1 lat2 lon2 ∧ bearing lat1 lon1 lat2 lon2 < 360 := by
  have h := toIcoMod_mem_Ico (by norm_num : (0 : ℝ) < 360) 0
    (Complex.arg ⟨Real.cos (radians lat1) * Real.sin (radians lat2) -
      Real.sin (radians lat1) * Real.cos (radians lat2) * Real.cos (wrapLong (radians lon2 - radians lon1)),
      Real.sin (wrapLong (radians lon2 - radians lon1)) * Real.cos (radians lat2)⟩ * (180 / Real.pi) + 360)
  unfold bearing
  exact ⟨h.1, by have := h.2; linarith⟩

theorem wrap_sin (d : ℝ) : Real.sin (wrapLong d) = Real.sin d ∧ Real.cos (wrapLong d) = Real.cos d := by
  unfold wrapLong
  split
  · split
    · have : -(2 * Real.pi - d) = d - 2 * Real.pi := by ring
      rw [this, Real.sin_sub_two_pi, Real.cos_sub_two_pi]
      exact ⟨rfl, rfl⟩
    · rw [add_comm, Real.sin_add_two_pi, Real.cos_add_two_pi]
      exact ⟨rfl, rfl⟩
  · exact ⟨rfl, rfl⟩

/-- C54. A bearing does not depend on which turn the longitudes are given in. -/
theorem C54_bearing_turns (lat1 lon1 lat2 lon2 : ℝ) (j k : ℤ) :
    bearing lat1 (lon1 + 360 * j) lat2 (lon2 + 360 * k) = bearing lat1 lon1 lat2 lon2 := by
  unfold bearing
  simp only [(wrap_sin _).1, (wrap_sin _).2]
  have e : radians (lon2 + 360 * k) - radians (lon1 + 360 * j) =
      (radians lon2 - radians lon1) + ((k - j : ℤ) : ℝ) * (2 * Real.pi) := by
    unfold radians; push_cast; ring
  rw [e, Real.sin_add_int_mul_two_pi, Real.cos_add_int_mul_two_pi]

theorem bearing_of_arg (v θ c : ℝ) (z : ℤ) (hv : v = θ * (180 / Real.pi) + 360)
    (hc : 0 ≤ c ∧ c < 360) (h : v = c + z * 360) :
    toIcoMod (by norm_num : (0 : ℝ) < 360) 0 v = c := by
  rw [toIcoMod_eq_iff]
  refine ⟨⟨hc.1, by linarith [hc.2]⟩, z, ?_⟩
  rw [h, zsmul_eq_mul]

/-- C54. Due north is 0 and due south 180 from any latitude, and due east along the equator is 90. -/
theorem C54_bearing_compass (lat1 lat2 lon : ℝ) (h1 : -90 < lat1) (h2 : lat2 ≤ 90) (h : lat1 < lat2) :
    bearing lat1 lon lat2 lon = 0 ∧ bearing lat2 lon lat1 lon = 180 ∧
      ∀ e, 0 < e → e < 180 → bearing 0 lon 0 (lon + e) = 90 := by
  have hpi := Real.pi_pos
  have hr : ∀ x y : ℝ, radians y - radians x = (y - x) * (Real.pi / 180) := by
    intro x y; unfold radians; ring
  have hsin : ∀ x : ℝ, 0 < x → x < 180 → 0 < Real.sin (x * (Real.pi / 180)) := by
    intro x hx hx'
    refine Real.sin_pos_of_pos_of_lt_pi (mul_pos hx (by positivity)) ?_
    have h3 : x * (Real.pi / 180) < 180 * (Real.pi / 180) :=
      mul_lt_mul_of_pos_right hx' (by positivity)
    have h4 : 180 * (Real.pi / 180) = Real.pi := by ring
    linarith
  have hpos : 0 < Real.sin (radians lat2 - radians lat1) := by
    rw [hr]; exact hsin _ (by linarith) (by linarith)
  have hw0 : radians lon - radians lon = 0 := by ring
  have key : ∀ a b : ℝ, bearing a lon b lon =
      toIcoMod (by norm_num : (0 : ℝ) < 360) 0
        (Complex.arg ((Real.sin (radians b - radians a) : ℝ) : ℂ) * (180 / Real.pi) + 360) := by
    intro a b
    unfold bearing
    simp only [(wrap_sin _).1, (wrap_sin _).2, hw0, Real.sin_zero, Real.cos_zero, zero_mul, mul_one]
    congr 4
    rw [Complex.ext_iff]
    refine ⟨?_, by rw [Complex.ofReal_im]⟩
    rw [Complex.ofReal_re, Real.sin_sub]
    ring
  refine ⟨?_, ?_, ?_⟩
  · rw [key, Complex.arg_ofReal_of_nonneg hpos.le]
    refine bearing_of_arg _ 0 _ 1 rfl (by norm_num) (by norm_num)
  · have hneg : Real.sin (radians lat1 - radians lat2) < 0 := by
      have : radians lat1 - radians lat2 = -(radians lat2 - radians lat1) := by ring
      rw [this, Real.sin_neg]; linarith
    rw [key, Complex.arg_ofReal_of_neg hneg]
    refine bearing_of_arg _ Real.pi _ 1 rfl (by norm_num) ?_
    field_simp
    ring
  · intro e he he'
    have hs := hsin e he he'
    have hd : radians (lon + e) - radians lon = e * (Real.pi / 180) := by rw [hr]; ring
    unfold bearing
    simp only [(wrap_sin _).1, (wrap_sin _).2, hd]
    have h0 : radians 0 = 0 := by unfold radians; ring
    simp only [h0, Real.sin_zero, Real.cos_zero, mul_zero, zero_mul, sub_zero, mul_one]
    have harg : Complex.arg ⟨0, Real.sin (e * (Real.pi / 180))⟩ = Real.pi / 2 := by
      rw [Complex.arg_eq_pi_div_two_iff]
      exact ⟨rfl, hs⟩
    rw [harg]
    refine bearing_of_arg _ (Real.pi / 2) _ 1 rfl (by norm_num) ?_
    field_simp
    ring

/-! ### C68: sampling -/

/-- The point at the fraction `w` of a segment. -/
def onSegment (w : ℚ) (a b p : Pt) : Prop :=
  0 ≤ w ∧ w ≤ 1 ∧ p.t = between w a.t b.t ∧ p.lat = between w a.lat b.lat ∧
    p.lon = between w a.lon b.lon ∧
    ∃ ea eb, a.ele = some ea ∧ b.ele = some eb ∧ p.ele = some (between w ea eb)

theorem fill_spec (dx : ℚ) (hdx : 0 < dx) (a0 b : Pt) (n : ℕ) (a last : Pt) (w : ℚ)
    (ha : onSegment w a0 b a) (h1 : last.t ≤ a.t) (h2 : a.t - last.t < dx)
    (hab : a.t ≤ b.t) (hn : (b.t - last.t) < n * dx) :
    ∃ ks, fill timeDistance timeNext dx b n a last = some ks ∧
      (∀ k ∈ ks, ∃ w, onSegment w a0 b k) ∧
      (∀ (i : ℕ) (hi : i < ks.length), (ks[i]).t = last.t + (i + 1) * dx) ∧
      (ks.getLastD last).t ≤ b.t ∧ b.t - (ks.getLastD last).t < dx := by
  induction n generalizing a last w with
  | zero =>
    exfalso
    simp at hn
    linarith
  | succ n ih =>
    unfold fill
    by_cases hc : dx ≠ 0 ∧ timeDistance last b ≥ dx
    · rw [if_pos hc]
      have hge : b.t - last.t ≥ dx := hc.2
      obtain ⟨hw0, hw1, ht, hlat, hlon, ea0, eb, hea0, heb, hea⟩ := ha
      have hden : 0 < (b.t - last.t) - (a.t - last.t) := by linarith
      set al := (dx - (a.t - last.t)) / ((b.t - last.t) - (a.t - last.t)) with hal
      have hal0 : 0 ≤ al := div_nonneg (by linarith) hden.le
      have hal1 : al ≤ 1 := by rw [hal, div_le_one hden]; linarith
      have halmul : al * (b.t - a.t) = dx - (a.t - last.t) := by
        rw [hal, div_mul_eq_mul_div, div_eq_iff hden.ne']; ring
      have hnext : timeNext a b last dx = some
          ⟨last.t + dx, (1 - al) * a.lat + al * b.lat, (1 - al) * a.lon + al * b.lon,
            some ((1 - al) * between w ea0 eb + al * eb)⟩ := by
        unfold timeNext lerp
        simp only [hea, heb]
        rw [if_neg hden.ne', ← hal]
        have : a.t + al * (b.t - a.t) = last.t + dx := by rw [halmul]; ring
        rw [this]
      rw [hnext]
      simp only
      have hdist : |dx - timeDistance last
          ⟨last.t + dx, (1 - al) * a.lat + al * b.lat, (1 - al) * a.lon + al * b.lon,
            some ((1 - al) * between w ea0 eb + al * eb)⟩| < 1 / 10 := by
        unfold timeDistance
        simp
      rw [if_pos hdist]
      set a' : Pt := ⟨last.t + dx, (1 - al) * a.lat + al * b.lat, (1 - al) * a.lon + al * b.lon,
            some ((1 - al) * between w ea0 eb + al * eb)⟩ with ha'
      have hseg : onSegment (w + al * (1 - w)) a0 b a' := by
        refine ⟨?_, ?_, ?_, ?_, ?_, ea0, eb, hea0, heb, ?_⟩
        · nlinarith
        · nlinarith
        · show last.t + dx = _
          have e : last.t + dx = a.t + al * (b.t - a.t) := by rw [halmul]; ring
          rw [e, ht]; unfold between; ring
        · show (1 - al) * a.lat + al * b.lat = _
          rw [hlat]; unfold between; ring
        · show (1 - al) * a.lon + al * b.lon = _
          rw [hlon]; unfold between; ring
        · show some ((1 - al) * between w ea0 eb + al * eb) = _
          unfold between; congr 1; ring
      have hat : a'.t = last.t + dx := rfl
      obtain ⟨ks, hks, hk1, hk2, hk3, hk4⟩ := ih a' a' _ hseg le_rfl (by rw [sub_self]; exact hdx)
        (by rw [hat]; linarith) (by rw [hat]; push_cast at hn; linarith)
      refine ⟨a' :: ks, by rw [hks]; rfl, ?_, ?_, ?_, ?_⟩
      · intro k hk
        rcases List.mem_cons.1 hk with rfl | hk
        · exact ⟨_, hseg⟩
        · exact hk1 k hk
      · intro i hi
        cases i with
        | zero => simp [hat]
        | succ i =>
          simp only [List.getElem_cons_succ]
          rw [hk2 i (by simpa using hi), hat]; push_cast; ring
      · rw [List.getLastD_cons]; exact hk3
      · rw [List.getLastD_cons]; exact hk4
    · rw [if_neg hc]
      have hlt : b.t - last.t < dx := by
        by_contra hh
        exact hc ⟨hdx.ne', not_lt.1 hh⟩
      exact ⟨[], rfl, by simp, by simp, by simpa using h1.trans hab, by simpa using hlt⟩

theorem getLastD_append {α : Type} (l m : List α) (d : α) :
    (l ++ m).getLastD d = m.getLastD (l.getLastD d) := by
  induction l generalizing d with
  | nil => rfl
  | cons a l ih => rw [List.cons_append, List.getLastD_cons, List.getLastD_cons, ih]

theorem sampleLoop_spec (dx : ℚ) (hdx : 0 < dx) (n : ℕ) (l : List Pt) (a last : Pt)
    (hs : (a :: l).Pairwise (fun p q => p.t ≤ q.t)) (hele : ∀ p ∈ a :: l, p.ele.isSome)
    (h1 : last.t ≤ a.t) (h2 : a.t - last.t < dx)
    (hn : ∀ p ∈ l, p.t - last.t < n * dx) (hn0 : 0 < n) :
    ∃ ks, sampleLoop timeDistance timeNext dx n a last l = some ks ∧
      (∀ k ∈ ks, ∃ l1 p q l2 w, a :: l = l1 ++ p :: q :: l2 ∧ onSegment w p q k) ∧
      (∀ (i : ℕ) (hi : i < ks.length), (ks[i]).t = last.t + (i + 1) * dx) ∧
      (ks.getLastD last).t ≤ (l.getLastD a).t ∧ (l.getLastD a).t - (ks.getLastD last).t < dx := by
  induction l generalizing a last with
  | nil => exact ⟨[], rfl, by simp, by simp, by simpa using h1, by simpa using h2⟩
  | cons b l ih =>
    have hab : a.t ≤ b.t := (List.pairwise_cons.1 hs).1 b (by simp)
    obtain ⟨ea, hea⟩ := Option.isSome_iff_exists.1 (hele a (by simp))
    obtain ⟨eb, heb⟩ := Option.isSome_iff_exists.1 (hele b (by simp))
    have hseg : onSegment 0 a b a := by
      refine ⟨le_rfl, zero_le_one, ?_, ?_, ?_, ea, eb, hea, heb, ?_⟩ <;> simp [between, hea]
    obtain ⟨ks, hk, hk1, hk2, hk3, hk4⟩ :=
      fill_spec dx hdx a b n a last 0 hseg h1 h2 hab (hn b (by simp))
    have hlast : last.t ≤ (ks.getLastD last).t := by
      rcases List.eq_nil_or_concat ks with rfl | ⟨ks', x, rfl⟩
      · simp
      · have := hk2 ks'.length (by simp)
        simp only [List.concat_eq_append, List.getElem_append_right (le_refl _), Nat.sub_self,
          List.getElem_singleton] at this
        rw [List.concat_eq_append, getLastD_append]
        simp only [List.getLastD_cons, List.getLastD_nil]
        rw [this]
        have : (0 : ℚ) ≤ ((ks'.length : ℚ) + 1) * dx := by positivity
        linarith
    obtain ⟨ks2, hm, hm1, hm2, hm3, hm4⟩ := ih b (ks.getLastD last) (List.pairwise_cons.1 hs).2
      (fun p hp => hele p (List.mem_cons_of_mem _ hp)) hk3 hk4
      (fun p hp => lt_of_le_of_lt (by linarith) (hn p (List.mem_cons_of_mem _ hp)))
    refine ⟨ks ++ ks2, ?_, ?_, ?_, ?_, ?_⟩
    · simp only [sampleLoop, hk, hm, Option.map_some]
    · intro k hkm
      rcases List.mem_append.1 hkm with hkm | hkm
      · obtain ⟨w, hw⟩ := hk1 k hkm
        exact ⟨[], a, b, l, w, rfl, hw⟩
      · obtain ⟨l1, p, q, l2, w, he, hw⟩ := hm1 k hkm
        exact ⟨a :: l1, p, q, l2, w, by rw [he]; rfl, hw⟩
    · intro i hi
      by_cases hi2 : i < ks.length
      · rw [List.getElem_append_left hi2]; exact hk2 i hi2
      · push Not at hi2
        rw [List.getElem_append_right hi2, hm2 (i - ks.length) (by rw [List.length_append] at hi; omega)]
        have hlen : (ks.getLastD last).t = last.t + ks.length * dx := by
          rcases List.eq_nil_or_concat ks with rfl | ⟨ks', x, rfl⟩
          · simp
          · have := hk2 ks'.length (by simp)
            simp only [List.concat_eq_append, List.getElem_append_right (le_refl _), Nat.sub_self,
              List.getElem_singleton] at this
            rw [List.concat_eq_append, getLastD_append]
            simp only [List.getLastD_cons, List.getLastD_nil]
            rw [this]
            simp
        rw [hlen, Nat.cast_sub hi2]
        ring
    · rw [getLastD_append, List.getLastD_cons]; exact hm3
    · rw [getLastD_append, List.getLastD_cons]; exact hm4

/-- C68. Sampling a track sorted by time every `dt` seconds ends without a failed assertion or a division by
zero. The samples start at the first point and are exactly `dt` apart, each is on a segment of the
track, and less than `dt` of the track remains after the last one. -/
theorem C68_time (dt : ℚ) (hdt : 0 < dt) (first : Pt) (l : List Pt)
    (hs : (first :: l).Pairwise (fun p q => p.t ≤ q.t)) (hele : ∀ p ∈ first :: l, p.ele.isSome) :
    ∃ N, ∃ ks : List Pt, (∀ n, N ≤ n → sample timeDistance timeNext dt n (first :: l) = some (first :: ks)) ∧
      (∀ (i : ℕ) (hi : i < (first :: ks).length), ((first :: ks)[i]).t = first.t + i * dt) ∧
      (∀ k ∈ ks, ∃ l1 p q l2 w, first :: l = l1 ++ p :: q :: l2 ∧ onSegment w p q k) ∧
      (ks.getLastD first).t ≤ (l.getLastD first).t ∧ (l.getLastD first).t - (ks.getLastD first).t < dt := by
  obtain ⟨N, hN⟩ : ∃ N : ℕ, 0 < N ∧ ∀ p ∈ l, p.t - first.t < N * dt := by
    clear hs hele
    induction l with
    | nil => exact ⟨1, by simp⟩
    | cons p l ih =>
      obtain ⟨N, h0, hN⟩ := ih
      obtain ⟨M, hM⟩ := exists_nat_gt ((p.t - first.t) / dt)
      refine ⟨N + M, by omega, ?_⟩
      intro q hq
      rcases List.mem_cons.1 hq with rfl | hq
      · rw [div_lt_iff₀ hdt] at hM
        push_cast
        have : (0 : ℚ) ≤ N * dt := by positivity
        linarith
      · push_cast
        have : (0 : ℚ) ≤ M * dt := by positivity
        linarith [hN q hq]
  have hall : ∀ n, N ≤ n → _ := fun n hn => sampleLoop_spec dt hdt n l first first hs hele le_rfl
    (by rw [sub_self]; exact hdt)
    (fun p hp => lt_of_lt_of_le (hN.2 p hp) (mul_le_mul_of_nonneg_right (by exact_mod_cast hn) hdt.le))
    (lt_of_lt_of_le hN.1 hn)
  obtain ⟨ks, hk, hk1, hk2, hk3, hk4⟩ := hall N le_rfl
  refine ⟨N, ks, ?_, ?_, hk1, hk3, hk4⟩
  · intro n hn
    have hmono := sampleLoop_mono dt N n hn l first first ks hk
    simp only [sample, hmono, Option.map_some]
  · intro i hi
    cases i with
    | zero => simp
    | succ i =>
      simp only [List.getElem_cons_succ]
      rw [hk2 i (by simpa using hi)]
      push_cast
      ring
where
  fill_mono (dt : ℚ) (b : Pt) (n m : ℕ) (hm : n ≤ m) (a last : Pt) (ks : List Pt)
      (h : fill timeDistance timeNext dt b n a last = some ks) :
      fill timeDistance timeNext dt b m a last = some ks := by
    induction n generalizing m a last ks with
    | zero => cases h
    | succ n ih =>
      obtain ⟨m, rfl⟩ : ∃ m', m = m' + 1 := ⟨m - 1, by omega⟩
      unfold fill at h ⊢
      split
      · rename_i hc
        rw [if_pos hc] at h
        cases hnx : timeNext a b last dt with
        | none => rw [hnx] at h; cases h
        | some a' =>
          rw [hnx] at h
          simp only at h ⊢
          split
          · rename_i hd
            rw [if_pos hd] at h
            obtain ⟨k, hk, rfl⟩ := Option.map_eq_some_iff.1 h
            rw [ih m (by omega) _ _ _ hk]
            rfl
          · rename_i hd
            rw [if_neg hd] at h
            cases h
      · rename_i hc
        rwa [if_neg hc] at h
  sampleLoop_mono (dt : ℚ) (n m : ℕ) (hm : n ≤ m) (l : List Pt) (a last : Pt) (ks : List Pt)
      (h : sampleLoop timeDistance timeNext dt n a last l = some ks) :
      sampleLoop timeDistance timeNext dt m a last l = some ks := by
    induction l generalizing a last ks with
    | nil => exact h
    | cons b l ih =>
      unfold sampleLoop at h ⊢
      cases hf : fill timeDistance timeNext dt b n a last with
      | none => rw [hf] at h; cases h
      | some k =>
        rw [hf] at h
        rw [fill_mono dt b n m hm a last k hf]
        simp only at h ⊢
        obtain ⟨k2, hk2, rfl⟩ := Option.map_eq_some_iff.1 h
        rw [ih _ _ _ hk2]
        rfl

theorem filter_prefix (t : ℚ) (l1 l2 : List Pt) (p q : Pt)
    (hs : (l1 ++ p :: q :: l2).Pairwise (fun a b => a.t < b.t)) (h1 : p.t ≤ t) (h2 : t < q.t) :
    (l1 ++ p :: q :: l2).filter (fun x => x.t ≤ t) = l1 ++ [p] := by
  have hl1 : l1.filter (fun x => x.t ≤ t) = l1 := by
    rw [List.filter_eq_self]
    intro x hx
    have := (List.pairwise_append.1 hs).2.2 x hx p (by simp)
    simpa using (this.le.trans h1)
  have hs2 := (List.pairwise_cons.1 (List.pairwise_append.1 hs).2.1).2
  have hl2 : l2.filter (fun x => x.t ≤ t) = [] := by
    rw [List.filter_eq_nil_iff]
    intro x hx
    have := (List.pairwise_cons.1 hs2).1 x hx
    simpa using (h2.trans this)
  rw [List.filter_append, hl1, List.filter_cons, List.filter_cons, hl2]
  simp [h1, not_le.2 h2]

/-- C68. A frame taken at the time of a sample before the end of the track gets exactly the position of the
sample; one taken at the end of the track gets none. -/
theorem C68_geotag (points : List Pt) (hs : points.Pairwise (fun a b => a.t < b.t))
    (hele : ∀ p ∈ points, p.ele.isSome) (l1 l2 : List Pt) (p q k last : Pt) (w : ℚ)
    (he : points = l1 ++ p :: q :: l2) (hk : onSegment w p q k) (hl : points.getLast? = some last) :
    (k.t < last.t → (interpolate points k.t).map (fun r => (r.1, r.2.1, r.2.2.1)) =
      some (k.lat, k.lon, k.ele)) ∧
    (k.t = last.t → interpolate points k.t = none) := by
  obtain ⟨hw0, hw1, ht, hlat, hlon, ea, eb, hea, heb, hke⟩ := hk
  have hpq : p.t < q.t := by
    rw [he] at hs
    exact (List.pairwise_cons.1 (List.pairwise_append.1 hs).2.1).1 q (by simp)
  refine ⟨fun hlt => ?_, fun heq => ?_⟩
  · rcases lt_or_eq_of_le hw1 with hw | hw
    · have hpk : p.t ≤ k.t := by rw [ht]; unfold between; nlinarith
      have hkq : k.t < q.t := by rw [ht]; unfold between; nlinarith
      cases hpts : points.head? with
      | none => rw [List.head?_eq_none_iff] at hpts; rw [hpts] at he; simp at he
      | some first =>
        have hfirst : first.t ≤ k.t := by
          cases hc : points with
          | nil => rw [hc] at hpts; cases hpts
          | cons f l =>
            rw [hc] at hpts
            cases hpts
            have hmem : p ∈ first :: l := by rw [← hc, he]; simp
            rw [hc] at hs
            rcases List.mem_cons.1 hmem with rfl | h
            · exact hpk
            · exact ((List.pairwise_cons.1 hs).1 p h).le.trans hpk
        obtain ⟨m1, be, af, m2, w', ea', eb', he', -, h3, h4, hw', -, -, hea', heb', hres⟩ :=
          C54_inside points k.t first last hpts hl hfirst hlt hele
        have hf1 := filter_prefix k.t l1 l2 p q (he ▸ hs) hpk hkq
        have hf2 := filter_prefix k.t m1 m2 be af (he' ▸ hs) h3 h4
        rw [← he] at hf1
        rw [← he', hf1] at hf2
        obtain ⟨e1, e2⟩ := List.append_inj' hf2 rfl
        have hp : p = be := by simpa using e2
        subst e1 hp
        have e3 : p :: q :: l2 = p :: af :: m2 := by
          have := he.symm.trans he'
          exact List.append_cancel_left this
        obtain ⟨rfl, -⟩ : q = af ∧ l2 = m2 := by simpa using e3
        have hww : w' = w := by
          rw [hw', ht, div_eq_iff (by linarith)]
          unfold between; ring
        rw [hres, hww]
        rw [hea] at hea'
        rw [heb] at heb'
        cases hea'
        cases heb'
        simp [hlat, hlon, hke]
    · subst hw
      have hkt : k.t = q.t := by rw [ht]; unfold between; ring
      have hq : q ∈ points := by rw [he]; simp
      obtain ⟨af, haf⟩ := C54_at_point points hs q last hq hl (by rw [← hkt]; exact hlt) hele
      rw [hkt, haf]
      simp only [Option.map_some, hlat, hlon, hke, heb]
      simp [between]
  · refine C54_outside points k.t ?_
    intro f l' _ hl'
    rw [hl] at hl'
    cases hl'
    exact Or.inr heq.ge

/-- C68. With spacing zero only the first point is kept. -/
theorem C68_zero (first : Pt) (l : List Pt) (n : ℕ) (dist : Pt → Pt → ℚ)
    (next : Pt → Pt → Pt → ℚ → Option Pt) : sample dist next 0 (n + 1) (first :: l) = some [first] := by
  have : ∀ a last, sampleLoop dist next 0 (n + 1) a last l = some [] := by
    induction l with
    | nil => intro a last; rfl
    | cons b l ih => intro a last; simp [sampleLoop, fill, ih]
  simp [sample, this]

/-- C68. The intersection of a segment with a sphere, from inside to outside: the point is on the segment and
on the sphere. -/
theorem C68_sphere (A B C : Fin 3 → ℝ) (r : ℝ)
    (hA : dot3 (fun i => A i - C i) (fun i => A i - C i) ≤ r ^ 2)
    (hB : r ^ 2 ≤ dot3 (fun i => B i - C i) (fun i => B i - C i))
    (hne : 0 < dot3 (fun i => B i - A i) (fun i => B i - A i)) :
    0 ≤ sphereAlpha A B C r ∧ sphereAlpha A B C r ≤ 1 ∧
      dot3 (fun i => A i + sphereAlpha A B C r * (B i - A i) - C i)
        (fun i => A i + sphereAlpha A B C r * (B i - A i) - C i) = r ^ 2 := by
  set a := dot3 (fun i => B i - A i) (fun i => B i - A i) with ha
  set h := dot3 (fun i => B i - A i) (fun i => A i - C i) with hh
  set c := dot3 (fun i => A i - C i) (fun i => A i - C i) - r ^ 2 with hc
  have hc0 : c ≤ 0 := by rw [hc]; linarith
  have hexp : ∀ x : ℝ, dot3 (fun i => A i + x * (B i - A i) - C i)
      (fun i => A i + x * (B i - A i) - C i) - r ^ 2 = a * x ^ 2 + 2 * h * x + c := by
    intro x; rw [ha, hh, hc]; unfold dot3; ring
  have hone : 0 ≤ a + 2 * h + c := by
    have := hexp 1
    have e : dot3 (fun i => A i + 1 * (B i - A i) - C i) (fun i => A i + 1 * (B i - A i) - C i) =
        dot3 (fun i => B i - C i) (fun i => B i - C i) := by unfold dot3; ring
    rw [e] at this
    linarith
  have hD : 0 ≤ (2 * h) ^ 2 - 4 * a * c := by nlinarith [sq_nonneg h, mul_nonneg hne.le (neg_nonneg.2 hc0)]
  have hal : sphereAlpha A B C r = (-(2 * h) + Real.sqrt ((2 * h) ^ 2 - 4 * a * c)) / (2 * a) := by
    unfold sphereAlpha
    simp only [← ha, ← hh, ← hc, max_eq_right hD]
  set s := Real.sqrt ((2 * h) ^ 2 - 4 * a * c) with hs
  have hs0 : 0 ≤ s := Real.sqrt_nonneg _
  have hs2 : s ^ 2 = (2 * h) ^ 2 - 4 * a * c := Real.sq_sqrt hD
  have h2a : 0 < 2 * a := by linarith
  rw [hal]
  refine ⟨?_, ?_, ?_⟩
  · apply div_nonneg _ h2a.le
    have : 2 * h ≤ s := by
      refine Real.le_sqrt_of_sq_le ?_
      nlinarith [mul_nonneg hne.le (neg_nonneg.2 hc0)]
    linarith
  · rw [div_le_one h2a]
    have : s ≤ 2 * a + 2 * h := by
      rw [hs]
      refine (Real.sqrt_le_left ?_).2 ?_
      · nlinarith
      · nlinarith
    linarith
  · have := hexp ((-(2 * h) + s) / (2 * a))
    have e : a * ((-(2 * h) + s) / (2 * a)) ^ 2 + 2 * h * ((-(2 * h) + s) / (2 * a)) + c = 0 := by
      field_simp
      nlinarith
    rw [e] at this
    linarith

/-- A track that meets the hypotheses. -/
def track : List Pt := [⟨0, 1, 2, some 3⟩, ⟨4, 5, 6, some 7⟩, ⟨9, 5, 7, some 8⟩]

example : track.Pairwise (fun p q => p.t < q.t) ∧ (∀ p ∈ track, p.ele.isSome) ∧
    (interpolate track 1).map (fun r => r.1) = some 2 := by
  refine ⟨by decide +kernel, by decide +kernel, by decide +kernel⟩

example : (sample timeDistance timeNext 3 10 track).map (fun l => l.map (fun p => p.t)) =
    some [0, 3, 6, 9] := by decide +kernel

end Verif.Gpx
