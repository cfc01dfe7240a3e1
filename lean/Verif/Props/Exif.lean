import Verif.Model.Exif
import Mathlib.Tactic.Ring
import Mathlib.Tactic.FieldSimp
import Mathlib.Tactic.Linarith
import Mathlib.Tactic.Positivity

/-!
# EXIF: capture time (C52), focal length and GPS (C53)
-/
set_option linter.unusedSectionVars false
set_option linter.unusedSimpArgs false
namespace Verif.Exif
open Verif.PyText Verif.Text

/-! ## C52: time zones -/

/-- Two decimal digits. -/
def two (n : ℕ) : List Char := [digitChar (n / 10), digitChar (n % 10)]

/-- A time zone offset as written in a file: `+HH:MM` or `-HH:MM`. -/
def offsetText (negative : Bool) (h m : ℕ) : List Char :=
  (if negative then '-' else '+') :: two h ++ ':' :: two m

/-- The UTC time in seconds of a clock that shows `local` at a place whose clocks are ahead of UTC by
`h` hours and `m` minutes (behind, if `negative`). -/
def utcOf (local_ : ℚ) (negative : Bool) (h m : ℕ) : ℚ :=
  if negative then local_ + ((h : ℚ) * 3600 + (m : ℚ) * 60) else local_ - ((h : ℚ) * 3600 + (m : ℚ) * 60)

theorem pyNat_two {n : ℕ} (h : n < 100) : pyNat (two n) = some n := by
  have h1 : n / 10 < 10 := by omega
  have h2 : n % 10 < 10 := by omega
  unfold pyNat two
  rw [if_pos]
  · unfold natOf
    simp only [List.foldl_cons, List.foldl_nil, (digitChar_props h1).1, (digitChar_props h2).1]
    congr 1; omega
  · simp [(digitChar_props h1).2.1, (digitChar_props h2).2.1]

theorem strip_two (c : Char) {n : ℕ} (h : n < 100) (hc : pySpace c = false) :
    strip (c :: two n) = c :: two n := by
  have h1 : n / 10 < 10 := by omega
  have h2 : n % 10 < 10 := by omega
  have := strip_surround (sp := []) (w := c :: two n) (tl := []) (by simp) (by simp)
    (by intro d hd; simp at hd; subst hd; exact hc)
    (by intro d hd; simp [two] at hd; subst hd; exact (digit_props h2).1)
  simpa using this

theorem pyInt_plus {n : ℕ} (h : n < 100) : pyInt ('+' :: two n) = some (n : ℤ) := by
  unfold pyInt
  rw [strip_two '+' h (by decide)]
  simp [pyNat_two h]

theorem pyInt_minus {n : ℕ} (h : n < 100) : pyInt ('-' :: two n) = some (-(n : ℤ)) := by
  unfold pyInt
  rw [strip_two '-' h (by decide)]
  simp [pyNat_two h]

theorem pyInt_two {n : ℕ} (h : n < 100) : pyInt (two n) = some (n : ℤ) := by
  have h1 : n / 10 < 10 := by omega
  have h2 : n % 10 < 10 := by omega
  have hs : strip (two n) = two n := by
    have := strip_surround (sp := []) (w := two n) (tl := []) (by simp) (by simp)
      (by intro d hd; simp [two] at hd; subst hd; exact (digit_props h1).1)
      (by intro d hd; simp [two] at hd; subst hd; exact (digit_props h2).1)
    simpa using this
  unfold pyInt
  rw [hs]
  have hp := digitChar_props h1
  split
  · rename_i heq; simp [two] at heq; exact absurd heq.1 hp.2.2.2.1
  · rename_i heq; simp [two] at heq; exact absurd heq.1 hp.2.2.2.2.1
  · rw [pyNat_two h]; rfl

theorem offsetShift_text (neg : Bool) {h m : ℕ} (hh : h < 100) (hm : m < 100) :
    offsetShift (offsetText neg h m) =
      some ((if neg then (h : ℚ) else -(h : ℚ)) * 3600 + (m : ℚ) * 60) := by
  have e1 : (offsetText neg h m).take 3 = (if neg then '-' else '+') :: two h := by
    cases neg <;> rfl
  have e2 : ((offsetText neg h m).drop 4).take 2 = two m := by cases neg <;> rfl
  unfold offsetShift
  rw [e1, e2, pyInt_two hm]
  cases neg
  · simp [pyInt_plus hh]
  · simp [pyInt_minus hh]

/-- A time tag with a valid text. -/
structure TimeTag (c : Clock) (tags : Tags) (t : String × String × String) (local_ : ℚ) : Prop where
  valid : ∃ d sub, tags.get? t.1 = some (.text d) ∧
    (tags.get? t.2.1 = some (.text sub) ∨ tags.get? t.2.1 = none ∧ sub = ['0']) ∧
    c.stamp (d ++ '.' :: sub) = some local_

theorem TimeTag.spec {c : Clock} {tags : Tags} {t : String × String × String} {l : ℚ}
    (h : TimeTag c tags t l) : ∃ d, tags.get? t.1 = some (.text d) ∧
      c.stamp (d ++ '.' :: subsec tags t.2.1) = some l := by
  obtain ⟨d, sub, h1, h2, h3⟩ := h.valid
  refine ⟨d, h1, ?_⟩
  rcases h2 with h2 | ⟨h2, rfl⟩ <;> simp [subsec, h2, h3]

/-- C52. With a time zone offset behind UTC, or a whole number of hours ahead, the capture time is the UTC
time. -/
theorem C52_offset_right (c : Clock) (tags : Tags) (t : String × String × String) (l : ℚ)
    (ht : TimeTag c tags t l) (neg : Bool) (h m : ℕ) (hh : h < 100) (hm : m < 100)
    (ho : tags.get? t.2.2 = some (.text (offsetText neg h m))) (hok : neg = true ∨ m = 0) :
    tagTime c tags t = some (utcOf l neg h m) := by
  obtain ⟨d, h1, h2⟩ := ht.spec
  unfold tagTime
  simp only [h1, h2, ho, offsetShift_text neg hh hm, Option.getD_some]
  congr 1
  unfold utcOf
  rcases hok with rfl | rfl
  · simp
  · cases neg
    · simp; ring
    · simp

/-- C52. Ahead of UTC by hours and minutes, the capture time is late by twice the minutes: the code adds the
minutes where it should subtract them. -/
theorem C52_offset_wrong (c : Clock) (tags : Tags) (t : String × String × String) (l : ℚ)
    (ht : TimeTag c tags t l) (h m : ℕ) (hh : h < 100) (hm : m < 100)
    (ho : tags.get? t.2.2 = some (.text (offsetText false h m))) :
    tagTime c tags t = some (utcOf l false h m + 2 * ((m : ℚ) * 60)) := by
  obtain ⟨d, h1, h2⟩ := ht.spec
  unfold tagTime
  simp only [h1, h2, ho, offsetShift_text false hh hm, Option.getD_some]
  congr 1
  unfold utcOf
  simp; ring

/-- C52. So the capture time is right exactly for offsets behind UTC and whole hours. -/
theorem C52_right_iff (c : Clock) (tags : Tags) (t : String × String × String) (l : ℚ)
    (ht : TimeTag c tags t l) (neg : Bool) (h m : ℕ) (hh : h < 100) (hm : m < 100)
    (ho : tags.get? t.2.2 = some (.text (offsetText neg h m))) :
    tagTime c tags t = some (utcOf l neg h m) ↔ (neg = true ∨ m = 0) := by
  constructor
  · intro he
    cases neg with
    | true => exact .inl rfl
    | false =>
      right
      rw [C52_offset_wrong c tags t l ht h m hh hm ho] at he
      have := Option.some.inj he
      have h0 : (m : ℚ) = 0 := by linarith
      exact_mod_cast h0
  · exact C52_offset_right c tags t l ht neg h m hh hm ho

/-- C52. Without an offset, or with an unreadable one, local time is taken as UTC. -/
theorem C52_no_offset (c : Clock) (tags : Tags) (t : String × String × String) (l : ℚ)
    (ht : TimeTag c tags t l)
    (ho : tags.get? t.2.2 = none ∨ ∃ o, tags.get? t.2.2 = some (.text o) ∧
      (pyInt (o.take 3) = none ∨ pyInt ((o.drop 4).take 2) = none)) :
    tagTime c tags t = some l := by
  obtain ⟨d, h1, h2⟩ := ht.spec
  unfold tagTime
  simp only [h1, h2]
  rcases ho with ho | ⟨o, ho, hn | hn⟩
  · simp [ho]
  · simp [ho, offsetShift, hn]
  · have : offsetShift o = none := by
      unfold offsetShift
      rw [hn]
      cases pyInt (o.take 3) <;> rfl
    simp [ho, this]

/-- C52. A valid GPS time is used whatever the other tags say. -/
theorem C52_gps_first (c : Clock) (tags : Tags) (d : List Char) (nh dh nm dm ns ds : ℤ) (t : ℚ)
    (l : List Val)
    (hd : tags.get? "GPS GPSDate" = some (.text d))
    (ht : tags.get? "GPS GPSTimeStamp" = some (.vals (.ratio nh dh :: .ratio nm dm :: .ratio ns ds :: l)))
    (h1 : dh ≠ 0) (h2 : dm ≠ 0) (h3 : ds ≠ 0)
    (hg : c.gps d (trunc ((nh : ℚ) / dh)) (trunc ((nm : ℚ) / dm)) ((ns : ℚ) / ds) = some t) :
    captureTime c tags = some t := by
  unfold captureTime gpsTime
  simp [hd, ht, tagAsFloat, evalFrac, h1, h2, h3, hg]

/-- C52. Otherwise the first usable tag counts, in the order original, digitised, modified; without any
the time is 0. -/
theorem C52_tag_order (c : Clock) (tags : Tags)
    (hg : tags.get? "GPS GPSDate" = none ∨ tags.get? "GPS GPSTimeStamp" = none) :
    captureTime c tags = some (
      ((tagTime c tags ("EXIF DateTimeOriginal", "EXIF SubSecTimeOriginal", "EXIF Tag 0x9011")).or
        ((tagTime c tags ("EXIF DateTimeDigitized", "EXIF SubSecTimeDigitized", "EXIF Tag 0x9012")).or
          (tagTime c tags ("Image DateTime", "Image SubSecTime", "Image Tag 0x9010")))).getD 0) := by
  have : gpsTime c tags = some none := by
    unfold gpsTime
    rcases hg with hg | hg
    · rw [hg]
    · rw [hg]; cases tags.get? "GPS GPSDate" <;> rfl
  unfold captureTime
  rw [this]
  simp only [timeStrings, List.findSome?_cons, List.findSome?_nil]
  congr 1
  cases tagTime c tags ("EXIF DateTimeOriginal", "EXIF SubSecTimeOriginal", "EXIF Tag 0x9011") <;>
  cases tagTime c tags ("EXIF DateTimeDigitized", "EXIF SubSecTimeDigitized", "EXIF Tag 0x9012") <;>
  cases tagTime c tags ("Image DateTime", "Image SubSecTime", "Image Tag 0x9010") <;> rfl

/-- A photo taken at 1000 seconds of the local clock in a zone at +05:30: off by an hour. -/
example : captureTime ⟨fun _ => some 1000, fun _ _ _ _ => none⟩
    [("EXIF DateTimeOriginal", .text "1970:01:01 00:16:40".toList),
     ("EXIF Tag 0x9011", .text "+05:30".toList)] =
      some (utcOf 1000 false 5 30 + 3600) := by decide +kernel

/-- The hypotheses of the offset theorems are met. -/
example : TimeTag ⟨fun _ => some 1000, fun _ _ _ _ => none⟩
    [("EXIF DateTimeOriginal", .text "1970:01:01 00:16:40".toList),
     ("EXIF Tag 0x9011", .text (offsetText true 3 30))]
    ("EXIF DateTimeOriginal", "EXIF SubSecTimeOriginal", "EXIF Tag 0x9011") 1000 :=
  ⟨⟨_, ['0'], rfl, .inr ⟨rfl, rfl⟩, rfl⟩⟩

example : offsetText false 5 30 = "+05:30".toList := by decide

/-! ## C53: focal length -/

/-- C53. The two numbers are always consistent: a 36 mm wide film. -/
theorem C53_focal_consistent (sensors : Dict String ℚ) (f35 f w : Option ℚ) (s : Option String) :
    (computeFocal sensors f35 f w s).1 = 36 * (computeFocal sensors f35 f w s).2 := by
  have hfb : (computeFocal.fallback sensors f w s).1 = 36 * (computeFocal.fallback sensors f w s).2 := by
    unfold computeFocal.fallback
    simp only
    split
    · split <;> simp
    · simp
  unfold computeFocal
  cases f35 with
  | none => exact hfb
  | some x =>
    simp only
    split
    · simp only; ring
    · exact hfb

/-- C53. A positive 35 mm equivalent wins over everything else. -/
theorem C53_focal_35 (sensors : Dict String ℚ) (x : ℚ) (hx : 0 < x) (f w : Option ℚ) (s : Option String) :
    computeFocal sensors (some x) f w s = (x, x / 36) := by
  unfold computeFocal
  simp [hx]

/-- C53. Without one, focal length and sensor width in millimetres (from the file, else from the table of
sensors) give the ratio. -/
theorem C53_focal_sensor (sensors : Dict String ℚ) (f35 : Option ℚ) (h35 : ∀ x, f35 = some x → x ≤ 0)
    (f w : ℚ) (hf : f ≠ 0) (hw : w ≠ 0) (width : Option ℚ) (s : Option String)
    (hsrc : width = some w ∨ ((width = none ∨ width = some 0) ∧
      ∃ k, s = some k ∧ k ≠ "" ∧ sensors.get? k = some w)) :
    computeFocal sensors f35 (some f) width s = (36 * (f / w), f / w) := by
  have hfb : computeFocal.fallback sensors (some f) width s = (36 * (f / w), f / w) := by
    unfold computeFocal.fallback
    rcases hsrc with rfl | ⟨rfl | rfl, k, rfl, hk, hg⟩ <;> simp [truthy, *]
  unfold computeFocal
  cases f35 with
  | none => exact hfb
  | some x => simp [not_lt.2 (h35 x rfl), hfb]

/-- C53. The ratio is 0, which means unknown, only if the information is missing: no positive 35 mm
equivalent, and no focal length or no sensor width. -/
theorem C53_focal_unknown (sensors : Dict String ℚ) (f35 f width : Option ℚ) (s : Option String) :
    (computeFocal sensors f35 f width s).2 = 0 ↔
      (∀ x, f35 = some x → x ≤ 0) ∧
        (f = none ∨ f = some 0 ∨ ((width = none ∨ width = some 0) ∧
          ∀ k, s = some k → k ≠ "" → sensors.get? k = none ∨ sensors.get? k = some 0)) := by
  have hfb : (computeFocal.fallback sensors f width s).2 = 0 ↔
      (f = none ∨ f = some 0 ∨ ((width = none ∨ width = some 0) ∧
          ∀ k, s = some k → k ≠ "" → sensors.get? k = none ∨ sensors.get? k = some 0)) := by
    unfold computeFocal.fallback
    cases f with
    | none => simp only [true_or, iff_true]; split <;> simp_all
    | some f =>
      cases width with
      | some w =>
        by_cases hw : w = 0
        · cases s with
          | none => simp [truthy, hw]
          | some k =>
            by_cases hk : k = ""
            · simp [truthy, hw, hk]
            · cases hg : sensors.get? k with
              | none => simp [truthy, hw, hk, hg]
              | some v =>
                by_cases hv : v = 0 <;> by_cases hf : f = 0 <;> simp [truthy, hw, hk, hg, hv, hf]
        · by_cases hf : f = 0 <;> simp [truthy, hw, hf]
      | none =>
        cases s with
        | none => simp [truthy]
        | some k =>
          by_cases hk : k = ""
          · simp [truthy, hk]
          · cases hg : sensors.get? k with
            | none => simp [truthy, hk, hg]
            | some v =>
              by_cases hv : v = 0 <;> by_cases hf : f = 0 <;> simp [truthy, hk, hg, hv, hf]
  unfold computeFocal
  cases f35 with
  | none => simpa using hfb
  | some x =>
    by_cases hx : x > 0
    · simp [hx, hx.ne']
    · simp only [hx, if_false]
      rw [hfb]
      constructor
      · intro h; exact ⟨fun y hy => by cases hy; exact not_lt.1 hx, h⟩
      · rintro ⟨-, h⟩; exact h

/-- C53. The sensor width from the focal plane resolution: image width over pixels per millimetre, with the
units inch, cm, mm and µm. -/
theorem C53_sensor_width (tags : Tags) (width : ℤ) (u : ℤ) (mm : ℚ) (n d : ℤ)
    (hu : tags.get? "EXIF FocalPlaneResolutionUnit" = some (.vals [.int u]))
    (hmm : (u, mm) ∈ [((2 : ℤ), (254 / 10 : ℚ)), (3, 10), (4, 1), (5, 1 / 1000)])
    (hx : tags.get? "EXIF FocalPlaneXResolution" = some (.vals [.ratio n d])) (hn : 0 < n) (hd : 0 < d) :
    sensorWidth tags width = some (some ((width : ℚ) / (((n : ℚ) / d) / mm))) := by
  have hq : ¬ ((n : ℚ) / d ≤ 0) := by
    have : (0 : ℚ) < n / d := by positivity
    linarith
  have hm : mmPerUnit u = some mm := by
    simp only [List.mem_cons, Prod.mk.injEq, List.not_mem_nil, or_false] at hmm
    rcases hmm with ⟨rfl, rfl⟩ | ⟨rfl, rfl⟩ | ⟨rfl, rfl⟩ | ⟨rfl, rfl⟩ <;> simp [mmPerUnit]
  unfold sensorWidth
  simp only [Dict.has, hu, hx, Option.isSome_some, Bool.not_true, Bool.or_self, Bool.false_eq_true,
    if_false, valueAt, List.getElem?_cons_zero, hm, tagAsFloat, evalFrac, hd.ne', hq]
  congr 2
  rw [div_div_eq_mul_div, div_div_eq_mul_div]
  field_simp

/-! ## C53: position -/

/-- A latitude or longitude as degrees, minutes and seconds, each a fraction. -/
structure Dms where
  deg : ℤ × ℤ
  min : ℤ × ℤ
  sec : ℤ × ℤ

/-- The tag. -/
def Dms.vals (x : Dms) : List Val :=
  [.ratio x.deg.1 x.deg.2, .ratio x.min.1 x.min.2, .ratio x.sec.1 x.sec.2]

/-- No zero denominators. -/
def Dms.Ok (x : Dms) : Prop := x.deg.2 ≠ 0 ∧ x.min.2 ≠ 0 ∧ x.sec.2 ≠ 0

/-- The angle in degrees. -/
def Dms.degrees (x : Dms) : ℚ :=
  (x.deg.1 : ℚ) / x.deg.2 + ((x.min.1 : ℚ) / x.min.2) / 60 + ((x.sec.1 : ℚ) / x.sec.2) / 3600

theorem gps_ok (x : Dms) (h : x.Ok) (r : List Char) :
    gpsToDecimal x.vals r = some (some ((if r = [] ∨ r = ['N'] ∨ r = ['E'] ∨ r = ['N', 'E']
      then 1 else -1) * x.degrees)) := by
  obtain ⟨h1, h2, h3⟩ := h
  simp [gpsToDecimal, Dms.vals, Dms.degrees, evalFrac, h1, h2, h3]

/-- C53. Position from the GPS tags: north and east are positive, south and west negative. -/
theorem C53_position (tags : Tags) (la lo : Dms) (hla : la.Ok) (hlo : lo.Ok) (south west : Bool)
    (h1 : tags.get? "GPS GPSLatitude" = some (.vals la.vals))
    (h2 : tags.get? "GPS GPSLongitude" = some (.vals lo.vals))
    (h3 : tags.get? "GPS GPSLatitudeRef" = some (.text [if south then 'S' else 'N']))
    (h4 : tags.get? "GPS GPSLongitudeRef" = some (.text [if west then 'W' else 'E']))
    (g : Dict String ℚ) (hg : geo {} tags = some g) :
    g.get? "latitude" = some (if south then -la.degrees else la.degrees) ∧
      g.get? "longitude" = some (if west then -lo.degrees else lo.degrees) := by
  have hl : lonLat {} tags = some (some (if west then -lo.degrees else lo.degrees),
      some (if south then -la.degrees else la.degrees)) := by
    unfold lonLat
    simp only [h1, h2, refText, h3, h4, gps_ok la hla, gps_ok lo hlo]
    cases south <;> cases west <;> simp
  unfold geo at hg
  rw [hl] at hg
  split at hg
  · rename_i heq
    simp only [Option.some.injEq, Prod.mk.injEq] at heq
    obtain ⟨rfl, rfl⟩ := heq
    cases hg
    constructor <;> simp [Dict.get?]
  · cases hg

/-- C53. The position is complete or absent: there is a latitude exactly when there is a longitude. -/
theorem C53_both_or_none (dji : Dji) (tags : Tags) (g : Dict String ℚ) (hg : geo dji tags = some g) :
    g.has "latitude" = g.has "longitude" := by
  unfold geo at hg
  split at hg
  · cases hg
    rename_i alt dp lon lat _ _ _
    cases lon <;> cases lat <;> cases alt <;> cases dp <;> simp [Dict.has, Dict.get?]
  · cases hg

/-- C53. A latitude without a longitude is not skipped: decoding the image raises. -/
theorem C53_missing_longitude (tags : Tags) (t : Tag)
    (h1 : tags.get? "GPS GPSLatitude" = some t) (h2 : tags.get? "GPS GPSLongitude" = none) :
    geo {} tags = none := by
  have : lonLat {} tags = none := by
    unfold lonLat
    cases t <;> simp [h1, h2]
  unfold geo
  rw [this]
  split
  · rename_i heq; cases heq
  · rfl

/-- C53. Degrees within range give a position on the globe. -/
theorem C53_range (x : Dms) (h : x.Ok) (r : List Char) (v : ℚ) (D : ℕ)
    (hd : 0 ≤ (x.deg.1 : ℚ) / x.deg.2) (hD : (x.deg.1 : ℚ) / x.deg.2 ≤ D - 1)
    (hm : 0 ≤ (x.min.1 : ℚ) / x.min.2) (hm' : (x.min.1 : ℚ) / x.min.2 ≤ 59)
    (hs : 0 ≤ (x.sec.1 : ℚ) / x.sec.2) (hs' : (x.sec.1 : ℚ) / x.sec.2 ≤ 60)
    (hv : gpsToDecimal x.vals r = some (some v)) : -(D : ℚ) ≤ v ∧ v ≤ D := by
  rw [gps_ok x h r] at hv
  have hv := Option.some.inj (Option.some.inj hv)
  subst hv
  unfold Dms.degrees
  split <;> constructor <;> linarith

/-- C53. The altitude tag: metres above sea level, below if the reference says 1, and never more than
10000. -/
theorem C53_altitude (tags : Tags) (n d : ℤ) (hd : d ≠ 0) (ref : Option ℤ)
    (h1 : tags.get? "GPS GPSAltitude" = some (.vals [.ratio n d]))
    (h2 : tags.get? "GPS GPSAltitudeRef" = ref.map (fun r => .vals [.int r]))
    (g : Dict String ℚ) (hg : geo {} tags = some g) :
    g.get? "altitude" = some (min 10000 (if ref = some 1 then -((n : ℚ) / d) else (n : ℚ) / d)) := by
  have ha : altitude {} tags = some (some (if ref = some 1 then -((n : ℚ) / d) else (n : ℚ) / d)) := by
    unfold altitude
    cases ref with
    | none => simp [h1, h2, valueAt, evalFrac, hd]
    | some r =>
      by_cases hr : r = 1
      · simp [h1, h2, valueAt, evalFrac, hd, hr]
      · simp [h1, h2, valueAt, evalFrac, hd, hr]
  unfold geo at hg
  rw [ha] at hg
  split at hg
  · rename_i heq _ _
    cases heq
    cases hg
    rename_i dp lon lat _ _
    cases dp <;> cases lon <;> cases lat <;> simp [Dict.get?, maximumAltitude]
  · cases hg

/-- C53. Orientation is at least defined: absent and 0 mean 1. -/
theorem C53_orientation (tags : Tags) (v : ℤ) (l : List Val) :
    (tags.get? "Image Orientation" = none → orientation tags = some 1) ∧
      (tags.get? "Image Orientation" = some (.vals (.int v :: l)) →
        orientation tags = some (if v = 0 then 1 else v)) := by
  constructor
  · intro h; unfold orientation; rw [h]
  · intro h; unfold orientation; rw [h]; by_cases hv : v = 0 <;> simp [hv]

/-- C53. The size of an image: both `EXIF` tags, else both `Image` tags, else (or if EXIF is not to be used)
the loaded image, whose height comes first. -/
theorem C53_image_size (tags : Tags) (height width : ℤ) :
    (∀ w h l l', tags.get? "EXIF ExifImageWidth" = some (.vals (.int w :: l)) →
      tags.get? "EXIF ExifImageLength" = some (.vals (.int h :: l')) →
      imageSize true tags (height, width) = some (w, h)) ∧
    (∀ w h l l', tags.get? "EXIF ExifImageWidth" = none ∨ tags.get? "EXIF ExifImageLength" = none →
      tags.get? "Image ImageWidth" = some (.vals (.int w :: l)) →
      tags.get? "Image ImageLength" = some (.vals (.int h :: l')) →
      imageSize true tags (height, width) = some (w, h)) ∧
    (tags.get? "EXIF ExifImageWidth" = none ∨ tags.get? "EXIF ExifImageLength" = none →
      tags.get? "Image ImageWidth" = none ∨ tags.get? "Image ImageLength" = none →
      imageSize true tags (height, width) = some (width, height)) ∧
    imageSize false tags (height, width) = some (width, height) := by
  refine ⟨?_, ?_, ?_, ?_⟩
  · intro w h l l' h1 h2
    simp [imageSize, Dict.has, valueAt, h1, h2]
  · intro w h l l' h1 h2 h3
    rcases h1 with h1 | h1 <;> simp [imageSize, Dict.has, valueAt, h1, h2, h3]
  · intro h1 h2
    rcases h1 with h1 | h1 <;> rcases h2 with h2 | h2 <;> simp [imageSize, Dict.has, h1, h2]
  · simp [imageSize]

/-- The tags of the `EXIF` group win. -/
example : imageSize true [("EXIF ExifImageWidth", .vals [.int 4000]), ("EXIF ExifImageLength", .vals [.int 3000]),
    ("Image ImageWidth", .vals [.int 160]), ("Image ImageLength", .vals [.int 120])] (30, 40) = some (4000, 3000) := by
  decide +kernel

/-- Zermatt, 1608 metres. -/
def demoTags : Tags :=
  [("GPS GPSLatitude", .vals [.ratio 46 1, .ratio 1 1, .ratio 14 1]), ("GPS GPSLatitudeRef", .text ['N']),
   ("GPS GPSLongitude", .vals [.ratio 7 1, .ratio 44 1, .ratio 899 20]), ("GPS GPSLongitudeRef", .text ['E']),
   ("GPS GPSAltitude", .vals [.ratio 3216 2]), ("GPS GPSAltitudeRef", .vals [.int 0])]

/-- The hypotheses of the position theorems are met by these tags. -/
example : (geo {} demoTags).isSome ∧ (Dms.mk (46, 1) (1, 1) (14, 1)).Ok ∧
    demoTags.get? "GPS GPSLatitude" = some (.vals (Dms.mk (46, 1) (1, 1) (14, 1)).vals) := by
  refine ⟨by decide +kernel, by simp [Dms.Ok], rfl⟩

end Verif.Exif
