import Verif.Model.Dji
import Verif.Props.Exif

/-!
# C53 — the position that a DJI drone writes
-/
namespace Verif.Exif

theorem geoOf_lonLat (float : List Char → Option ℚ) (xmp : Xmp) (tags : Tags) (x y : ℚ) (hl : djiLonLat float xmp = some (some (x, y)))
    (g : Dict String ℚ) (hg : geoOf float xmp tags = some g) : g.get? "longitude" = some x ∧ g.get? "latitude" = some y := by
  unfold geoOf at hg
  rw [hl] at hg
  cases ha : djiAltitude float xmp with
  | none => rw [ha] at hg; cases hg
  | some a =>
    rw [ha] at hg
    simp only at hg
    unfold geo at hg
    simp only [lonLat] at hg
    split at hg
    · rename_i alt dp lo la h3 h4 h5
      simp only [Option.some.injEq, Prod.mk.injEq] at h5
      obtain ⟨rfl, rfl⟩ := h5
      simp only [Option.some.injEq] at hg
      subst hg
      simp [Dict.get?]
    · cases hg

/-- C53. If the first XMP entry has both DJI coordinates, written as a sign and a number, they are the position of the image (with the sign of each), whatever
the GPS tags are; the other XMP entries do not matter. -/
theorem C53_dji_position (float : List Char → Option ℚ) (e : Dict String (List Char)) (xmp : Xmp) (tags : Tags)
    (s t : Bool) (lon lat : List Char) (x y : ℚ)
    (h1 : e.get? "Longitude" = some ((if s then '+' else '-') :: lon)) (h2 : e.get? "Latitude" = some ((if t then '+' else '-') :: lat))
    (hx : float lon = some x) (hy : float lat = some y) (g : Dict String ℚ) (hg : geoOf float (e :: xmp) tags = some g) :
    g.get? "longitude" = some (if s then x else -x) ∧ g.get? "latitude" = some (if t then y else -y) := by
  have hl : djiLonLat float (e :: xmp) = some (some (if s then x else -x, if t then y else -y)) := by
    unfold djiLonLat
    simp only [h1, h2, djiNumber, hx, hy]
    cases s <;> cases t <;> simp
  exact geoOf_lonLat float _ tags _ _ hl g hg

/-- C53. The DJI altitude is taken with its own sign, and no more than 10000. -/
theorem C53_dji_altitude (float : List Char → Option ℚ) (e : Dict String (List Char)) (xmp : Xmp) (tags : Tags) (a : List Char) (x : ℚ)
    (h : e.get? "AbsoluteAltitude" = some a) (hx : float a = some x) (g : Dict String ℚ) (hg : geoOf float (e :: xmp) tags = some g) :
    g.get? "altitude" = some (min 10000 x) := by
  have hl : djiAltitude float (e :: xmp) = some (some x) := by
    unfold djiAltitude
    simp only [h, hx]; rfl
  unfold geoOf at hg
  rw [hl] at hg
  cases hp : djiLonLat float (e :: xmp) with
  | none => rw [hp] at hg; cases hg
  | some l =>
    rw [hp] at hg
    simp only at hg
    unfold geo at hg
    simp only [altitude] at hg
    split at hg
    · rename_i alt dp lo la h3 h4 h5
      simp only [Option.some.injEq] at h3 hg
      subst h3 hg
      simp only [maximumAltitude]
      cases lo <;> cases la <;> simp [Dict.get?]
    · cases hg

/-- C53. Without an XMP entry, or when the first one lacks a coordinate and the altitude, the geographic data are those of the tags. -/
theorem C53_dji_absent (float : List Char → Option ℚ) (xmp : Xmp) (tags : Tags)
    (h : ∀ e, xmp.head? = some e → (e.get? "Latitude" = none ∨ e.get? "Longitude" = none) ∧ e.get? "AbsoluteAltitude" = none) :
    geoOf float xmp tags = geo {} tags := by
  cases xmp with
  | nil => rfl
  | cons e xmp =>
    obtain ⟨h1, h2⟩ := h e rfl
    have ha : djiAltitude float (e :: xmp) = some none := by unfold djiAltitude; simp only [h2]
    have hl : djiLonLat float (e :: xmp) = some none := by
      unfold djiLonLat
      cases hlat : e.get? "Latitude" with
      | none => simp only [hlat]
      | some v =>
        rw [hlat] at h1
        simp only [reduceCtorEq, false_or] at h1
        simp only [hlat, h1]
    unfold geoOf
    rw [ha, hl]

/-- C53 (finding). A coordinate written without a sign loses its first character and becomes negative. -/
theorem C53_dji_unsigned (float : List Char → Option ℚ) (e : Dict String (List Char)) (xmp : Xmp) (tags : Tags) (c d : Char) (lon lat : List Char) (x y : ℚ)
    (hc : c ≠ '+') (hd : d ≠ '+') (h1 : e.get? "Longitude" = some (c :: lon)) (h2 : e.get? "Latitude" = some (d :: lat))
    (hx : float lon = some x) (hy : float lat = some y) (g : Dict String ℚ) (hg : geoOf float (e :: xmp) tags = some g) :
    g.get? "longitude" = some (-x) ∧ g.get? "latitude" = some (-y) := by
  have hl : djiLonLat float (e :: xmp) = some (some (-x, -y)) := by
    unfold djiLonLat
    simp only [h1, h2, djiNumber, hx, hy]
    simp [hc, hd]
  exact geoOf_lonLat float _ tags _ _ hl g hg

/-- The number of digits, for the examples. -/
def digits (cs : List Char) : Option ℚ := (Verif.PyText.pyInt cs).map fun n => (n : ℚ)

/-- Not vacuous: "+12" and "-7" are a position; "12" and "7" too, but another one. -/
example : geoOf digits [[("Longitude", ['+', '1', '2']), ("Latitude", ['-', '7'])]] [] = some [("latitude", -7), ("longitude", 12)] ∧
    geoOf digits [[("Longitude", ['1', '2']), ("Latitude", ['4', '7'])]] [] = some [("latitude", -7), ("longitude", -2)] := by
  decide +kernel

end Verif.Exif
