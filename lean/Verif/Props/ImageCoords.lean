import Verif.Model.ImageCoords
import Mathlib.Tactic.FieldSimp
import Mathlib.Tactic.Ring
import Mathlib.Tactic.Linarith
import Mathlib.Tactic.LinearCombination
import Mathlib.Tactic.Positivity

/-!
# C44, C45: image coordinate systems

Specification pieces: a pixel `(i, j)` of a `w × h` image covers the half-open unit square with
centre `(i, j)` in pixel coordinates; `rotPixel` is where that pixel goes when the raw image is
displayed upright according to its EXIF orientation.
-/
set_option linter.unusedSimpArgs false
namespace Verif.ImageCoords

section
variable {w h : ℕ}

theorem size_pos (hw : 0 < w) : (0 : ℚ) < ((max w h : ℕ) : ℚ) := by
  have : 0 < max w h := lt_max_of_lt_left hw
  exact_mod_cast this

/-- Pixel coordinates survive normalisation, and normalised ones denormalisation. -/
theorem C44_roundtrip (hw : 0 < w) (p : ℚ × ℚ) :
    denormalize w h (normalize w h p) = p ∧ normalize w h (denormalize w h p) = p := by
  have := (size_pos (h := h) hw).ne'
  refine ⟨?_, ?_⟩ <;> ext <;> simp only [normalize, denormalize] <;> field_simp <;> ring

/-- The Python and the C++ conversions are the same functions. -/
theorem C44_cpp_agrees (w h : ℕ) (p : ℚ × ℚ) :
    pixelToNormalized w h p = normalize w h p ∧ normalizedToPixel w h p = denormalize w h p := by
  refine ⟨?_, ?_⟩ <;> ext <;>
    simp only [normalize, denormalize, pixelToNormalized, normalizedToPixel] <;> ring

/-- The corners of the image: the larger side spans exactly `[-1/2, 1/2]`, the image centre is
the origin, distances are divided by the larger side in both directions, and a pixel position is
inside the image iff its normalised position is inside the corresponding rectangle. -/
theorem C44_frame (hw : 0 < w) (hh : 0 < h) (p q : ℚ × ℚ) :
    normalize w h ((w : ℚ) / 2 - 1 / 2, (h : ℚ) / 2 - 1 / 2) = (0, 0) ∧
    ((normalize w h p).1 - (normalize w h q).1 = (p.1 - q.1) / ((max w h : ℕ) : ℚ) ∧
     (normalize w h p).2 - (normalize w h q).2 = (p.2 - q.2) / ((max w h : ℕ) : ℚ)) ∧
    ((-1 / 2 ≤ p.1 ∧ p.1 ≤ w - 1 / 2 ∧ -1 / 2 ≤ p.2 ∧ p.2 ≤ h - 1 / 2) ↔
      (-((w : ℚ) / (max w h : ℕ)) / 2 ≤ (normalize w h p).1 ∧
        (normalize w h p).1 ≤ ((w : ℚ) / (max w h : ℕ)) / 2 ∧
        -((h : ℚ) / (max w h : ℕ)) / 2 ≤ (normalize w h p).2 ∧
        (normalize w h p).2 ≤ ((h : ℚ) / (max w h : ℕ)) / 2)) := by
  have hs := size_pos (h := h) hw
  have hs' := hs.ne'
  refine ⟨?_, ⟨?_, ?_⟩, ?_⟩
  · ext <;> simp [normalize]
  · simp only [normalize]; field_simp; ring
  · simp only [normalize]; field_simp; ring
  · simp only [normalize]
    rw [show -((w : ℚ) / (max w h : ℕ)) / 2 = (-(w : ℚ) / 2) / (max w h : ℕ) by ring,
      show ((w : ℚ) / (max w h : ℕ)) / 2 = ((w : ℚ) / 2) / (max w h : ℕ) by ring,
      show -((h : ℚ) / (max w h : ℕ)) / 2 = (-(h : ℚ) / 2) / (max w h : ℕ) by ring,
      show ((h : ℚ) / (max w h : ℕ)) / 2 = ((h : ℚ) / 2) / (max w h : ℕ) by ring,
      div_le_div_iff_of_pos_right hs, div_le_div_iff_of_pos_right hs,
      div_le_div_iff_of_pos_right hs, div_le_div_iff_of_pos_right hs]
    constructor
    · rintro ⟨a, b, c, d⟩; refine ⟨?_, ?_, ?_, ?_⟩ <;> linarith
    · rintro ⟨a, b, c, d⟩; refine ⟨?_, ?_, ?_, ?_⟩ <;> linarith

/-- Every pixel centre has normalised coordinates strictly inside `(-1/2, 1/2)`. -/
theorem C44_range {i j : ℕ} (hi : i < w) (hj : j < h) :
    |(normalize w h ((i : ℚ), (j : ℚ))).1| < 1 / 2 ∧
    |(normalize w h ((i : ℚ), (j : ℚ))).2| < 1 / 2 := by
  have hs := size_pos (w := w) (h := h) (by omega)
  have h1 : (w : ℚ) ≤ ((max w h : ℕ) : ℚ) := by exact_mod_cast le_max_left w h
  have h2 : (h : ℚ) ≤ ((max w h : ℕ) : ℚ) := by exact_mod_cast le_max_right w h
  have hi' : (i : ℚ) + 1 ≤ w := by exact_mod_cast hi
  have hj' : (j : ℚ) + 1 ≤ h := by exact_mod_cast hj
  have hi0 : (0 : ℚ) ≤ i := by positivity
  have hj0 : (0 : ℚ) ≤ j := by positivity
  simp only [normalize, abs_lt]
  refine ⟨⟨?_, ?_⟩, ⟨?_, ?_⟩⟩
  · rw [lt_div_iff₀ hs]; linarith
  · rw [div_lt_iff₀ hs]; linarith
  · rw [lt_div_iff₀ hs]; linarith
  · rw [div_lt_iff₀ hs]; linarith

/-- Feature sizes are scaled like distances: a feature of diameter `s` pixels becomes `s / size`,
and `x, y` are those of the point conversion. -/
theorem C44_feature (hw : 0 < w) (x y s : ℚ) :
    denormalize w h ((normalizeFeature w h (x, y, s)).1, (normalizeFeature w h (x, y, s)).2.1) =
      (x, y) ∧ (normalizeFeature w h (x, y, s)).2.2 * ((max w h : ℕ) : ℚ) = s := by
  have := (size_pos (h := h) hw).ne'
  refine ⟨(C44_roundtrip hw (x, y)).1, ?_⟩
  simp only [normalizeFeature]; field_simp

/-- `resized_image`: an image that already fits (or `max_size = 0`) keeps its size; otherwise its
larger side becomes exactly `max_size`, neither side grows, and each side is the scaled size
rounded down. -/
theorem C44_resize (w h m : ℕ) :
    ((m = 0 ∨ max w h ≤ m) → resizedDims w h m = (w, h)) ∧
    (0 < m → m < max w h →
      max (resizedDims w h m).1 (resizedDims w h m).2 = m ∧
      (resizedDims w h m).1 ≤ w ∧ (resizedDims w h m).2 ≤ h ∧
      ((resizedDims w h m).1 : ℚ) ≤ (w : ℚ) * m / (max w h : ℕ) ∧
      (w : ℚ) * m / (max w h : ℕ) < (resizedDims w h m).1 + 1 ∧
      ((resizedDims w h m).2 : ℚ) ≤ (h : ℚ) * m / (max w h : ℕ) ∧
      (h : ℚ) * m / (max w h : ℕ) < (resizedDims w h m).2 + 1) := by
  refine ⟨?_, ?_⟩
  · intro hm
    have : ¬ (0 < m ∧ m < max w h) := by omega
    simp only [resizedDims, this, if_false]
  · intro hm hlt
    have hcond : (0 < m ∧ m < max w h) := ⟨hm, hlt⟩
    simp only [resizedDims, hcond, and_self, if_true]
    have hs : 0 < max w h := by omega
    have hsq : (0 : ℚ) < ((max w h : ℕ) : ℚ) := by exact_mod_cast hs
    have hle : ∀ a, a ≤ max w h → a * m / max w h ≤ m := by
      intro a ha
      exact Nat.div_le_of_le_mul (Nat.mul_le_mul_right m ha)
    have hle' : ∀ a, a * m / max w h ≤ a := by
      intro a
      refine Nat.div_le_of_le_mul ?_
      rw [Nat.mul_comm]; exact Nat.mul_le_mul_right a hlt.le
    have heq : max w h * m / max w h = m := Nat.mul_div_cancel_left _ hs
    have hfl : ∀ a : ℕ, ((a * m / max w h : ℕ) : ℚ) ≤ (a : ℚ) * m / (max w h : ℕ) ∧
        (a : ℚ) * m / (max w h : ℕ) < ((a * m / max w h : ℕ) : ℚ) + 1 := by
      intro a
      refine ⟨?_, ?_⟩
      · rw [le_div_iff₀ hsq]
        exact_mod_cast Nat.div_mul_le_self _ _
      · rw [div_lt_iff₀ hsq]
        have h2 : a * m < (a * m / max w h + 1) * max w h := by
          have := Nat.div_add_mod (a * m) (max w h)
          have h3 := Nat.mod_lt (a * m) hs
          nlinarith
        exact_mod_cast h2
    refine ⟨?_, hle' w, hle' h, (hfl w).1, (hfl w).2, (hfl h).1, (hfl h).2⟩
    rcases max_choice w h with hm' | hm'
    · have h1 := hle h (le_max_right _ _)
      have : w * m / max w h = m := by conv_lhs => rw [show w * m = max w h * m by rw [hm']]
                                       exact heq
      omega
    · have h1 := hle w (le_max_left _ _)
      have : h * m / max w h = m := by conv_lhs => rw [show h * m = max w h * m by rw [hm']]
                                       exact heq
      omega

/-- A very elongated image gets an empty side, which `cv2.resize` rejects. -/
theorem C44_resize_degenerate (w h m : ℕ) (hw : 0 < w) (hh : 0 < h) (hm : 0 < m)
    (hlt : m < max w h) :
    (0 < (resizedDims w h m).1 ∧ 0 < (resizedDims w h m).2) ↔ max w h ≤ min w h * m := by
  have hcond : (0 < m ∧ m < max w h) := ⟨hm, hlt⟩
  simp only [resizedDims, hcond, and_self, if_true]
  have hs : 0 < max w h := by omega
  rw [Nat.div_pos_iff, Nat.div_pos_iff]
  rcases Nat.le_total w h with hwh | hwh
  · rw [max_eq_right hwh, min_eq_left hwh]
    have : h ≤ h * m := Nat.le_mul_of_pos_right h hm
    constructor
    · rintro ⟨⟨_, h1⟩, _⟩; exact h1
    · intro h1; exact ⟨⟨hh, h1⟩, hh, this⟩
  · rw [max_eq_left hwh, min_eq_right hwh]
    have : w ≤ w * m := Nat.le_mul_of_pos_right w hm
    constructor
    · rintro ⟨_, _, h1⟩; exact h1
    · intro h1; exact ⟨⟨hw, this⟩, hw, h1⟩

example : resizedDims 5000 1 2048 = (2048, 0) := by decide
example : resizedDims 4000 3000 2048 = (2048, 1536) := by decide

end

/-! ## C45 -/

/-- The pixel of the upright image that shows raw pixel `(i, j)` of a `w × h` image, by EXIF
orientation: 1 as stored, 3 upside down, 6 to be rotated clockwise, 8 counter-clockwise. -/
def rotPixel (w h : ℕ) : ℕ → ℕ × ℕ → Option (ℕ × ℕ)
  | 1, (i, j) => some (i, j)
  | 3, (i, j) => some (w - 1 - i, h - 1 - j)
  | 6, (i, j) => some (h - 1 - j, i)
  | 8, (i, j) => some (j, w - 1 - i)
  | _, _ => none

/-- Width and height of the upright image. -/
def uprightDims (w h orientation : ℕ) : ℕ × ℕ :=
  if orientation = 6 ∨ orientation = 8 then (h, w) else (w, h)

theorem cast_max (w h : ℕ) : ((max w h : ℕ) : ℚ) = max (w : ℚ) (h : ℚ) := by push_cast; rfl

/-- Relative upright position of a point: what `toUpright` multiplies with the target size. -/
def rel (w h : ℕ) (o : ℕ) (p : ℚ × ℚ) : ℚ × ℚ :=
  let x := (p.1 + 1 / 2) / w
  let y := (p.2 + 1 / 2) / h
  if o = 1 then (x, y) else if o = 3 then (1 - x, 1 - y) else if o = 6 then (1 - y, x)
  else (y, 1 - x)

theorem toUpright_normalize {w h : ℕ} (hw : 0 < w) (hh : 0 < h) {o : ℕ}
    (ho : o = 1 ∨ o = 3 ∨ o = 6 ∨ o = 8) (nw nh : Option ℕ) (p : ℚ × ℚ) :
    toUpright w h o nw nh (normalize w h p) =
      some (((nw.getD (uprightDims w h o).1 : ℕ) : ℚ) * (rel w h o p).1,
        ((nh.getD (uprightDims w h o).2 : ℕ) : ℚ) * (rel w h o p).2) := by
  have hs := (size_pos (h := h) hw).ne'
  rw [cast_max] at hs
  have hw' : (w : ℚ) ≠ 0 := by exact_mod_cast hw.ne'
  have hh' : (h : ℚ) ≠ 0 := by exact_mod_cast hh.ne'
  rcases ho with rfl | rfl | rfl | rfl <;>
    simp [toUpright, rotTable, uprightH, normalize, rel, uprightDims, Matrix.mul_apply,
      Fin.sum_univ_three] <;>
    generalize max (w : ℚ) (h : ℚ) = s at * <;>
    refine ⟨?_, ?_⟩ <;> left <;> field_simp <;> ring

/-- The centre of every raw pixel is sent to the centre of the pixel of the upright image that
shows it (upright coordinates have their origin at the image corner, so the centre of pixel
`(a, b)` is `(a + 1/2, b + 1/2)`); truncating gives exactly that pixel. -/
theorem C45_pixel {w h : ℕ} {o : ℕ} (ho : o = 1 ∨ o = 3 ∨ o = 6 ∨ o = 8)
    {i j : ℕ} (hi : i < w) (hj : j < h) :
    ∃ a b, rotPixel w h o (i, j) = some (a, b) ∧
      toUpright w h o none none (normalize w h ((i : ℚ), (j : ℚ))) =
        some ((a : ℚ) + 1 / 2, (b : ℚ) + 1 / 2) ∧
      trunc ((a : ℚ) + 1 / 2) = a ∧ trunc ((b : ℚ) + 1 / 2) = b ∧
      a < (uprightDims w h o).1 ∧ b < (uprightDims w h o).2 := by
  have hw : 0 < w := by omega
  have hh : 0 < h := by omega
  have hw' : (w : ℚ) ≠ 0 := by exact_mod_cast hw.ne'
  have hh' : (h : ℚ) ≠ 0 := by exact_mod_cast hh.ne'
  have htr : ∀ a : ℕ, trunc ((a : ℚ) + 1 / 2) = a := by
    intro a
    have : (0 : ℚ) ≤ (a : ℚ) + 1 / 2 := by positivity
    rw [trunc, if_pos this, Int.floor_eq_iff]
    constructor
    · push_cast; linarith
    · push_cast; linarith
  have hi1 : ((w - 1 - i : ℕ) : ℚ) = w - 1 - i := by
    rw [Nat.cast_sub (by omega), Nat.cast_sub (by omega)]; simp
  have hj1 : ((h - 1 - j : ℕ) : ℚ) = h - 1 - j := by
    rw [Nat.cast_sub (by omega), Nat.cast_sub (by omega)]; simp
  rcases ho with rfl | rfl | rfl | rfl
  · refine ⟨i, j, rfl, ?_, htr _, htr _, ?_, ?_⟩
    · rw [toUpright_normalize hw hh (by simp)]
      simp [rel, uprightDims]; refine ⟨?_, ?_⟩ <;> field_simp
    · simpa [uprightDims] using hi
    · simpa [uprightDims] using hj
  · refine ⟨_, _, rfl, ?_, htr _, htr _, ?_, ?_⟩
    · rw [toUpright_normalize hw hh (by simp), hi1, hj1]
      simp [rel, uprightDims]; refine ⟨?_, ?_⟩ <;> field_simp <;> ring
    · simp only [uprightDims]; norm_num; omega
    · simp only [uprightDims]; norm_num; omega
  · refine ⟨_, _, rfl, ?_, htr _, htr _, ?_, ?_⟩
    · rw [toUpright_normalize hw hh (by simp), hj1]
      simp [rel, uprightDims]; refine ⟨?_, ?_⟩ <;> field_simp <;> ring
    · simp only [uprightDims]; norm_num; omega
    · simpa [uprightDims] using hi
  · refine ⟨_, _, rfl, ?_, htr _, htr _, ?_, ?_⟩
    · rw [toUpright_normalize hw hh (by simp), hi1]
      simp [rel, uprightDims]; refine ⟨?_, ?_⟩ <;> field_simp <;> ring
    · simpa [uprightDims] using hj
    · simp only [uprightDims]; norm_num; omega

/-- The other EXIF orientations (the mirrored ones, and anything outside 1..8) raise. -/
theorem C45_other (w h o : ℕ) (nw nh : Option ℕ) (c : ℚ × ℚ) :
    toUpright w h o nw nh c = none ↔ ¬ (o = 1 ∨ o = 3 ∨ o = 6 ∨ o = 8) := by
  constructor
  · intro hn ho
    rcases ho with rfl | rfl | rfl | rfl <;> simp [toUpright, rotTable] at hn
  · intro ho
    have : rotTable o = none := by
      unfold rotTable
      split <;> simp_all
    simp [toUpright, this]

/-- The conversion loses nothing: different points have different upright positions. -/
theorem C45_injective {w h : ℕ} (hw : 0 < w) (hh : 0 < h) {o : ℕ} {nw nh : Option ℕ}
    (hnw : nw ≠ some 0) (hnh : nh ≠ some 0) {c c' r : ℚ × ℚ}
    (h1 : toUpright w h o nw nh c = some r) (h2 : toUpright w h o nw nh c' = some r) : c = c' := by
  have ho : o = 1 ∨ o = 3 ∨ o = 6 ∨ o = 8 := by
    by_contra hc
    rw [(C45_other w h o nw nh c).2 hc] at h1; cases h1
  have hd : 0 < (uprightDims w h o).1 ∧ 0 < (uprightDims w h o).2 := by
    unfold uprightDims; split <;> exact ⟨by assumption, by assumption⟩
  have hwne : ((nw.getD (uprightDims w h o).1 : ℕ) : ℚ) ≠ 0 := by
    cases nw with
    | none => exact_mod_cast hd.1.ne'
    | some a => simp only [Option.getD_some]; exact_mod_cast fun h0 => hnw (by rw [h0])
  have hhne : ((nh.getD (uprightDims w h o).2 : ℕ) : ℚ) ≠ 0 := by
    cases nh with
    | none => exact_mod_cast hd.2.ne'
    | some a => simp only [Option.getD_some]; exact_mod_cast fun h0 => hnh (by rw [h0])
  rw [← (C44_roundtrip (h := h) hw c).2] at h1 ⊢
  rw [← (C44_roundtrip (h := h) hw c').2] at h2 ⊢
  generalize denormalize w h c = p at *
  generalize denormalize w h c' = q at *
  rw [toUpright_normalize hw hh ho] at h1 h2
  rw [← h1] at h2
  simp only [Option.some.injEq, Prod.mk.injEq] at h2
  have e1 := mul_left_cancel₀ hwne h2.1
  have e2 := mul_left_cancel₀ hhne h2.2
  have hw' : (w : ℚ) ≠ 0 := by exact_mod_cast hw.ne'
  have hh' : (h : ℚ) ≠ 0 := by exact_mod_cast hh.ne'
  have : p = q := by
    rcases ho with rfl | rfl | rfl | rfl <;> simp [rel] at e1 e2 <;> ext <;>
      first
        | (rw [div_left_inj' hw'] at e1; linarith)
        | (rw [div_left_inj' hh'] at e1; linarith)
        | (rw [div_left_inj' hw'] at e2; linarith)
        | (rw [div_left_inj' hh'] at e2; linarith)
  rw [this]

/-- The mask pixel that covers a relative position `t ∈ (0, 1)` of an axis with `n` pixels. -/
theorem npIndex_rel {n : ℕ} (hn : 0 < n) {t : ℚ} (h0 : 0 ≤ t) (h1 : t < 1) :
    npIndex n (trunc ((n : ℚ) * t)) = some (⌊(n : ℚ) * t⌋).toNat ∧ (⌊(n : ℚ) * t⌋).toNat < n := by
  have hn' : (0 : ℚ) < n := by exact_mod_cast hn
  have hp : (0 : ℚ) ≤ (n : ℚ) * t := by positivity
  have hl : (n : ℚ) * t < n := by nlinarith
  have hf0 : 0 ≤ ⌊(n : ℚ) * t⌋ := Int.floor_nonneg.2 hp
  have hfn : ⌊(n : ℚ) * t⌋ < (n : ℤ) := by
    rw [Int.floor_lt]; exact_mod_cast hl
  rw [trunc, if_pos hp, npIndex, if_pos ⟨hf0, hfn⟩]
  exact ⟨rfl, by omega⟩

/-- Every feature strictly inside the raw image is looked up at a valid pixel of the mask, without
a wrap-around or an exception, whatever the size of the mask: the pixel covering the same relative
position of the upright image. -/
theorem C45_mask {w h : ℕ} {o : ℕ} (ho : o = 1 ∨ o = 3 ∨ o = 6 ∨ o = 8) (m : Mask)
    (hmw : 0 < m.width) (hmh : 0 < m.height) {x y : ℚ}
    (hx0 : -1 / 2 < x) (hx1 : x < w - 1 / 2) (hy0 : -1 / 2 < y) (hy1 : y < h - 1 / 2) :
    ∃ r c : ℕ, r < m.height ∧ c < m.width ∧
      (c : ℚ) ≤ m.width * (rel w h o (x, y)).1 ∧ m.width * (rel w h o (x, y)).1 < c + 1 ∧
      (r : ℚ) ≤ m.height * (rel w h o (x, y)).2 ∧ m.height * (rel w h o (x, y)).2 < r + 1 ∧
      featureMask w h o m (normalize w h (x, y)) = some (decide (m.value r c ≠ 0)) := by
  have hw : (0 : ℚ) < w := by linarith
  have hh : (0 : ℚ) < h := by linarith
  have hwn : 0 < w := by exact_mod_cast hw
  have hhn : 0 < h := by exact_mod_cast hh
  have a0 : 0 < (x + 1 / 2) / w := div_pos (by linarith) hw
  have a1 : (x + 1 / 2) / w < 1 := by rw [div_lt_one hw]; linarith
  have b0 : 0 < (y + 1 / 2) / h := div_pos (by linarith) hh
  have b1 : (y + 1 / 2) / h < 1 := by rw [div_lt_one hh]; linarith
  have hrel : 0 ≤ (rel w h o (x, y)).1 ∧ (rel w h o (x, y)).1 < 1 ∧
      0 ≤ (rel w h o (x, y)).2 ∧ (rel w h o (x, y)).2 < 1 := by
    rcases ho with rfl | rfl | rfl | rfl <;> simp only [rel] <;> norm_num <;>
      norm_num at a0 a1 b0 b1 <;> refine ⟨?_, ?_, ?_, ?_⟩ <;> linarith
  obtain ⟨r0, r1, r2, r3⟩ := hrel
  obtain ⟨c1, c2⟩ := npIndex_rel hmw r0 r1
  obtain ⟨d1, d2⟩ := npIndex_rel hmh r2 r3
  have hp1 : (0 : ℚ) ≤ (m.width : ℚ) * (rel w h o (x, y)).1 := by positivity
  have hp2 : (0 : ℚ) ≤ (m.height : ℚ) * (rel w h o (x, y)).2 := by positivity
  have hcast : ∀ q : ℚ, 0 ≤ q → ((⌊q⌋.toNat : ℕ) : ℚ) = (⌊q⌋ : ℚ) := by
    intro q hq
    have : ((⌊q⌋.toNat : ℕ) : ℤ) = ⌊q⌋ := Int.toNat_of_nonneg (Int.floor_nonneg.2 hq)
    exact_mod_cast this
  refine ⟨_, _, d2, c2, ?_, ?_, ?_, ?_, ?_⟩
  · rw [hcast _ hp1]; exact Int.floor_le _
  · rw [hcast _ hp1]; exact Int.lt_floor_add_one _
  · rw [hcast _ hp2]; exact Int.floor_le _
  · rw [hcast _ hp2]; exact Int.lt_floor_add_one _
  · simp only [featureMask, toUpright_normalize hwn hhn ho, Option.getD_some, maskLookup, d1, c1,
      Option.map_some]

/-- For a mask of the size of the upright image, a feature at a pixel centre is kept iff the mask
is non-zero at the pixel showing it. -/
theorem C45_mask_pixel {w h : ℕ} {o : ℕ} (ho : o = 1 ∨ o = 3 ∨ o = 6 ∨ o = 8) (m : Mask)
    (hm : (m.width, m.height) = uprightDims w h o) {i j : ℕ} (hi : i < w) (hj : j < h) :
    ∃ a b, rotPixel w h o (i, j) = some (a, b) ∧
      featureMask w h o m (normalize w h ((i : ℚ), (j : ℚ))) =
        some (decide (m.value b a ≠ 0)) := by
  obtain ⟨a, b, h1, h2, h3, h4, h5, h6⟩ := C45_pixel ho hi hj
  refine ⟨a, b, h1, ?_⟩
  have hmw : m.width = (uprightDims w h o).1 := by rw [← hm]
  have hmh : m.height = (uprightDims w h o).2 := by rw [← hm]
  have hup : toUpright w h o (some m.width) (some m.height) (normalize w h ((i : ℚ), (j : ℚ))) =
      some ((a : ℚ) + 1 / 2, (b : ℚ) + 1 / 2) := by
    rw [← h2, toUpright_normalize (by omega) (by omega) ho,
      toUpright_normalize (by omega) (by omega) ho, hmw, hmh]
    rfl
  have hx : npIndex m.width (a : ℤ) = some a := by
    rw [npIndex, if_pos ⟨by omega, by rw [hmw]; exact_mod_cast h5⟩]; simp
  have hy : npIndex m.height (b : ℤ) = some b := by
    rw [npIndex, if_pos ⟨by omega, by rw [hmh]; exact_mod_cast h6⟩]; simp
  simp only [featureMask, hup, h3, h4, maskLookup, hx, hy, Option.map_some]

/-- At the very edge of the image (pixel coordinate `-1/2`, orientations other than 1) the lookup
is out of range and raises: the strict inequalities of `C45_mask` are needed. -/
theorem C45_edge {w h : ℕ} (hw : 0 < w) (hh : 0 < h) (m : Mask) (hmw : 0 < m.width) (y : ℚ) :
    featureMask w h 3 m (normalize w h (-1 / 2, y)) = none := by
  have hp : (0 : ℚ) ≤ m.width := by positivity
  have : npIndex m.width (trunc (m.width : ℚ)) = none := by
    rw [trunc, if_pos hp]
    simp [npIndex]
  simp only [featureMask, toUpright_normalize hw hh (show (3 : ℕ) = 1 ∨ (3 : ℕ) = 3 ∨ _ by simp),
    Option.getD_some]
  have hr : (rel w h 3 (-1 / 2, y)).1 = 1 := by simp [rel]; norm_num
  rw [hr, mul_one, maskLookup, this]
  cases npIndex m.height (trunc (↑m.height * (rel w h 3 (-1 / 2, y)).2)) <;> rfl

/-- `load_features_mask` gives one entry per feature, in order: all true without a mask image,
otherwise the mask value of that feature. -/
theorem C45_load {w h : ℕ} {o : ℕ} (ho : o = 1 ∨ o = 3 ∨ o = 6 ∨ o = 8) (m : Option Mask)
    (hm : ∀ k, m = some k → 0 < k.width ∧ 0 < k.height) (points : List (ℚ × ℚ))
    (hin : ∀ p ∈ points, -1 / 2 < p.1 ∧ p.1 < w - 1 / 2 ∧ -1 / 2 < p.2 ∧ p.2 < h - 1 / 2) :
    ∃ out, loadFeaturesMask w h o m (points.map (normalize w h)) = some out ∧
      out.length = points.length ∧
      ∀ (n : ℕ) (p : ℚ × ℚ), points[n]? = some p →
        (m = none → out[n]? = some true) ∧
        (∀ k, m = some k → out[n]? = featureMask w h o k (normalize w h p)) := by
  have key : ∀ (k : Mask), 0 < k.width → 0 < k.height → ∀ ps : List (ℚ × ℚ),
      (∀ p ∈ ps, -1 / 2 < p.1 ∧ p.1 < w - 1 / 2 ∧ -1 / 2 < p.2 ∧ p.2 < h - 1 / 2) →
      ∃ out, (ps.map (normalize w h)).mapM (featureMask w h o k) = some out ∧
        out.length = ps.length ∧
        ∀ (n : ℕ) (p : ℚ × ℚ), ps[n]? = some p → out[n]? = featureMask w h o k (normalize w h p) := by
    intro k k1 k2 ps
    induction ps with
    | nil => intro _; exact ⟨[], rfl, rfl, by simp⟩
    | cons p ps ih =>
      intro hps
      obtain ⟨out, e1, e2, e3⟩ := ih fun q hq => hps q (List.mem_cons_of_mem _ hq)
      obtain ⟨a, b, c, d⟩ := hps p (by simp)
      obtain ⟨r, cc, _, _, _, _, _, _, hf⟩ := C45_mask ho k k1 k2 a b c d
      refine ⟨decide (k.value r cc ≠ 0) :: out, ?_, by simp [e2], ?_⟩
      · rw [List.map_cons, List.mapM_cons, hf, e1]; rfl
      · intro n q hq
        cases n with
        | zero => simp at hq; subst hq; exact hf.symm
        | succ n => simp at hq; simpa using e3 n q hq
  cases points with
  | nil => exact ⟨[], rfl, rfl, by simp⟩
  | cons p ps =>
    cases m with
    | none =>
      refine ⟨(p :: ps).map fun _ => true, by simp [loadFeaturesMask], by simp, ?_⟩
      intro n q hq
      refine ⟨fun _ => ?_, by simp⟩
      rw [List.getElem?_map, hq]; rfl
    | some k =>
      obtain ⟨k1, k2⟩ := hm k rfl
      obtain ⟨out, e1, e2, e3⟩ := key k k1 k2 (p :: ps) hin
      refine ⟨out, by simpa [loadFeaturesMask] using e1, e2, ?_⟩
      intro n q hq
      refine ⟨by simp, ?_⟩
      rintro k' hk; cases hk
      exact e3 n q hq

theorem segFold (ignore : List ℕ) (seg m : ℕ) :
    ignore.foldl (fun m v => if m ≠ 0 ∧ seg ≠ v then 1 else 0) m ≠ 0 ↔ m ≠ 0 ∧ seg ∉ ignore := by
  induction ignore generalizing m with
  | nil => simp
  | cons v l ih =>
    rw [List.foldl_cons, ih]
    by_cases h1 : m ≠ 0 ∧ seg ≠ v
    · simp only [h1, and_self, if_true, List.mem_cons]; simp [h1]
    · rw [if_neg h1]
      simp only [ne_eq, not_true_eq_false, false_and, List.mem_cons, false_iff]
      tauto

/-- A pixel of the segmentation mask is non-zero iff its label is not one of the ignored ones. -/
theorem C45_segmentation (ignore : List ℕ) (seg : ℕ) :
    segmentationMask ignore seg ≠ 0 ↔ seg ∉ ignore := by
  unfold segmentationMask; rw [segFold]; simp

/-- The combination of two masks never keeps a pixel that one of them drops, a missing mask drops
nothing, and for 0/1 masks (and a 0/255 mask with a 0/1 one) the combination keeps every pixel
that both keep. -/
theorem C45_combine (a b : Mask) (r c : ℕ) :
    combineMasks none none = none ∧ combineMasks (some a) none = some a ∧
    combineMasks none (some b) = some b ∧
    ∃ k, combineMasks (some a) (some b) = some k ∧
      (k.value r c ≠ 0 → a.value r c ≠ 0 ∧ b.value r c ≠ 0) ∧
      ((a.value r c ∈ [0, 1, 255] ∧ b.value r c ∈ [0, 1]) →
        (k.value r c ≠ 0 ↔ a.value r c ≠ 0 ∧ b.value r c ≠ 0)) := by
  have h0 : ∀ x y : ℕ, Nat.land x y ≠ 0 → x ≠ 0 ∧ y ≠ 0 := by
    intro x y hxy
    refine ⟨?_, ?_⟩
    · rintro rfl; exact hxy (Nat.zero_and y)
    · rintro rfl; exact hxy (Nat.and_zero x)
  refine ⟨rfl, rfl, rfl, _, rfl, h0 _ _, ?_⟩
  rintro ⟨ha, hb⟩
  refine ⟨h0 _ _, ?_⟩
  simp only [List.mem_cons, List.not_mem_nil, or_false] at ha hb
  rcases ha with ha | ha | ha <;> rcases hb with hb | hb <;> simp [ha, hb] <;> decide

/-- With a grey mask the bitwise combination drops pixels both masks keep: 254 and 1 have no
common bit. -/
theorem C45_combine_grey : ∃ (a b k : Mask), combineMasks (some a) (some b) = some k ∧
    a.value 0 0 = 254 ∧ b.value 0 0 = 1 ∧ k.value 0 0 = 0 :=
  ⟨⟨1, 1, fun _ _ => 254⟩, ⟨1, 1, fun _ _ => 1⟩, _, rfl, rfl, rfl, by decide⟩

/-- A portrait photo (raw 4 × 3, orientation 6): raw pixel (1, 0) is shown at (2, 1). -/
example : toUpright 4 3 6 none none (normalize 4 3 (1, 0)) = some (5 / 2, 3 / 2) ∧
    rotPixel 4 3 6 (1, 0) = some (2, 1) := by
  constructor
  · rw [toUpright_normalize (by norm_num) (by norm_num) (by simp)]
    simp [rel, uprightDims]; norm_num
  · rfl

end Verif.ImageCoords
