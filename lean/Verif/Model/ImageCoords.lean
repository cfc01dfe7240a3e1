import Mathlib.Data.Rat.Floor
import Mathlib.LinearAlgebra.Matrix.Notation

/-!
# Model of the image coordinate systems

`opensfm/features.py` (normalised coordinates, resizing), `opensfm/src/geometry/src/camera.cc`
(the same conversions in C++), `opensfm/upright.py` and `opensfm/masking.py`.

Simplification: floating point numbers are exact rationals; arrays of points are lists of pairs
handled point by point (the numpy code is vectorised).
-/
namespace Verif.ImageCoords

/-- `normalized_image_coordinates` for one point (features.py:324-331). -/
def normalize (w h : ℕ) (p : ℚ × ℚ) : ℚ × ℚ :=
  let size : ℚ := ((max w h : ℕ) : ℚ)
  ((p.1 + 1 / 2 - (w : ℚ) / 2) / size, (p.2 + 1 / 2 - (h : ℚ) / 2) / size)

/-- `denormalized_image_coordinates` for one point (features.py:334-341). -/
def denormalize (w h : ℕ) (p : ℚ × ℚ) : ℚ × ℚ :=
  let size : ℚ := ((max w h : ℕ) : ℚ)
  (p.1 * size - 1 / 2 + (w : ℚ) / 2, p.2 * size - 1 / 2 + (h : ℚ) / 2)

/-- `Camera::PixelToNormalizedCoordinates` (camera.cc:352-357). -/
def pixelToNormalized (w h : ℕ) (p : ℚ × ℚ) : ℚ × ℚ :=
  let inv : ℚ := 1 / ((max w h : ℕ) : ℚ)
  ((p.1 + 1 / 2 - (w : ℚ) / 2) * inv, (p.2 + 1 / 2 - (h : ℚ) / 2) * inv)

/-- `Camera::NormalizedToPixelCoordinates` (camera.cc:379-384). -/
def normalizedToPixel (w h : ℕ) (p : ℚ × ℚ) : ℚ × ℚ :=
  let size : ℚ := ((max w h : ℕ) : ℚ)
  (p.1 * size + ((w : ℚ) - 1) * (1 / 2), p.2 * size + ((h : ℚ) - 1) * (1 / 2))

/-- `normalize_features` for one row `(x, y, size)` (features.py:344-354); the remaining columns,
the descriptors and the colours are returned as they are. -/
def normalizeFeature (w h : ℕ) (f : ℚ × ℚ × ℚ) : ℚ × ℚ × ℚ :=
  let q := normalize w h (f.1, f.2.1)
  (q.1, q.2, f.2.2 / ((max w h : ℕ) : ℚ))

/-- Dimensions `(width, height)` of the result of `resized_image` (features.py:281-289); the
pixel interpolation of `cv2.resize` is not modelled. -/
def resizedDims (w h maxSize : ℕ) : ℕ × ℕ :=
  let size := max w h
  if 0 < maxSize ∧ maxSize < size then (w * maxSize / size, h * maxSize / size) else (w, h)

/-- The dictionary `R` of `opensfm_to_upright` (upright.py:37-42); `none` is the `KeyError`. -/
def rotTable : ℕ → Option (Matrix (Fin 3) (Fin 3) ℚ)
  | 1 => some !![1, 0, 0; 0, 1, 0; 0, 0, 1]
  | 3 => some !![-1, 0, 1; 0, -1, 1; 0, 0, 1]
  | 6 => some !![0, -1, 1; 1, 0, 0; 0, 0, 1]
  | 8 => some !![0, 1, 0; -1, 0, 1; 0, 0, 1]
  | _ => none

/-- The matrix `H` (upright.py:44-48). -/
def uprightH (w h : ℕ) : Matrix (Fin 3) (Fin 3) ℚ :=
  let s : ℚ := max (w : ℚ) (h : ℚ)
  !![s / w, 0, 1 / 2; 0, s / h, 1 / 2; 0, 0, 1]

/-- `opensfm_to_upright` for one point (upright.py:8-63). `new` are the optional arguments
`new_width` and `new_height`. -/
def toUpright (w h orientation : ℕ) (newW newH : Option ℕ) (c : ℚ × ℚ) : Option (ℚ × ℚ) :=
  match rotTable orientation with
  | none => none
  | some R =>
    let T := R * uprightH w h
    let px := c.1 * T 0 0 + c.2 * T 0 1 + T 0 2
    let py := c.1 * T 1 0 + c.2 * T 1 1 + T 1 2
    let uw : ℕ := newW.getD (if orientation < 6 then w else h)
    let uh : ℕ := newH.getD (if orientation < 6 then h else w)
    some ((uw : ℚ) * px, (uh : ℚ) * py)

/-- `ndarray.astype(int)`: truncation towards zero. -/
def trunc (q : ℚ) : ℤ := if 0 ≤ q then ⌊q⌋ else ⌈q⌉

/-- numpy indexing of an axis of length `n`: negative indices count from the end, `none` is the
`IndexError`. -/
def npIndex (n : ℕ) (i : ℤ) : Option ℕ :=
  if 0 ≤ i ∧ i < n then some i.toNat
  else if -(n : ℤ) ≤ i ∧ i < 0 then some (i + n).toNat
  else none

/-- A mask image: `height` rows of `width` values. -/
structure Mask where
  width : ℕ
  height : ℕ
  value : ℕ → ℕ → ℕ

/-- `mask_image[ps[:, 1], ps[:, 0]]` for one point (masking.py:87). -/
def maskLookup (m : Mask) (ix iy : ℤ) : Option ℕ :=
  match npIndex m.height iy, npIndex m.width ix with
  | some r, some c => some (m.value r c)
  | _, _ => none

/-- The mask value of one feature (masking.py:80-87). -/
def featureMask (w h orientation : ℕ) (m : Mask) (c : ℚ × ℚ) : Option Bool :=
  match toUpright w h orientation (some m.width) (some m.height) c with
  | none => none
  | some p => (maskLookup m (trunc p.1) (trunc p.2)).map (fun v => decide (v ≠ 0))

/-- `load_features_mask` (masking.py:53-96) for the given exif size and orientation and the
loaded mask image, if there is one; `none` is an exception. -/
def loadFeaturesMask (w h orientation : ℕ) (m : Option Mask) (points : List (ℚ × ℚ)) :
    Option (List Bool) :=
  match points with
  | [] => some []
  | _ =>
    match m with
    | none => some (points.map fun _ => true)
    | some m => points.mapM (featureMask w h orientation m)

/-- `mask_from_segmentation` for one pixel (masking.py:14-19): the loop over `ignore_values`. -/
def segmentationMask (ignore : List ℕ) (seg : ℕ) : ℕ :=
  ignore.foldl (fun m v => if m ≠ 0 ∧ seg ≠ v then 1 else 0) 1

/-- `combine_masks` (masking.py:22-39) for masks of one shape (the resizing of masks of
different shapes, lines 42-50, is not modelled); values are 0 or 1. -/
def combineMasks : Option Mask → Option Mask → Option Mask
  | none, none => none
  | none, some b => some b
  | some a, none => some a
  | some a, some b =>
    some ⟨a.width, a.height, fun r c => Nat.land (a.value r c) (b.value r c)⟩

end Verif.ImageCoords
