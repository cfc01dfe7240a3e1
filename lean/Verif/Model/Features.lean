import Verif.Base.PyText
import Verif.Model.ImageCoords

/-!
# Model of feature data, feature files and the feature loader

`opensfm/features.py` 18-279 (`SemanticData`, `FeaturesData`), `opensfm/features_processing.py` 222-335
(`bake_segmentation`, `detect`), `opensfm/feature_loading.py`, `opensfm/masking.py` 94-128 and the feature
files of `opensfm/dataset.py` 284-338.

Simplifications: arrays are lists of rows; numbers are rationals with a tag for the element type where the
code looks at it; the conversions to `float32` and from floats to `uint8` are arbitrary functions; a label
is its text. An exception is `none`.
-/
namespace Verif.Features
open Verif.ImageCoords

/-- A row of `points`: position, size and the further columns (angle). -/
structure Kp where
  x : ℚ
  y : ℚ
  size : ℚ
  rest : List ℚ
  deriving DecidableEq

/-- The element type of descriptors. -/
inductive DType
  | u8
  | f32
  deriving DecidableEq

/-- The `descriptors` array. -/
structure Desc where
  dtype : DType
  rows : List (List ℚ)
  deriving DecidableEq

/-- `SemanticData` (features.py:18-51). -/
structure Semantic where
  segmentation : Option (List ℤ)
  instances : Option (List ℤ)
  labels : List String
  deriving DecidableEq

/-- `FeaturesData` (features.py:54-76). -/
structure Feats where
  points : List Kp
  descriptors : Option Desc
  colors : List (List ℚ)
  semantic : Option Semantic
  depths : Option (List ℚ) := none
  deriving DecidableEq

/-- `array[mask]` for a Boolean mask, on arrays of the same length. -/
def pickAux {α : Type} : List Bool → List α → List α
  | b :: m, x :: l => if b then x :: pickAux m l else pickAux m l
  | _, _ => []

/-- `array[mask]`: another length is an `IndexError`. -/
def pick {α : Type} (m : List Bool) (l : List α) : Option (List α) :=
  if m.length = l.length then some (pickAux m l) else none

/-- `array[mask] if array is not None else None`. -/
def pickOpt {α : Type} (m : List Bool) : Option (List α) → Option (Option (List α))
  | none => some none
  | some l => (pick m l).map some

/-- `SemanticData.mask` (features.py:36-51): `None[mask]` raises for a missing segmentation. -/
def Semantic.mask (s : Semantic) (m : List Bool) : Option Semantic :=
  match s.segmentation with
  | none => none
  | some seg =>
    match pick m seg, pickOpt m s.instances with
    | some seg', some ins' => some ⟨some seg', ins', s.labels⟩
    | _, _ => none

/-- `self.semantic.mask(mask)` if there is semantic data. -/
def maskSemantic (m : List Bool) : Option Semantic → Option (Option Semantic)
  | none => some none
  | some s => (s.mask m).map some

/-- `descriptors[mask]`. -/
def maskDesc (m : List Bool) : Option Desc → Option (Option Desc)
  | none => some none
  | some d => (pick m d.rows).map (fun r => some ⟨d.dtype, r⟩)

/-- `FeaturesData.mask` (features.py:92-104). -/
def Feats.mask (f : Feats) (m : List Bool) : Option Feats :=
  match maskSemantic m f.semantic, pick m f.points, maskDesc m f.descriptors, pick m f.colors,
      pickOpt m f.depths with
  | some s, some p, some d, some c, some z => some ⟨p, d, c, s, z⟩
  | _, _, _, _, _ => none

/-! ### Files -/

/-- The configuration values that are used. -/
structure Cfg where
  featureType : String
  akazeDescriptor : String
  uchar : Bool
  reprojectionErrorSd : ℚ

/-- `s.upper()`. -/
def upperS (s : String) : String := String.ofList (PyText.upper s.toList)

/-- Element type conversions: `astype(np.float32)` and `astype(np.uint8)` of a float. -/
structure Conv where
  f32 : ℚ → ℚ
  u8 : ℚ → ℚ

/-- `astype(np.uint8)` of an integer. -/
def wrap8 (n : ℤ) : ℤ := n % 256

/-- `astype(np.int16)` of an integer. -/
def wrap16 (n : ℤ) : ℤ := (n + 32768) % 65536 - 32768

/-- A stored array of integers; `object`: an array of Python objects, which cannot be read without
`allow_pickle`. -/
inductive Arr
  | ints (l : List ℤ)
  | object
  deriving DecidableEq

/-- A feature file: the arrays by name. -/
structure Npz where
  version : Option ℕ
  points : List Kp
  descriptors : Desc
  colors : List (List ℚ)
  segmentations : Option Arr := none
  instances : Option Arr := none
  labels : Option (Option (List String)) := none

/-- The element type descriptors are saved with (features.py:108-119). -/
def savedType (cfg : Cfg) : DType :=
  if (upperS cfg.featureType = "AKAZE" ∧ cfg.akazeDescriptor ∈ ["MLDB_UPRIGHT", "MLDB"])
      ∨ (upperS cfg.featureType = "HAHOG" ∧ cfg.uchar = true)
      ∨ upperS cfg.featureType = "ORB" then .u8
  else .f32

/-- `astype(t)` of a number. -/
def elemConv (cv : Conv) : DType → ℚ → ℚ
  | .u8 => cv.u8
  | .f32 => cv.f32

/-- `astype` of the descriptors (features.py:127, 138). -/
def convDesc (cv : Conv) (t : DType) (d : Desc) : Desc :=
  ⟨t, d.rows.map (fun r => r.map (elemConv cv t))⟩

/-- `points.astype(np.float32)`. -/
def convKp (cv : Conv) (k : Kp) : Kp := ⟨cv.f32 k.x, cv.f32 k.y, cv.f32 k.size, k.rest.map cv.f32⟩

/-- `FeaturesData.save` (features.py:106-145). -/
def save (cv : Conv) (cfg : Cfg) (f : Feats) : Option Npz :=
  match f.descriptors with
  | none => none
  | some d =>
    match f.semantic with
    | some s =>
      match s.segmentation with
      | none => none
      | some seg =>
        some { version := some 3
               points := f.points.map (convKp cv)
               descriptors := convDesc cv (savedType cfg) d
               colors := f.colors
               segmentations := some (.ints (seg.map wrap8))
               instances := some (.ints ((s.instances.map (fun l => l.map wrap16)).getD []))
               labels := some (some s.labels) }
    | none =>
      some { version := some 3
             points := f.points.map (convKp cv)
             descriptors := convDesc cv (savedType cfg) d
             colors := f.colors
             segmentations := some (.ints [])
             instances := some (.ints [])
             labels := some (some []) }

/-- The descriptors of a file (features.py:170-175 and the same lines of the other versions):
`uint8` to `float32` keeps values. -/
def loadedDesc (cfg : Cfg) (d : Desc) : Desc :=
  if cfg.featureType = "HAHOG" ∧ cfg.uchar = true then ⟨.f32, d.rows⟩ else d

/-- Has an array elements? -/
def nonEmpty (l : List ℤ) : Option (List ℤ) := if l.length > 0 then some l else none

/-- `_from_file_v0` (features.py:163-178). -/
def loadV0 (cfg : Cfg) (z : Npz) : Option Feats :=
  some { points := z.points.map (fun k => { k with size := cfg.reprojectionErrorSd })
         descriptors := some (loadedDesc cfg z.descriptors), colors := z.colors, semantic := none }

/-- `_from_file_v1` (features.py:180-196). -/
def loadV1 (cfg : Cfg) (z : Npz) : Option Feats :=
  some { points := z.points
         descriptors := some (loadedDesc cfg z.descriptors), colors := z.colors, semantic := none }

/-- The semantic data of version 2 (features.py:217-245): arrays of numbers have no `None` in them; one
unreadable array drops both. -/
def semanticV2 (seg ins : Arr) (labels : Option (List String)) : Option Semantic :=
  match seg, ins with
  | .ints a, .ints b => some ⟨some a, some b, labels.getD []⟩
  | _, _ => none

/-- `_from_file_v2` (features.py:198-248). -/
def loadV2 (cfg : Cfg) (z : Npz) : Option Feats :=
  match z.segmentations, z.instances, z.labels with
  | some seg, some ins, some labels =>
    some { points := z.points
           descriptors := some (loadedDesc cfg z.descriptors), colors := z.colors
           semantic := semanticV2 seg ins labels }
  | _, _, _ => none

/-- The semantic data of version 3 (features.py:266-276). -/
def semanticV3 (seg ins : List ℤ) (labels : List String) : Option Semantic :=
  if (nonEmpty seg).isSome ∨ (nonEmpty ins).isSome then some ⟨nonEmpty seg, nonEmpty ins, labels⟩ else none

/-- `_from_file_v3` (features.py:250-279). -/
def loadV3 (cfg : Cfg) (z : Npz) : Option Feats :=
  match z.segmentations, z.instances, z.labels with
  | some (.ints seg), some (.ints ins), some (some labels) =>
    some { points := z.points
           descriptors := some (loadedDesc cfg z.descriptors), colors := z.colors
           semantic := semanticV3 seg ins labels }
  | _, _, _ => none

/-- `FeaturesData.from_file` (features.py:147-161): an unknown version is an `AttributeError`. -/
def fromFile (cfg : Cfg) (z : Npz) : Option Feats :=
  match z.version.getD 0 with
  | 0 => loadV0 cfg z
  | 1 => loadV1 cfg z
  | 2 => loadV2 cfg z
  | 3 => loadV3 cfg z
  | _ => none

/-- The two places a feature file can be at (dataset.py:284-299). -/
structure Files where
  current : Option Npz := none
  legacy : Option Npz := none

/-- `DataSet.features_exist` (dataset.py:308-311). -/
def Files.exist (f : Files) : Bool := f.current.isSome || f.legacy.isSome

/-- `DataSet.load_features` (dataset.py:313-320): the legacy file comes first. -/
def Files.load (cfg : Cfg) (f : Files) : Option Feats :=
  match f.legacy with
  | some z => fromFile cfg z
  | none => f.current.bind (fromFile cfg)

/-- `DataSet.save_features` (dataset.py:322-323). -/
def Files.save (cv : Conv) (cfg : Cfg) (f : Files) (x : Feats) : Option Files :=
  (Features.save cv cfg x).map (fun z => { f with current := some z })

/-! ### Detection -/

/-- What a data set knows about an image, as far as masks are concerned. -/
structure Img where
  /-- `exif["width"]`, `exif["height"]`, `exif["orientation"]` -/
  width : ℕ
  height : ℕ
  orientation : ℕ
  /-- `data.load_mask(image)` -/
  mask : Option Mask := none
  /-- `data.load_segmentation(image)` -/
  segmentation : Option Mask := none
  /-- `data.load_instances(image)` -/
  instances : Option Mask := none
  /-- `data.segmentation_ignore_values(image)` -/
  ignore : List ℕ := []

/-- `points[:, :2]`. -/
def xy (k : Kp) : ℚ × ℚ := (k.x, k.y)

/-- `p_data[ps[:, 1], ps[:, 0]]` for one point (features_processing.py:242-253). -/
def valueAt (w h o : ℕ) (m : Mask) (c : ℚ × ℚ) : Option ℕ :=
  match toUpright w h o (some m.width) (some m.height) c with
  | none => none
  | some p => maskLookup m (trunc p.1) (trunc p.2)

/-- One round of the loop of `bake_segmentation` (features_processing.py:238-253). -/
def bakeOne (w h o : ℕ) (pts : List Kp) : Option Mask → Option (Option (List ℤ))
  | none => some none
  | some m => (pts.mapM (fun k => (valueAt w h o m (xy k)).map (fun n => (n : ℤ)))).map some

/-- `_load_segmentation_mask` (masking.py:99-113). -/
def segMask (im : Img) : Option Mask :=
  if im.ignore = [] then none
  else im.segmentation.map (fun s => ⟨s.width, s.height, fun r c => segmentationMask im.ignore (s.value r c)⟩)

/-- `_load_combined_mask` (masking.py:116-124). -/
def combinedMask (im : Img) : Option Mask := combineMasks im.mask (segMask im)

/-- `load_features_mask(data, image, points)` (masking.py:53-96) with the mask image or, without one, the
combined mask. -/
def featuresMask (im : Img) (pts : List Kp) (maskImage : Option Mask) : Option (List Bool) :=
  loadFeaturesMask im.width im.height im.orientation
    (match maskImage with
      | some m => some m
      | none => combinedMask im)
    (pts.map xy)

/-- The result of `features.extract_features`. -/
structure Extracted where
  points : List Kp
  descriptors : Desc
  colors : List (List ℚ)

/-- `array[order]`: an index out of range is an `IndexError`. -/
def reorder {α : Type} (order : List ℕ) (l : List α) : Option (List α) := order.mapM (fun i => l[i]?)

/-- `i_unsorted[order] if i_unsorted is not None else None` (features_processing.py:318). -/
def reorderOpt {α : Type} (order : List ℕ) : Option (List α) → Option (Option (List α))
  | none => some none
  | some i => (reorder order i).map some

/-- Sorting by size (features_processing.py:310-322); `order` is what `np.argsort` returns. -/
def sortFeats (labels : List String) (order : List ℕ) (x : Extracted) (seg ins : Option (List ℤ)) :
    Option Feats :=
  match reorder order x.points, reorder order x.descriptors.rows, reorder order x.colors with
  | some p, some d, some c =>
    match seg with
    | none => some { points := p, descriptors := some ⟨x.descriptors.dtype, d⟩, colors := c, semantic := none }
    | some s =>
      match reorder order s, reorderOpt order ins with
      | some s', some i' =>
        some { points := p, descriptors := some ⟨x.descriptors.dtype, d⟩, colors := c
               semantic := some ⟨some s', i', labels⟩ }
      | _, _ => none
  | _, _, _ => none

/-- The features `detect` saves with `features_bake_segmentation` (features_processing.py:289-323); `w` and
`h` are the dimensions of the image itself. -/
def detectBaked (labels : List String) (order : List ℕ) (w h : ℕ) (im : Img) (x : Extracted) : Option Feats :=
  match bakeOne w h im.orientation x.points im.segmentation, bakeOne w h im.orientation x.points im.instances with
  | some s, some i => sortFeats labels order x s i
  | _, _ => none

/-- The features `detect` saves without it (features_processing.py:298-323). -/
def detectUnbaked (labels : List String) (order : List ℕ) (im : Img) (x : Extracted) : Option Feats :=
  match featuresMask im x.points none with
  | none => none
  | some m =>
    match pick m x.points, pick m x.descriptors.rows, pick m x.colors with
    | some p, some d, some c => sortFeats labels order ⟨p, ⟨x.descriptors.dtype, d⟩, c⟩ none none
    | _, _, _ => none

/-! ### Loading -/

/-- `_load_features_nocache` (feature_loading.py:217-226): only three columns of the points are kept. -/
def cut (f : Feats) : Feats := { f with points := f.points.map (fun k => { k with rest := [] }) }

/-- `smask` (feature_loading.py:44-50). -/
def segKeep (ignore : List ℕ) (seg : List ℤ) : List Bool :=
  seg.map (fun s => decide (∀ v ∈ ignore, s ≠ (v : ℤ)))

/-- `smask &= mask`; different lengths cannot be combined. -/
def andMask (a b : List Bool) : Option (List Bool) :=
  if a.length = b.length then some (List.zipWith (· && ·) a b) else none

/-- `FeatureLoader.load_mask` (feature_loading.py:31-73), on the features without mask. -/
def loadMask (bake : Bool) (im : Img) (f : Feats) : Option (List Bool) :=
  match bake, f.semantic with
  | true, some s =>
    match s.segmentation with
    | none => none
    | some seg =>
      match im.mask with
      | none => some (segKeep im.ignore seg)
      | some m => (featuresMask im f.points (some m)).bind (andMask (segKeep im.ignore seg))
  | _, _ => featuresMask im f.points none

/-- `_load_all_data_masked` (feature_loading.py:164-174). -/
def loadMasked (bake : Bool) (im : Img) (f : Feats) : Option Feats :=
  (loadMask bake im f).bind (fun m => f.mask m)

/-- `load_words` (feature_loading.py:199-207). -/
def maskedWords {W : Type} (bake : Bool) (im : Img) (f : Feats) (words : List W) : Option (List W) :=
  (loadMask bake im f).bind (fun m => pick m words)

/-- `SEGMENTATION_IN_DESCRIPTOR_MULT` (feature_loading.py:16-18). -/
def segMult : ℚ := 35

/-- `_add_segmentation_in_descriptor` (feature_loading.py:125-157). -/
def addSegmentation (cfg : Cfg) (f : Feats) : Option Feats :=
  if cfg.uchar = false ∨ cfg.featureType ≠ "HAHOG" then none
  else
    match f.semantic.bind Semantic.segmentation with
    | none => some f
    | some seg =>
      match f.descriptors with
      | none => none
      | some d =>
        if d.rows.length = seg.length then
          some { points := f.points
                 descriptors := some ⟨d.dtype, List.zipWith (fun (r : List ℚ) (s : ℤ) => r ++ [(s : ℚ) * segMult]) d.rows seg⟩
                 colors := f.colors, semantic := f.semantic }
        else none

end Verif.Features
