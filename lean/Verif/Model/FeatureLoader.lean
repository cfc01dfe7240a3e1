import Verif.Model.Features

/-!
# Model of the caches of the feature loader

`opensfm/feature_loading.py`: the methods of `FeatureLoader` and their `functools.lru_cache`s. There is one
loader per process (`feature_loader.instance`) and one data set.

Simplifications: an exception is `none`; it is not cached. The bearing of a point and the index of
descriptors are arbitrary functions. The callers do not change the arrays they get.
-/
namespace Verif.FeatureLoader
open Verif.Features

/-- A cache, the entry used last first. -/
abbrev Cache (K V : Type) := List (K × V)

/-- Look up a key. -/
def lookup {K V : Type} [DecidableEq K] (c : Cache K V) (k : K) : Option V :=
  (c.find? (fun q => q.1 = k)).map Prod.snd

/-- A hit: the entry becomes the one used last. -/
def touch {K V : Type} [DecidableEq K] (c : Cache K V) (k : K) (v : V) : Cache K V :=
  (k, v) :: c.filter (fun q => q.1 ≠ k)

/-- A miss: the new entry, and at most `cap` entries. -/
def put {K V : Type} (cap : ℕ) (c : Cache K V) (k : K) (v : V) : Cache K V := ((k, v) :: c).take cap

/-- `@lru_cache(cap)`: `get` and `set` access the cache in the state of the process. -/
def cached {S K V : Type} [DecidableEq K] (get : S → Cache K V) (set : S → Cache K V → S) (cap : ℕ) (k : K)
    (compute : S → Option V × S) (s : S) : Option V × S :=
  match lookup (get s) k with
  | some v => (some v, set s (touch (get s) k v))
  | none =>
    match compute s with
    | (none, s') => (none, s')
    | (some v, s') => (some v, set s' (put cap (get s') k v))

/-- What the loader reads. -/
structure Disk (I C W B X : Type) where
  /-- `data.load_features(image)` -/
  feats : I → Option Feats
  /-- masks and metadata of an image -/
  info : I → Img
  /-- `data.config["features_bake_segmentation"]` -/
  bake : Bool
  cfg : Cfg
  /-- `data.load_words(image)` -/
  words : I → Option (List W)
  /-- `camera.pixel_bearing_many` for one point -/
  bearing : C → Kp → B
  /-- `features.build_flann_index` -/
  index : Desc → Option X

/-- The caches (feature_loading.py:31, 75, 91, 158, 164, 176, 199). -/
structure State (I C W B X : Type) where
  mask : Cache I (List Bool) := []
  points : Cache I Feats := []
  bearings : Cache (I × Bool × C) (List B) := []
  unmasked : Cache I Feats := []
  masked : Cache I Feats := []
  index : Cache (I × Bool × Bool) (Feats × X) := []
  words : Cache (I × Bool) (List W) := []

/-- `clear_cache` (feature_loading.py:22-29). -/
def clear {I C W B X : Type} (_ : State I C W B X) : State I C W B X := {}

variable {I C W B X : Type} [DecidableEq I] [DecidableEq C]

/-- `_load_features_nocache` (feature_loading.py:217-226). -/
def noCache (d : Disk I C W B X) (i : I) : Option Feats := (d.feats i).map cut

/-- `_load_all_data_unmasked` (feature_loading.py:158-162). -/
def loadUnmasked (d : Disk I C W B X) (i : I) : State I C W B X → Option Feats × State I C W B X :=
  cached State.unmasked (fun s c => { s with unmasked := c }) 20 i (fun s => (noCache d i, s))

/-- `load_mask` (feature_loading.py:31-73). -/
def loadMaskC (d : Disk I C W B X) (i : I) : State I C W B X → Option (List Bool) × State I C W B X :=
  cached State.mask (fun s c => { s with mask := c }) 1000 i (fun s =>
    match loadUnmasked d i s with
    | (none, s') => (none, s')
    | (some f, s') => (loadMask d.bake (d.info i) f, s'))

/-- `_load_all_data_masked` (feature_loading.py:164-174). -/
def loadMaskedC (d : Disk I C W B X) (i : I) : State I C W B X → Option Feats × State I C W B X :=
  cached State.masked (fun s c => { s with masked := c }) 200 i (fun s =>
    match loadUnmasked d i s with
    | (none, s') => (none, s')
    | (some f, s') =>
      match loadMaskC d i s' with
      | (none, s'') => (none, s'')
      | (some m, s'') => (f.mask m, s''))

/-- `if masked: ... else: ...` (feature_loading.py:99-102, 113-116). -/
def loadEither (d : Disk I C W B X) (i : I) (masked : Bool) :
    State I C W B X → Option Feats × State I C W B X :=
  if masked then loadMaskedC d i else loadUnmasked d i

/-- `load_points_colors_segmentations_instances` (feature_loading.py:75-89). -/
def loadPoints (d : Disk I C W B X) (i : I) : State I C W B X → Option Feats × State I C W B X :=
  cached State.points (fun s c => { s with points := c }) 1000 i (fun s =>
    ((noCache d i).map (fun f => { f with descriptors := none, depths := none }), s))

/-- `load_bearings` (feature_loading.py:91-108). -/
def loadBearings (d : Disk I C W B X) (i : I) (masked : Bool) (cam : C) :
    State I C W B X → Option (List B) × State I C W B X :=
  cached State.bearings (fun s c => { s with bearings := c }) 2000 (i, masked, cam) (fun s =>
    match loadEither d i masked s with
    | (none, s') => (none, s')
    | (some f, s') => (some (f.points.map (d.bearing cam)), s'))

/-- `load_all_data` (feature_loading.py:110-123). -/
def loadAll (d : Disk I C W B X) (i : I) (masked seg : Bool) (s : State I C W B X) :
    Option Feats × State I C W B X :=
  match loadEither d i masked s with
  | (none, s') => (none, s')
  | (some f, s') => (if seg then addSegmentation d.cfg f else some f, s')

/-- Features and their index; descriptors that are `None` give no index (feature_loading.py:188-196; the
result `None` counts as `none` here). -/
def indexed (d : Disk I C W B X) (f : Feats) : Option (Feats × X) :=
  f.descriptors.bind (fun ds => (d.index ds).map (fun x => (f, x)))

/-- `load_features_index` (feature_loading.py:176-197). -/
def loadIndex (d : Disk I C W B X) (i : I) (masked seg : Bool) :
    State I C W B X → Option (Feats × X) × State I C W B X :=
  cached State.index (fun s c => { s with index := c }) 200 (i, masked, seg) (fun s =>
    match loadAll d i masked seg s with
    | (none, s') => (none, s')
    | (some f, s') => (indexed d f, s'))

/-- `load_words` (feature_loading.py:199-207). -/
def loadWords (d : Disk I C W B X) (i : I) (masked : Bool) :
    State I C W B X → Option (List W) × State I C W B X :=
  cached State.words (fun s c => { s with words := c }) 200 (i, masked) (fun s =>
    match d.words i with
    | none => (none, s)
    | some w =>
      if masked then
        match loadMaskC d i s with
        | (none, s') => (none, s')
        | (some m, s') => (pick m w, s')
      else (some w, s))

/-- A call of the loader. -/
inductive Op (I C : Type)
  | unmaskedMask (i : I)
  | points (i : I)
  | bearings (i : I) (masked : Bool) (cam : C)
  | all (i : I) (masked seg : Bool)
  | index (i : I) (masked seg : Bool)
  | words (i : I) (masked : Bool)

/-- Its result. -/
inductive Res (W B X : Type)
  | mask (m : List Bool)
  | feats (f : Feats)
  | bearings (l : List B)
  | index (f : Feats) (x : X)
  | words (l : List W)

/-- One call. -/
def exec (d : Disk I C W B X) (s : State I C W B X) : Op I C → Option (Res W B X) × State I C W B X
  | .unmaskedMask i => let r := loadMaskC d i s; (r.1.map .mask, r.2)
  | .points i => let r := loadPoints d i s; (r.1.map .feats, r.2)
  | .bearings i m c => let r := loadBearings d i m c s; (r.1.map .bearings, r.2)
  | .all i m g => let r := loadAll d i m g s; (r.1.map .feats, r.2)
  | .index i m g => let r := loadIndex d i m g s; (r.1.map (fun q => .index q.1 q.2), r.2)
  | .words i m => let r := loadWords d i m s; (r.1.map .words, r.2)

/-- A list of calls: the results and the state. -/
def execAll (d : Disk I C W B X) : State I C W B X → List (Op I C) → List (Option (Res W B X)) × State I C W B X
  | s, [] => ([], s)
  | s, o :: l =>
    let r := exec d s o
    let q := execAll d r.2 l
    (r.1 :: q.1, q.2)

end Verif.FeatureLoader
