import Verif.Model.RotationPair
import Verif.Model.Tracking

/-!
Model of the two ways in which `incremental_reconstruction` lists the pairs of images it starts from
(/repo/opensfm/reconstruction.py:1741-1755): `compute_image_pairs_sequential` (reconstruction.py:1684-1709) for one process,
`all_common_tracks_with_features` and `compute_image_pairs` for more, and of `_get_common_feature_arrays`
(reconstruction.py:1668-1681).

Simplifications: those of `RotationPair`; `camera` gives the bearing of a point of an image, `none` when its EXIF data or its
camera model is missing (`KeyError`).
-/
set_option linter.unusedSectionVars false
namespace Verif.PairOrder
open Verif.Depthmap Verif.RotationPair Verif.Tracking

variable {S T O P : Type} [DecidableEq S] [DecidableEq T]

/-- `_get_common_feature_arrays` (reconstruction.py:1668-1681). -/
def commonFeatures (point : O → P) (m : TM S T O) (im1 im2 : S) : Except TMErr (List P × List P) :=
  match m.getAllCommonObservations im1 im2 with
  | .error e => .error e
  | .ok l => .ok (l.map (fun x => point x.2.1), l.map (fun x => point x.2.2))

/-- The bearings of the common tracks of two images (reconstruction.py:231-233, 404-405, 1702-1703). -/
def bearings (camera : S → Option (P → V3)) (im1 im2 : S) (p1 p2 : List P) : Option (List (V3 × V3)) :=
  match camera im1, camera im2 with
  | some f, some g => some (List.zip (p1.map f) (p2.map g))
  | _, _ => none

/-- `_compute_pair_reconstructability` (reconstruction.py:237-244); `threshold`: `five_point_algo_threshold`. -/
noncomputable def pairScore (ransac : ℝ → List (V3 × V3) → M3) (threshold : ℝ) (b : List (V3 × V3)) : Option ℤ :=
  reconstructability b.length (rotationOnly ransac b (4 * threshold)).2.length

/-- The score of a pair, read from the tracks (reconstruction.py:1701-1706). -/
noncomputable def scoreOf (ransac : ℝ → List (V3 × V3) → M3) (threshold : ℝ) (camera : S → Option (P → V3)) (point : O → P)
    (m : TM S T O) (q : S × S) : Option ℤ :=
  match commonFeatures point m q.1 q.2 with
  | .error _ => none
  | .ok f => (bearings camera q.1 q.2 f.1 f.2).bind (pairScore ransac threshold)

/-- A turn of the loop of `compute_image_pairs_sequential` (reconstruction.py:1698-1708). -/
noncomputable def seqStep (ransac : ℝ → List (V3 × V3) → M3) (threshold : ℝ) (camera : S → Option (P → V3)) (point : O → P)
    (m : TM S T O) (minCommon : ℕ) (acc : List ((S × S) × ℤ)) (q : (S × S) × ℕ) : Option (List ((S × S) × ℤ)) :=
  if q.2 < minCommon then some acc
  else (scoreOf ransac threshold camera point m q.1).map fun r => if 0 < r then acc ++ [(q.1, r)] else acc

/-- `results.sort(key=..., reverse=True)`: equal elements keep their order (reconstruction.py:1709). -/
def sortDown (l : List ((S × S) × ℤ)) : List ((S × S) × ℤ) := l.mergeSort (fun a b => decide (b.2 ≤ a.2))

/-- `compute_image_pairs_sequential` (reconstruction.py:1684-1710); `none`: an exception. -/
noncomputable def sequential (ransac : ℝ → List (V3 × V3) → M3) (threshold : ℝ) (camera : S → Option (P → V3)) (point : O → P)
    (lt : S → S → Bool) (m : TM S T O) (minCommon : ℕ) : Option (List (S × S)) :=
  ((m.getAllPairsConnectivity lt [] []).foldlM (seqStep ransac threshold camera point m minCommon) []).map
    fun l => (sortDown l).map (·.1)

/-- One of the arguments made by `_pair_reconstructability_arguments` (reconstruction.py:223-234). -/
def argumentOf (camera : S → Option (P → V3)) (e : (S × S) × (List T × List P × List P)) :
    Option ((S × S) × List (V3 × V3)) :=
  (bearings camera e.1.1 e.1.2 e.2.2.1 e.2.2.2).map fun b => (e.1, b)

/-- `all_common_tracks_with_features` and `compute_image_pairs` (reconstruction.py:1743-1749, 208-220). -/
noncomputable def parallel (ransac : ℝ → List (V3 × V3) → M3) (argsort : List ℤ → List ℕ) (threshold : ℝ)
    (camera : S → Option (P → V3)) (point : O → P) (lt : S → S → Bool) (m : TM S T O) (minCommon : ℕ) :
    Option (List (S × S)) :=
  match allCommonTracks point lt m minCommon with
  | .error _ => none
  | .ok d => (d.mapM (argumentOf camera)).bind (imagePairs ransac argsort threshold)

/-- The points given to `bootstrap_reconstruction` for a pair, with many processes (`common_tracks[im1, im2]`) or with one
(reconstruction.py:1764-1770); `none`: an exception. -/
def startPoints (many : Bool) (point : O → P) (lt : S → S → Bool) (m : TM S T O) (minCommon : ℕ) (q : S × S) :
    Option (List P × List P) :=
  if many then
    match allCommonTracks point lt m minCommon with
    | .error _ => none
    | .ok d => (d.get? q).map (·.2)
  else
    match commonFeatures point m q.1 q.2 with
    | .error _ => none
    | .ok f => some f

end Verif.PairOrder
