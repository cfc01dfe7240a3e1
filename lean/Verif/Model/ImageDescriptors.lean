import Verif.Base.Dict
import Mathlib.Analysis.SpecialFunctions.Log.Basic
import Mathlib.Data.Sign.Basic
import Mathlib.Data.List.FinRange

/-!
Model of the descriptors of whole images: bags of words (/repo/opensfm/bow.py, /repo/opensfm/pairs_selection.py:690-730) and
VLAD (/repo/opensfm/vlad.py, /repo/opensfm/src/features/src/matching.cc:96-159).

Simplifications: exact reals; the first of the words of every feature is given (C26); the frequencies of the vocabulary are
positive; a VLAD vector is indexed by the centre and the coordinate instead of by `centre * size + coordinate`.
-/
set_option linter.unusedSectionVars false
namespace Verif.ImageDescriptors
open Verif Finset

variable {Id : Type} [DecidableEq Id] {W K D : ℕ}

/-- The result of array arithmetic: an exception, an array with undefined entries (division by zero), or the values. -/
inductive Result (α : Type) where
  | raises
  | nan
  | value (v : α)

/-- `BagOfWords.weights` (bow.py:15). -/
noncomputable def weight (freq : Fin W → ℝ) (i : Fin W) : ℝ := Real.log ((∑ j, freq j) / freq i)

/-- `np.bincount(words, minlength=...) * self.weights` (bow.py:35). -/
noncomputable def weighted (freq : Fin W → ℝ) (words : List ℕ) (i : Fin W) : ℝ := (words.count i.val : ℝ) * weight freq i

open Classical in
/-- `BagOfWords.histogram` (bow.py:34-36); a word out of the vocabulary makes the count too long to be multiplied. -/
noncomputable def histogram (freq : Fin W → ℝ) (words : List ℕ) : Result (Fin W → ℝ) :=
  if ∃ w ∈ words, W ≤ w then .raises
  else if ∑ i, weighted freq words i = 0 then .nan
  else .value (fun i => weighted freq words i / ∑ j, weighted freq words j)

/-- The distance of two histograms (bow.py:49, pairs_selection.py:705). -/
noncomputable def distanceL1 (h1 h2 : Fin W → ℝ) : ℝ := ∑ i, |h1 i - h2 i|

/-- One image of `load_histograms` (pairs_selection.py:715-728): `none` when it is skipped. -/
noncomputable def loadHistogram (freq : Fin W → ℝ) (words : Option (List ℕ)) : Option (Result (Fin W → ℝ)) :=
  match words with
  | none => none
  | some ws => if ws.length ≤ 8 then none else some (histogram freq ws)

/-- `bow_distances`, and `vlad_distances` with `compute_vlad_distances` (pairs_selection.py:696-707, matching.cc:133-159). -/
def distances {H : Type} (dist : H → H → ℝ) (hist : Dict Id H) (image : Id) (others : List Id) : List (Id × ℝ) :=
  match hist.get? image with
  | none => []
  | some h => others.filterMap (fun im =>
      if im = image then none else (hist.get? im).map (fun h2 => (im, dist h h2)))

/-- `(feature - vlad_centers.row(j)).squaredNorm()` (matching.cc:118). -/
noncomputable def squared (f c : Fin D → ℝ) : ℝ := ∑ d, (f d - c d) ^ 2

/-- The body of the loop over the centres (matching.cc:117-123). -/
noncomputable def nearestStep (centers : Fin K → Fin D → ℝ) (f : Fin D → ℝ) (best : Option (ℝ × Fin K)) (j : Fin K) :
    Option (ℝ × Fin K) :=
  match best with
  | none => some (squared f (centers j), j)
  | some (b, k) => if squared f (centers j) < b then some (squared f (centers j), j) else some (b, k)

/-- `best_center` (matching.cc:115-123). -/
noncomputable def nearestCenter (centers : Fin K → Fin D → ℝ) (f : Fin D → ℝ) : Option (Fin K) :=
  ((List.finRange K).foldl (nearestStep centers f) none).map (·.2)

/-- The contribution of a feature (matching.cc:125-126). -/
noncomputable def vladStep (centers : Fin K → Fin D → ℝ) (v : Fin K → Fin D → ℝ) (f : Fin D → ℝ) : Fin K → Fin D → ℝ :=
  match nearestCenter centers f with
  | none => v
  | some k => Function.update v k (v k + (f - centers k))

/-- `compute_vlad_descriptor` (matching.cc:96-129): `none` is the exception. -/
noncomputable def vlad (centers : Fin K → Fin D → ℝ) (features : List (Fin D → ℝ)) : Option (Fin K → Fin D → ℝ) :=
  if K = 0 ∨ D = 0 then none else some (features.foldl (vladStep centers) 0)

/-- `np.sign(v) * np.sqrt(np.abs(v))` (vlad.py:31). -/
noncomputable def signedRoot (x : ℝ) : ℝ := SignType.sign x * Real.sqrt |x|

/-- `np.linalg.norm` (vlad.py:32, matching.cc:155). -/
noncomputable def norm2 (v : Fin K → Fin D → ℝ) : ℝ := Real.sqrt (∑ k, ∑ d, v k d ^ 2)

open Classical in
/-- `signed_square_root_normalize` (vlad.py:25-33). -/
noncomputable def normalize (v : Fin K → Fin D → ℝ) : Result (Fin K → Fin D → ℝ) :=
  if norm2 (fun k d => signedRoot (v k d)) = 0 then .nan
  else .value (fun k d => signedRoot (v k d) / norm2 (fun k d => signedRoot (v k d)))

/-- The distance of two VLAD vectors (matching.cc:155). -/
noncomputable def distanceL2 (v w : Fin K → Fin D → ℝ) : ℝ := norm2 (fun k d => v k d - w k d)

/-- `VladCache.vlad_histogram` without the cache (vlad.py:64-79): `none` when the image has no descriptors. -/
noncomputable def vladHistogram (centers : Fin K → Fin D → ℝ) (descriptors : Option (List (Fin D → ℝ))) :
    Option (Result (Fin K → Fin D → ℝ)) :=
  match descriptors with
  | none => none
  | some fs =>
    match vlad centers fs with
    | none => some .raises
    | some v => some (normalize v)

end Verif.ImageDescriptors
