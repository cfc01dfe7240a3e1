import Mathlib.Algebra.Order.Field.Basic
import Mathlib.Data.List.Dedup
import Verif.Base.Dict

/-!
Model of /repo/opensfm/matching.py, of `MatchUsingWords`
(/repo/opensfm/src/features/src/matching.cc:24-71), of the masking of features
(features.py, feature_loading.py) and of the match files (dataset.py:351-404).

Nearest-neighbour searches (OpenCV), fundamental / relative pose estimation and inlier tests are
parameters. Numbers are an ordered field. Index errors are not modelled: indices come from the same
feature arrays.
-/
set_option linter.unusedSectionVars false
namespace Verif.Matching

variable {D : Type} [Field D] [LinearOrder D] [IsStrictOrderedRing D]

abbrev Match := Nat × Nat

/-! ### One-way matchers -/

/-- Lowe test on the answer of a 2-nearest-neighbour search (matching.py:752-755): exactly two
neighbours, the first nearer than `ratio` times the second. -/
def lowe (ratio : D) : List (Nat × D) → Option Nat
  | [m, n] => if m.2 < ratio * n.2 then some m.1 else none
  | _ => none

/-- `[(mm.queryIdx, mm.trainIdx) for mm in good_matches]` (matching.py:749-756): `knn` lists the
answers for the queries, in order. -/
def bruteForceFrom (ratio : D) : Nat → List (List (Nat × D)) → List Match
  | _, [] => []
  | q, nn :: rest =>
    match lowe ratio nn with
    | some t => (q, t) :: bruteForceFrom ratio (q + 1) rest
    | none => bruteForceFrom ratio (q + 1) rest

/-- `match_brute_force` (matching.py:723-756): pairs (query feature of image 1, feature of image 2).
`knn` is the answer of `knnMatch` for the features of image 1 (with the mask if any). -/
def matchBruteForce (ratio : D) (knn : List (List (Nat × D))) : List Match :=
  bruteForceFrom ratio 0 knn

/-- `match_flann` (matching.py:683-697): the index is that of image 1 and the queries are the
features of image 2, so the query is the second component. FLANN distances are squared, and so is
the ratio. `knn` always holds two neighbours per query. -/
def matchFlann (ratio : D) (knn : List (List (Nat × D))) : List Match :=
  (bruteForceFrom (ratio ^ 2) 0 knn).map (fun p => (p.2, p.1))

/-- `list(set(matches_ij).intersection(set(matches_ji)))` after swapping the second list
(matching.py:675-680, 717-720, 773-777). `setij` lists the first set in its arbitrary order. -/
def intersect (ij ji : List Match) : List Match :=
  ij.dedup.filter (fun p => (p.2, p.1) ∈ ji)

/-- `match_brute_force_symmetric` (matching.py:759-777). -/
def matchBruteForceSymmetric (ratio : D) (knnij knnji : List (List (Nat × D))) : List Match :=
  intersect (matchBruteForce ratio knnij) (matchBruteForce ratio knnji)

/-- `match_flann_symmetric` (matching.py:700-720). -/
def matchFlannSymmetric (ratio : D) (knnj2i knni2j : List (List (Nat × D))) : List Match :=
  intersect (matchFlann ratio knnj2i) (matchFlann ratio knni2j)

/-! ### Word matching (matching.cc:24-71) -/

/-- Best and second best so far; `none` is infinity. -/
structure Best (D : Type) where
  best : Option (Nat × D)
  second : Option D

/-- `distance < x` where `none` is infinity. -/
def ltInf (d : D) : Option D → Bool
  | none => true
  | some x => d < x

/-- One candidate (matching.cc:47-60). -/
def checkCandidate (dist : Nat → D) (b : Best D) (m : Nat) : Best D :=
  if ltInf (dist m) (b.best.map Prod.snd) then ⟨some (m, dist m), b.best.map Prod.snd⟩
  else if ltInf (dist m) b.second then ⟨b.best, some (dist m)⟩
  else b

/-- `index2.equal_range(word)` (matching.cc:28-33, 46): the features of image 2 with that word, in
increasing order of index (equal keys of a `multimap` keep insertion order). -/
def bucketFrom (word : Int) : Nat → List Int → List Nat
  | _, [] => []
  | i, w :: ws => if w = word then i :: bucketFrom word (i + 1) ws else bucketFrom word (i + 1) ws

def bucket (w2 : List Int) (word : Int) : List Nat := bucketFrom word 0 w2

/-- The loop over the words of one query (matching.cc:43-64). -/
def wordsLoop (dist : Nat → D) (w2 : List Int) (maxChecks : Int) :
    List Int → Nat → Best D → Best D
  | [], _, b => b
  | word :: ws, checks, b =>
    let c := bucket w2 word
    let b' := c.foldl (checkCandidate dist) b
    let checks' := checks + c.length
    if (checks' : Int) ≥ maxChecks then b' else wordsLoop dist w2 maxChecks ws checks' b'

/-- `best_distance < lowes_ratio * second_best_distance` in IEEE arithmetic for a finite ratio
(matching.cc:65): false if there was no candidate, true if only one and the ratio is positive. -/
def loweInf (ratio : D) (b : Best D) : Option Nat :=
  match b.best, b.second with
  | none, _ => none
  | some m, none => if 0 < ratio then some m.1 else none
  | some m, some s => if m.2 < ratio * s then some m.1 else none

/-- The loop over the queries (matching.cc:42-70). `dist i m` is the descriptor distance. -/
def matchWordsFrom (dist : Nat → Nat → D) (w2 : List Int) (ratio : D) (maxChecks : Int) :
    Nat → List (List Int) → List Match
  | _, [] => []
  | i, row :: rows =>
    match loweInf ratio (wordsLoop (dist i) w2 maxChecks row 0 ⟨none, none⟩) with
    | some m => (i, m) :: matchWordsFrom dist w2 ratio maxChecks (i + 1) rows
    | none => matchWordsFrom dist w2 ratio maxChecks (i + 1) rows

/-- `MatchUsingWords` (matching.cc:24-71). -/
def matchUsingWords (dist : Nat → Nat → D) (w1 : List (List Int)) (w2 : List Int) (ratio : D)
    (maxChecks : Int) : List Match :=
  matchWordsFrom dist w2 ratio maxChecks 0 w1

/-- `match_words_symmetric` (matching.py:659-680): `words[:, 0]` of the other image. -/
def matchWordsSymmetric (dist : Nat → Nat → D) (w1 w2 : List (List Int)) (ratio : D)
    (maxChecks : Int) : List Match :=
  intersect (matchUsingWords dist w1 (w2.map (·.headD 0)) ratio maxChecks)
    (matchUsingWords (fun j i => dist i j) w2 (w1.map (·.headD 0)) ratio maxChecks)

/-! ### Masks -/

/-- `np.flatnonzero` from index `i` on. -/
def flatnonzeroFrom : Nat → List Bool → List Nat
  | _, [] => []
  | i, b :: bs => if b then i :: flatnonzeroFrom (i + 1) bs else flatnonzeroFrom (i + 1) bs

/-- `np.flatnonzero(m)`. -/
def flatnonzero (m : List Bool) : List Nat := flatnonzeroFrom 0 m

/-- `array[mask]` (numpy boolean indexing): `FeaturesData.mask` (features.py:90-111), `matches[inliers]`. -/
def select {α : Type} : List Bool → List α → List α
  | b :: bs, x :: xs => if b then x :: select bs xs else select bs xs
  | _, _ => []

/-- `unfilter_matches` (matching.py:932-936). -/
def unfilterMatches (matches_ : List Match) (m1 m2 : List Bool) : List Match :=
  matches_.map (fun p => ((flatnonzero m1).getD p.1 0, (flatnonzero m2).getD p.2 0))

/-! ### Ad hoc filters (matching.py:939-1064) -/

/-- A feature point: normalised x, y. -/
structure Pt (D : Type) where
  x : D
  y : D

/-- What the filters read about an image. -/
structure ImageInfo (D : Type) where
  pts : Nat → Pt D
  isPano : Bool
  /-- make and model are `VTrans_Camera` -/
  vermont : Bool
  /-- make is `blackvue`, ignoring case -/
  blackvue : Bool

/-- `_non_static_matches` (960-980). -/
def nonStatic (a b : ImageInfo D) (ms : List Match) : List Match :=
  let res := ms.filter (fun m =>
    ((a.pts m.1).x - (b.pts m.2).x) ^ 2 + ((a.pts m.1).y - (b.pts m.2).y) ^ 2 ≥ (1 / 1000) ^ 2)
  if 1 - (res.length : D) / (max ms.length 1 : Nat) > 85 / 100 then ms else res

/-- `_not_on_pano_poles_matches` (983-1007). -/
def notOnPoles (a b : ImageInfo D) (ms : List Match) : List Match :=
  if a.isPano ∨ b.isPano then
    ms.filter (fun m =>
      (¬ a.isPano ∨ (-(1 / 8) < (a.pts m.1).y ∧ (a.pts m.1).y < 1 / 8)) ∧
      (¬ b.isPano ∨ (-(1 / 8) < (b.pts m.2).y ∧ (b.pts m.2).y < 1 / 8)))
  else ms

/-- `_not_on_vermont_watermark` (1010-1035). -/
def notVermont (a b : ImageInfo D) (ms : List Match) : List Match :=
  let ms := if a.vermont then ms.filter (fun m => (a.pts m.1).y > -(255 / 1000)) else ms
  if b.vermont then ms.filter (fun m => (b.pts m.2).y > -(255 / 1000)) else ms

/-- `_not_on_blackvue_watermark` (1038-1064). -/
def notBlackvue (a b : ImageInfo D) (ms : List Match) : List Match :=
  let ms := if a.blackvue then ms.filter (fun m => (a.pts m.1).y < 263 / 1000) else ms
  if b.blackvue then ms.filter (fun m => (b.pts m.2).y < 263 / 1000) else ms

/-- `apply_adhoc_filters` (939-957). -/
def applyAdhocFilters (a b : ImageInfo D) (ms : List Match) : List Match :=
  notBlackvue a b (notVermont a b (notOnPoles a b (nonStatic a b ms)))

/-! ### Robust matching (matching.py:780-929) -/

/-- Answer of `cv2.findFundamentalMat`: the inlier mask and whether `F` is usable
(`F is not None and F[2,2] != 0`); no mask at all makes `mask.ravel()` raise. -/
structure FundamentalAnswer where
  mask : Option (List Bool)
  usable : Bool

/-- `robust_match_fundamental` (780-802); `none` is the exception of line 796. -/
def robustFundamental (find : List Match → FundamentalAnswer) (ms : List Match) :
    Option (List Match) :=
  if ms.length < 8 then some []
  else
    match (find ms).mask with
    | none => none
    | some mask => if (find ms).usable then some (select mask ms) else some []

/-- `robust_match_calibrated` (871-903): `pose0` is the RANSAC pose, `inliers T k` the mask of
`compute_inliers_bearings` at `k` times the threshold, `refine T mask` the nonlinear refinement. -/
def robustCalibrated {T : Type} (pose0 : List Match → T) (inliers : List Match → T → Nat → List Bool)
    (refine : List Match → T → List Bool → T) (ms : List Match) : List Match :=
  if ms.length < 8 then []
  else
    let t0 := pose0 ms
    let i4 := inliers ms t0 4
    if i4.count true < 8 then []
    else
      let t1 := refine ms t0 i4
      let i2 := inliers ms t1 2
      if i2.count true < 8 then []
      else
        let t2 := refine ms t1 i2
        let i1 := inliers ms t2 1
        if i1.count true < 8 then []
        else
          let t3 := refine ms t2 i1
          select (inliers ms t3 1) ms

/-- The estimators used by `robust_match`. -/
structure Estimators where
  T : Type
  find : List Match → FundamentalAnswer
  pose0 : List Match → T
  inliers : List Match → T → Nat → List Bool
  refine : List Match → T → List Bool → T

/-- `robust_match` (906-929): `undistorted` is the test on the two cameras. -/
def robustMatch (e : Estimators) (undistorted : Bool) (ms : List Match) : Option (List Match) :=
  if undistorted then robustFundamental e.find ms
  else some (robustCalibrated e.pose0 e.inliers e.refine ms)

/-- `match` (563-634) after the descriptor matcher: `raw` are the descriptor matches (empty if the
features are missing), the filters run if `useFilters`; `masks` are the two feature masks if both
could be loaded. `none` is an exception in the estimator. -/
def matchPair (e : Estimators) (a b : ImageInfo D) (useFilters undistorted : Bool) (minMatch : Int)
    (masks : Option (List Bool × List Bool)) (raw : List Match) : Option (List Match) :=
  let ms := if useFilters then applyAdhocFilters a b raw else raw
  if (ms.length : Int) < minMatch then some []
  else
    match robustMatch e undistorted ms with
    | none => none
    | some rm =>
      let rm := match masks with
        | none => rm
        | some (m1, m2) => unfilterMatches rm m1 m2
      if (rm.length : Int) < minMatch then some [] else some rm

/-! ### Match files -/

section Files
variable {Id : Type} [DecidableEq Id]

/-- The match files of a dataset: image -> (other image -> matches). -/
abbrev Files (Id : Type) := Dict Id (Dict Id (List Match))

/-- Loop over the matched pairs (matching.py:142-152); `none` is the RuntimeError. -/
def collect (refs : List Id) : List ((Id × Id) × List Match) → Files Id → Option (Files Id)
  | [], acc => some acc
  | ((im1, im2), m) :: rest, acc =>
    if im1 ∈ refs then
      collect refs rest (acc.set im1 (Dict.set ((acc.get? im1).getD []) im2 m))
    else if im2 ∈ refs then
      collect refs rest (acc.set im2 (Dict.set ((acc.get? im2).getD []) im1 m))
    else none

/-- `save_matches` (matching.py:132-156) on top of the files already there. -/
def saveMatches (files : Files Id) (refs : List Id) (pairs : List ((Id × Id) × List Match)) :
    Option (Files Id) :=
  match collect refs pairs (refs.foldl (fun (d : Files Id) im => Dict.set d im []) []) with
  | none => none
  | some per => some (per.foldl (fun (f : Files Id) e => Dict.set f e.1 e.2) files)

/-- `m[:, [1, 0]]`. -/
def swapColumns (m : List Match) : List Match := m.map (fun p => (p.2, p.1))

/-- The second half of `find_matches` (dataset.py:399-404). -/
def findReversed (files : Files Id) (im1 im2 : Id) : List Match :=
  match files.get? im2 with
  | none => []
  | some f =>
    match f.get? im1 with
    | none => []
    | some m => if m.length ≠ 0 then swapColumns m else []

/-- `find_matches` (dataset.py:394-404). -/
def findMatches (files : Files Id) (im1 im2 : Id) : List Match :=
  match files.get? im1 with
  | none => findReversed files im1 im2
  | some f =>
    match f.get? im2 with
    | some m => m
    | none => findReversed files im1 im2

end Files
end Verif.Matching
