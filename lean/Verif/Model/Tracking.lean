import Verif.Model.TracksManager
import Verif.Model.UnionFindPy
import Verif.Base.Group

/-!
# Model of `opensfm/tracking.py`

Images (`I`) and feature indices (`F`) are arbitrary types. `observe im f` stands for the
`pymap.Observation` assembled at tracking.py:108-143 from the feature, colour, segmentation,
instance and depth arrays; it is `none` iff `im not in features` (tracking.py:106). An index
outside the feature array (`IndexError`) is not modelled. The track id `str(track_id)`
(tracking.py:144) is the number itself.
-/
namespace Verif.Tracking
variable {I F O : Type} [DecidableEq I] [DecidableEq F]

/-- The calls made on the union-find before grouping (tracking.py:85-88). -/
def unionOps (matches_ : Dict (I × I) (List (F × F))) : List (UFPy.Op (I × F)) :=
  matches_.flatMap fun p => p.2.map fun q => .union [(p.1.1, q.1), (p.1.2, q.2)]

/-- The grouping loop (tracking.py:90-96) over the items `is` (iteration order of `uf`). -/
def groupLoop (u : UFPy (I × F)) : List (I × F) → Dict (I × F) (List (I × F)) →
    Option (Dict (I × F) (List (I × F)))
  | [], sets => some sets
  | i :: is, sets =>
    match u.find i with
    | none => none
    | some (u', p) =>
      if sets.has p then groupLoop u' is (sets.push p i)
      else groupLoop u' is (sets.set p [i])

/-- `_good_track` (tracking.py:238-244). `len(images) != len(set(images))` is the test that an
image occurs twice. -/
def goodTrack (track : List (I × F)) (minLength : Nat) : Bool :=
  if track.length < minLength then false
  else decide (track.map Prod.fst).Nodup

/-- `tracks` (tracking.py:85-98): the list of groups that become tracks. `none`: an exception or a
loop that does not end. -/
def tracks (lt : I × F → I × F → Bool) (matches_ : Dict (I × I) (List (F × F)))
    (minLength : Nat) : Option (List (List (I × F))) :=
  match UFPy.run lt (unionOps matches_) with
  | none => none
  | some u => (groupLoop u u.items []).map fun sets => sets.vals.filter (goodTrack · minLength)

/-- The loop adding one track (tracking.py:105-145). -/
def addTrack (observe : I → F → Option O) (m : TM I Nat O) (trackId : Nat) (track : List (I × F)) :
    TM I Nat O :=
  track.foldl (fun m p =>
    match observe p.1 p.2 with
    | none => m
    | some o => m.addObservation p.1 trackId o) m

/-- `create_tracks_manager` (tracking.py:72-150). -/
def createTracksManager (lt : I × F → I × F → Bool) (observe : I → F → Option O)
    (matches_ : Dict (I × I) (List (F × F))) (minLength : Nat) : Option (TM I Nat O) :=
  (tracks lt matches_ minLength).map fun ts =>
    ts.zipIdx.foldl (fun m p => addTrack observe m p.2 p.1) TM.empty

section common
variable {S T P : Type} [DecidableEq S] [DecidableEq T]

/-- `common_tracks` (tracking.py:153-176); `point` is `obs.point`. -/
def commonTracks (point : O → P) (m : TM S T O) (im1 im2 : S) :
    Except TMErr (List T × List P × List P) :=
  match m.getShotObservations im1, m.getShotObservations im2 with
  | .ok t1, .ok t2 =>
    .ok (t1.foldl (fun acc p =>
      match t2.get? p.1 with
      | some o2 => (acc.1 ++ [p.1], acc.2.1 ++ [point p.2], acc.2.2 ++ [point o2])
      | none => acc) ([], [], []))
  | .error e, _ => .error e
  | _, .error e => .error e

/-- Loop body of `all_common_tracks` (tracking.py:221-230); `q` is an item of the connectivity
table, an exception stops the loop. -/
def allCommonStep (point : O → P) (m : TM S T O) (minCommon : Nat)
    (acc : Except TMErr (Dict (S × S) (List T × List P × List P))) (q : (S × S) × Nat) :
    Except TMErr (Dict (S × S) (List T × List P × List P)) :=
  match acc with
  | .error e => .error e
  | .ok d =>
    if q.2 < minCommon then .ok d
    else
      match m.getAllCommonObservations q.1.1 q.1.2 with
      | .error e => .error e
      | .ok tuples =>
        .ok (d.set q.1 (tuples.map (·.1), tuples.map (fun x => point x.2.1),
          tuples.map (fun x => point x.2.2)))

/-- `all_common_tracks` with features (tracking.py:202-235). -/
def allCommonTracks (point : O → P) (lt : S → S → Bool) (m : TM S T O) (minCommon : Nat) :
    Except TMErr (Dict (S × S) (List T × List P × List P)) :=
  (m.getAllPairsConnectivity lt [] []).foldl (allCommonStep point m minCommon) (.ok [])

/-- `as_weighted_graph` (tracking.py:247-258): nodes and weighted edges. -/
def asWeightedGraph (lt : S → S → Bool) (m : TM S T O) : List S × Dict (S × S) Nat :=
  (m.getShotIds, m.getAllPairsConnectivity lt [] [])

end common
end Verif.Tracking
