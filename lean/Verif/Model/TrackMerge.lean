import Verif.Model.TracksManager
import Verif.Model.UnionFindCpp

/-!
# Model of `TracksManager::MergeTracksManager`

`/repo/opensfm/src/map/src/tracks_manager.cc:353-417`. `fid` reads the `feature_id` of an
observation. Elements of the union-find are their positions in `union_find_elements`.
`std::to_string(i)` (line 405) is the number itself.
-/
namespace Verif.TrackMerge
open Verif.TM
variable {S T O F : Type} [DecidableEq S] [DecidableEq T] [DecidableEq F]

/-- `union_find_elements`: `(track_id, manager index)` for every track of every manager
(tracks_manager.cc:366-380). -/
def elements (ms : List (TM S T O)) : List (T × Nat) :=
  ms.zipIdx.flatMap fun p => p.1.perTrack.keys.map fun t => (t, p.2)

/-- `tracks_managers[manager_id]->shots_per_track_.at(track_id)` (tracks_manager.cc:409-410). -/
def trackOf (ms : List (TM S T O)) (e : T × Nat) : Dict S O :=
  ((ms[e.2]?).bind fun m => m.perTrack.get? e.1).getD []

/-- `observations_per_feature_id` (tracks_manager.cc:364-374): feature -> element positions. -/
def featureTable (fid : O → F) (ms : List (TM S T O)) : Dict (S × F) (List Nat) :=
  (elements ms).zipIdx.foldl (fun tbl p =>
    (trackOf ms p.1).foldl (fun tbl q => tbl.push (q.1, fid q.2) p.2) tbl) []

/-- The `Union` calls for one feature list: its first element with each other one
(tracks_manager.cc:391-398). -/
def unionGroup : List Nat → List (UFCpp.Op Nat)
  | [] => []
  | e1 :: rest => rest.map fun e2 => .union e1 e2

/-- Allocation of the elements, then the `Union` calls for the feature lists taken in the given
order (tracks_manager.cc:375-399). -/
def mergeOps (n : Nat) (order : List (List Nat)) : List (UFCpp.Op Nat) :=
  (List.range n).map .make ++ order.flatMap unionGroup

/-- The loop building the merged manager from the clusters (tracks_manager.cc:402-415). -/
def build (ms : List (TM S T O)) (clusters : List (List Nat)) : TM S Nat O :=
  clusters.zipIdx.foldl (fun m p =>
    p.1.foldl (fun m e =>
      match (elements ms)[e]? with
      | none => m
      | some el => (trackOf ms el).foldl (fun m q => m.addObservation q.1 p.2 q.2) m) m) empty

/-- `MergeTracksManager` may return `out` (tracks_manager.cc:353-417): the iteration order of the
hash table of features and the order of equally large clusters are unspecified, so any order is
allowed. -/
def Merged (fid : O → F) (ms : List (TM S T O)) (out : TM S Nat O) : Prop :=
  if elements ms = [] then out = empty
  else ∃ order u clusters,
    order.Perm (featureTable fid ms).vals ∧
    UFCpp.run (mergeOps (elements ms).length order) = some u ∧
    UFCpp.Clusters u (List.range (elements ms).length) clusters ∧
    out = build ms clusters

end Verif.TrackMerge
