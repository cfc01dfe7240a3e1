import Verif.Model.SfmMap
import Mathlib.Data.List.Sort
import Mathlib.Data.List.Dedup

/-!
# Shot neighbourhoods

`shot_neighborhood` and `direct_shot_neighbors` (`/repo/opensfm/reconstruction.py` 129-190) and their
C++ versions `ShotNeighborhood`, `DirectShotNeighbors` (`/repo/opensfm/src/sfm/src/ba_helpers.cc`
47-113), which also bring in whole rig instances.

Sets are duplicate-free lists; `ord` gives the (arbitrary) order in which a set is iterated.
-/
namespace Verif.Nbh
variable {S L : Type} [DecidableEq S] [DecidableEq L]

/-- The parts of a reconstruction used: shots, the landmarks of a shot, the shots of a landmark,
and the shots of the rig instance of a shot. -/
structure Graph (S L : Type) where
  shots : List S
  lms : S → List L
  shotsOf : L → List S
  rig : S → List S

/-- The graph of a map (`shot.get_valid_landmarks()`, `landmark.get_observations()`,
`GetRigInstance(..).GetShotIDs()`). -/
def ofMap {Id A X K B P : Type} [DecidableEq Id] (m : SMap Id A X K B P) : Graph Id Id where
  shots := m.shots.keys
  lms := fun s => match m.shots.get? s with
    | none => []
    | some st => st.lmObs.keys
  shotsOf := fun l => match m.landmarks.get? l with
    | none => []
    | some lm => lm.obs.keys
  rig := fun s => match m.shots.get? s with
    | none => []
    | some st => match m.rigInstances.get? st.rigInstance with
      | none => []
      | some inst => inst.shots.keys

/-- `common_points[k] += 1` (reconstruction.py 181, ba_helpers.cc 86). -/
def incr (d : Dict S Nat) (k : S) : Dict S Nat := Dict.set d k ((Dict.get? d k).getD 0 + 1)

/-- The set `points` (reconstruction.py 167-173, ba_helpers.cc 75-80). -/
def points (G : Graph S L) (ids : List S) : List L := (ids.flatMap G.lms).dedup

/-- `common_points` (reconstruction.py 175-181, ba_helpers.cc 82-89). -/
def commonPoints (G : Graph S L) (ordL : List L → List L) (ids : List S) : Dict S Nat :=
  ((ordL (points G ids)).flatMap
    (fun l => (G.shotsOf l).filter (fun s => decide (s ∈ G.shots ∧ s ∉ ids)))).foldl incr []

/-- `pairs` (reconstruction.py 183, ba_helpers.cc 91-97): `perm` is the hash map order. -/
def pairs (G : Graph S L) (ordL : List L → List L) (perm : List (S × Nat) → List (S × Nat))
    (ids : List S) : List (S × Nat) :=
  (perm (commonPoints G ordL ids)).insertionSort (fun a b => b.2 ≤ a.2)

/-- The pairs that pass the final loop (reconstruction.py 185-189, ba_helpers.cc 99-110). -/
def chosen (G : Graph S L) (ordL : List L → List L) (perm : List (S × Nat) → List (S × Nat))
    (ids : List S) (minCommon maxNeighbors : Nat) : List S :=
  (((pairs G ordL perm ids).take maxNeighbors).takeWhile (fun q => decide (minCommon ≤ q.2))).map
    Prod.fst

/-- `direct_shot_neighbors` (reconstruction.py 160-190). -/
def directPy (G : Graph S L) (ordL : List L → List L) (perm : List (S × Nat) → List (S × Nat))
    (ids : List S) (minCommon maxNeighbors : Nat) : List S :=
  chosen G ordL perm ids minCommon maxNeighbors

/-- `DirectShotNeighbors` (ba_helpers.cc 72-113): each chosen shot brings its rig instance. -/
def directCpp (G : Graph S L) (ordL : List L → List L) (perm : List (S × Nat) → List (S × Nat))
    (ids : List S) (minCommon maxNeighbors : Nat) : List S :=
  ((chosen G ordL perm ids minCommon maxNeighbors).flatMap G.rig).dedup

/-- `interior.update(neighbors)` / `interior.insert(...)`. -/
def unite (a b : List S) : List S := a ++ b.filter (fun s => decide (s ∉ a))

/-- The loop growing the interior (reconstruction.py 147-155, ba_helpers.cc 59-66): `n` is the
number of remaining iterations of `range(1, radius)`. -/
def growInterior (direct : List S → Nat → Nat → List S) (minCommon maxInterior : Nat) :
    Nat → List S → List S
  | 0, interior => interior
  | n + 1, interior =>
    if maxInterior ≤ interior.length then interior
    else growInterior direct minCommon maxInterior n
      (unite interior (direct interior minCommon (maxInterior - interior.length)))

/-- `shot_neighborhood` (reconstruction.py 129-157). -/
def neighborhoodPy (G : Graph S L) (ordL : List L → List L)
    (perm : List (S × Nat) → List (S × Nat)) (central : S)
    (radius minCommon maxInterior : Nat) : List S × List S :=
  let interior := growInterior (directPy G ordL perm) minCommon maxInterior (radius - 1) [central]
  (interior, directPy G ordL perm interior 1 1000000)

/-- `ShotNeighborhood` (ba_helpers.cc 47-70): starts from the rig instance of the central shot. -/
def neighborhoodCpp (G : Graph S L) (ordL : List L → List L)
    (perm : List (S × Nat) → List (S × Nat)) (central : S)
    (radius minCommon maxInterior : Nat) : List S × List S :=
  let interior := growInterior (directCpp G ordL perm) minCommon maxInterior (radius - 1)
    (unite (G.rig central).dedup [central])
  (interior, directCpp G ordL perm interior 1 1000000)

end Verif.Nbh
