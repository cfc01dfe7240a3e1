import Verif.Base.Dict

/-!
# Model of `map::TracksManager`

`/repo/opensfm/src/map/src/tracks_manager.cc` and `tracks_manager.h`.
Shot ids, track ids and observations are arbitrary types (`S`, `T`, `O`): the
code below never looks inside them, except for the order on shot ids used by
`GetAllPairsConnectivity`, which is a parameter `lt`.
-/
namespace Verif

/-- The exceptions thrown by the tracks manager
(tracks_manager.cc:192,196,232,236,245,254,291). -/
inductive TMErr where
  | invalidShot
  | invalidTrack
  deriving DecidableEq, Repr

/-- The state: the two private maps `tracks_per_shot_` and `shots_per_track_`
(tracks_manager.h:55-58). Simplification: `unordered_map` is an
insertion-ordered dictionary; no theorem depends on that order. -/
structure TM (S T O : Type) where
  perShot : Dict S (Dict T O)
  perTrack : Dict T (Dict S O)
  deriving Repr, DecidableEq

namespace TM
variable {S T O : Type} [DecidableEq S] [DecidableEq T]

/-- A default-constructed `TracksManager` (tracks_manager.h:10-59). -/
def empty : TM S T O := ⟨[], []⟩

/-- `m[a][b] = o` on a map of maps: `operator[]` creates the missing inner map
(C++ idiom used at tracks_manager.cc:184-185). -/
def set2 {A B : Type} [DecidableEq A] [DecidableEq B]
    (m : Dict A (Dict B O)) (a : A) (b : B) (o : O) : Dict A (Dict B O) :=
  m.set a (((m.get? a).getD []).set b o)

/-- `AddObservation` (tracks_manager.cc:181-186). -/
def addObservation (m : TM S T O) (s : S) (t : T) (o : O) : TM S T O :=
  { perShot := set2 m.perShot s t o
    perTrack := set2 m.perTrack t s o }

/-- `RemoveObservation` (tracks_manager.cc:188-200). The exception is raised
before any change, so on `error` the caller keeps the old state. -/
def removeObservation (m : TM S T O) (s : S) (t : T) : Except TMErr (TM S T O) :=
  match m.perShot.get? s with
  | none => .error .invalidShot
  | some tracks =>
    match m.perTrack.get? t with
    | none => .error .invalidTrack
    | some shots =>
      .ok { perShot := m.perShot.set s (tracks.erase t)
            perTrack := m.perTrack.set t (shots.erase s) }

/-- `NumShots` (tracks_manager.cc:202). -/
def numShots (m : TM S T O) : Nat := m.perShot.length
/-- `NumTracks` (tracks_manager.cc:204). -/
def numTracks (m : TM S T O) : Nat := m.perTrack.length
/-- `HasShotObservations` (tracks_manager.cc:206-208). -/
def hasShotObservations (m : TM S T O) (s : S) : Bool := m.perShot.has s
/-- `GetShotIds` (tracks_manager.cc:210-217). -/
def getShotIds (m : TM S T O) : List S := m.perShot.keys
/-- `GetTrackIds` (tracks_manager.cc:219-226). -/
def getTrackIds (m : TM S T O) : List T := m.perTrack.keys

/-- `GetObservation` (tracks_manager.cc:228-239). -/
def getObservation (m : TM S T O) (s : S) (t : T) : Except TMErr O :=
  match m.perShot.get? s with
  | none => .error .invalidShot
  | some tracks =>
    match tracks.get? t with
    | none => .error .invalidTrack
    | some o => .ok o

/-- `GetShotObservations` (tracks_manager.cc:241-248). -/
def getShotObservations (m : TM S T O) (s : S) : Except TMErr (Dict T O) :=
  match m.perShot.get? s with
  | none => .error .invalidShot
  | some tracks => .ok tracks

/-- `GetTrackObservations` (tracks_manager.cc:250-257). -/
def getTrackObservations (m : TM S T O) (t : T) : Except TMErr (Dict S O) :=
  match m.perTrack.get? t with
  | none => .error .invalidTrack
  | some shots => .ok shots

/-- Inner loop of `ConstructSubTracksManager` (tracks_manager.cc:274-279). -/
def subAddTrack (shots : List S) (t : T) (sub : TM S T O) (track : Dict S O) : TM S T O :=
  track.foldl (fun acc p => if p.1 ∈ shots then acc.addObservation p.1 t p.2 else acc) sub

/-- `ConstructSubTracksManager` (tracks_manager.cc:259-282). -/
def constructSubTracksManager (m : TM S T O) (tracks : List T) (shots : List S) : TM S T O :=
  tracks.foldl (fun sub t =>
    match m.perTrack.get? t with
    | none => sub
    | some track => subAddTrack shots t sub track) empty

/-- `GetAllCommonObservations` (tracks_manager.cc:284-302). -/
def getAllCommonObservations (m : TM S T O) (s1 s2 : S) : Except TMErr (List (T × O × O)) :=
  match m.perShot.get? s1, m.perShot.get? s2 with
  | some d1, some d2 =>
    .ok (d1.filterMap fun p => (d2.get? p.1).map fun o2 => (p.1, p.2, o2))
  | _, _ => .error .invalidShot

/-- `++d[k]` on a counting map (tracks_manager.cc:344). -/
def incr {K : Type} [DecidableEq K] (d : Dict K Nat) (k : K) : Dict K Nat :=
  d.set k ((d.get? k).getD 0 + 1)

/-- Loops of `GetAllPairsConnectivity` for one track (tracks_manager.cc:338-348). -/
def countTrack (lt : S → S → Bool) (use : List S) (track : Dict S O)
    (acc : Dict (S × S) Nat) : Dict (S × S) Nat :=
  track.foldl (fun acc p1 =>
    if p1.1 ∈ use then
      track.foldl (fun acc p2 =>
        if lt p1.1 p2.1 ∧ p2.1 ∈ use then incr acc (p1.1, p2.1) else acc) acc
    else acc) acc

/-- `GetAllPairsConnectivity` (tracks_manager.cc:304-351). `lt` is `operator<`
on shot ids. -/
def getAllPairsConnectivity (lt : S → S → Bool) (m : TM S T O) (shots : List S)
    (tracks : List T) : Dict (S × S) Nat :=
  let tracksToUse := if tracks.isEmpty then m.perTrack.keys else tracks
  let shotsToUse := if shots.isEmpty then m.perShot.keys else shots
  tracksToUse.foldl (fun acc t =>
    match m.perTrack.get? t with
    | none => acc
    | some track => countTrack lt shotsToUse track acc) []

/-- A call that mutates the manager. -/
inductive Op (S T O : Type) where
  | add (s : S) (t : T) (o : O)
  | remove (s : S) (t : T)

/-- One call: new state and the exception raised, if any. -/
def step (m : TM S T O) : Op S T O → TM S T O × Option TMErr
  | .add s t o => (m.addObservation s t o, none)
  | .remove s t =>
    match m.removeObservation s t with
    | .ok m' => (m', none)
    | .error e => (m, some e)

/-- State after a history of calls (oldest first), starting from an empty manager. -/
def run (ops : List (Op S T O)) : TM S T O := ops.foldl (fun m op => (m.step op).1) empty

/-- A state some history of calls produces. -/
def Reachable (m : TM S T O) : Prop := ∃ ops, m = run ops

end TM
end Verif
