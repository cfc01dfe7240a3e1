import Verif.Model.TracksManager

/-!
# Model of the helpers on the tracks manager

`/repo/opensfm/src/sfm/src/tracks_helpers.cc`: `CountTracksPerShot`, `AddConnections`,
`RemoveConnections`, on the manager of `Model/TracksManager.lean`. The C++ sets are lists.
-/
namespace Verif.TM
variable {S T O : Type} [DecidableEq S] [DecidableEq T]

/-- The inner loop of `CountTracksPerShot` (tracks_helpers.cc:20-26). -/
def countOne (tracks : List T) (observations : Dict T O) : Nat :=
  observations.foldl (fun sum p => if p.1 ∈ tracks then sum + 1 else sum) 0

/-- The body of the loop on the shots (tracks_helpers.cc:17-28). -/
def countStep (m : TM S T O) (tracks : List T) (counts : Dict S Nat) (s : S) : Except TMErr (Dict S Nat) :=
  match m.getShotObservations s with
  | .error e => .error e
  | .ok observations => .ok (counts.set s (countOne tracks observations))

/-- `CountTracksPerShot` (tracks_helpers.cc:7-30). -/
def countTracksPerShot (m : TM S T O) (shots : List S) (tracks : List T) : Except TMErr (Dict S Nat) :=
  shots.foldlM (countStep m tracks) []

/-- `AddConnections` (tracks_helpers.cc:32-38): `dflt` is the default `Observation`. -/
def addConnections (dflt : O) (m : TM S T O) (s : S) (connections : List T) : TM S T O :=
  connections.foldl (fun m t => m.addObservation s t dflt) m

/-- `RemoveConnections` (tracks_helpers.cc:40-45): the state afterwards and the exception, if any. -/
def removeConnections (m : TM S T O) (s : S) : List T → TM S T O × Option TMErr
  | [] => (m, none)
  | t :: connections =>
    match m.removeObservation s t with
    | .error e => (m, some e)
    | .ok m' => removeConnections m' s connections

end Verif.TM
