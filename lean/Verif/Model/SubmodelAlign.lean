import Verif.Base.Dict
import Verif.Base.Text
import Mathlib.Order.Defs.LinearOrder

/-!
# Model of the alignment of submodels

`opensfm/large/tools.py` 77-328 and `opensfm/actions/align_submodels.py`, without the numerical solver: `solve`
gives for the name of a partial reconstruction the similarity the solver found, `inv` is `invert_similarity`
(property C58), `act` is `align.apply_similarity` (property C40). The point constraints are left out.
-/
namespace Verif.SubmodelAlign

variable {P S R T : Type} [LinearOrder P] [DecidableEq S]

/-- `PartialReconstruction` (tools.py:32-34). -/
abbrev Key (P : Type) := P × Nat

/-- The reconstructions of one submodel (tools.py:269-273). -/
def addSubmodel (shots : R → List S) (m : Dict (Key P) (List S)) (q : P × Option (List R)) :
    Dict (Key P) (List S) :=
  match q.2 with
  | none => m
  | some recs => recs.zipIdx.foldl (fun m r => Dict.set m (q.1, r.2) (shots r.1)) m

/-- `load_reconstruction_shots` (tools.py:260-276): `subs` are the submodels in the order of
`get_submodel_paths`, with their reconstructions if there is a file. -/
def loadShots (shots : R → List S) (subs : List (P × Option (List R))) : Dict (Key P) (List S) :=
  subs.foldl (addSubmodel shots) []

/-- `partial_reconstruction_name` (tools.py:116-117). -/
def recName (k : Key (List Char)) : List Char := k.1 ++ "_index".toList ++ Text.fmtNat k.2

/-- The name of a shot under the hard camera constraints (tools.py:174). -/
def hardShotName (k : Key (List Char)) (shot : List Char) : List Char := recName k ++ shot

/-- What `projected_graph` connects with `u`: everything else that shares a shot. -/
def neighbours2 (m : Dict (Key P) (List S)) (u : Key P) : List (Key P) :=
  (m.filterKV (fun v sh => decide (v ≠ u ∧ ∃ s ∈ sh, s ∈ (m.get? u).getD []))).keys

/-- Add an undirected edge once. -/
def addEdge (e : List (Key P × Key P)) (a : Key P × Key P) : List (Key P × Key P) :=
  if a ∈ e ∨ (a.2, a.1) ∈ e then e else e ++ [a]

/-- `connected_reconstructions` (tools.py:77-92). -/
def connected (m : Dict (Key P) (List S)) : List (Key P × Key P) :=
  (m.keys.flatMap (fun u => (neighbours2 m u).map (fun v => (u, v)))).foldl addEdge []

/-- The calls made on the alignment problem (tools.py:120-159). -/
inductive Call (P S : Type)
  | reconstruction (k : Key P)
  | shot (s : S) (from_ : Key P)
  | position (s : S) (from_ : Key P)
  | motion (k : Key P) (s : S)
  deriving DecidableEq

/-- One shot in `add_camera_constraints_soft` (tools.py:130-159): the shots added so far and the calls. -/
def softShot (k : Key P) (r : List S × List (Call P S)) (s : S) : List S × List (Call P S) :=
  if s ∈ r.1 then (r.1, r.2 ++ [.motion k s])
  else (r.1 ++ [s], r.2 ++ [.shot s k, .position s k, .motion k s])

/-- One reconstruction in `add_camera_constraints_soft` (tools.py:126-129). -/
def softRec (r : List S × List (Call P S)) (q : Key P × List S) : List S × List (Call P S) :=
  q.2.foldl (softShot q.1) (r.1, r.2 ++ [.reconstruction q.1])

/-- `add_camera_constraints_soft` (tools.py:120-159). -/
def softConstraints (m : Dict (Key P) (List S)) : List (Call P S) := (m.foldl softRec ([], [])).2

/-- The transformations (tools.py:297-307). -/
def transformations (solve : Key P → T) (inv : T → T) (m : Dict (Key P) (List S)) : Dict (Key P) T :=
  m.keys.foldl (fun t k => Dict.set t k (inv (solve k))) []

/-- `itertools.groupby` by path. -/
def runs : List (Key P) → List (P × List (Key P))
  | [] => []
  | k :: l =>
    match runs l with
    | [] => [(k.1, [k])]
    | (p, ks) :: rest => if k.1 = p then (p, k :: ks) :: rest else (k.1, [k]) :: (p, ks) :: rest

/-- Transform one reconstruction of the list (tools.py:323-326); `none` is `IndexError`. -/
def applyKey (act : T → R → R) (tr : Dict (Key P) T) (recs : List R) (k : Key P) : Option (List R) :=
  match recs[k.2]?, tr.get? k with
  | some r, some t => some (recs.set k.2 (act t r))
  | _, _ => none

/-- One submodel of `apply_transformations` (tools.py:317-328): the aligned reconstructions are written to
their own file. -/
def applySubmodel (act : T → R → R) (tr : Dict (Key P) T) (files : P → Option (List R))
    (out : Dict P (List R)) (g : P × List (Key P)) : Option (Dict P (List R)) :=
  match files g.1 with
  | none => some out
  | some recs => (g.2.foldlM (applyKey act tr) recs).map (fun r => out.set g.1 r)

/-- `apply_transformations` (tools.py:310-328): the `reconstruction.aligned.json` files. -/
def applyTransformations (act : T → R → R) (tr : Dict (Key P) T) (files : P → Option (List R)) :
    Option (Dict P (List R)) :=
  (runs (tr.keys.mergeSort (fun a b => decide (a.1 ≤ b.1)))).foldlM (applySubmodel act tr files) []

/-- `align_submodels.run_dataset` (align_submodels.py:6-14). -/
def alignSubmodels (shots : R → List S) (solve : Key P → T) (inv : T → T) (act : T → R → R)
    (subs : List (P × Option (List R))) : Option (Dict P (List R)) :=
  applyTransformations act (transformations solve inv (loadShots shots subs))
    (fun p => (Dict.get? subs p).join)

end Verif.SubmodelAlign
