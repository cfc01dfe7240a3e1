import Verif.Model.Rig
import Mathlib.Data.String.Basic
import Mathlib.Data.List.Dedup
import Mathlib.Data.List.Sort
import Mathlib.Data.Rat.Defs

/-!
# Model of a rig calibration run

`group_instances`, `propose_subset_dataset_from_instances` and `create_rigs_with_pattern` of
`opensfm/rig.py` 118-210 and 298-388.

Simplifications: numbers are rational; the k-d tree is an arbitrary list of neighbours, `networkx`'s connected
components an arbitrary function of the edges, the random generator an arbitrary sequence per round; the
structure from motion pipeline on the images of a subset and `compute_relative_pose` are arbitrary functions;
missing EXIF data (an exception) and the symbolic links of the subset are left out; `rig_calibration_max_rounds`
is a natural number.
-/
namespace Verif.RigRun
open Verif.Rig

/-- `", ".join(names)` (rig.py:123). -/
def join : List String → String
  | [] => ""
  | [a] => a
  | a :: b :: l => a ++ ", " ++ join (b :: l)

/-- The sorted set of the rig cameras of an instance, joined (rig.py:123). -/
def groupKey (i : Instance) : String := join ((i.map Prod.snd).dedup.insertionSort (· ≤ ·))

/-- `group_instances` (rig.py:118-127). -/
def groupInstances (ri : Dict String Instance) : Dict String (List Instance) :=
  ri.vals.foldl (fun m i => Dict.push m (groupKey i) i) []

/-- What a run is given, besides the images and patterns. -/
structure Env (Rec R : Type) where
  /-- the six nearest instances of instance `i` of the group named `key` (rig.py:157, 163) -/
  neighbors : String → Nat → List Nat
  /-- `connected_components` of a graph given by its edges, in order (rig.py:168-169) -/
  components : List (Nat × Nat) → List (List Nat)
  /-- `capture_time` in the EXIF data of an image (rig.py:191) -/
  time : String → ℚ
  /-- `random.randint(0, n - 1)` in round `k` for the group named `key` (rig.py:195) -/
  rand : Nat → String → Nat → Nat
  /-- `rig_calibration_subset_size` -/
  size : Nat
  /-- `rig_calibration_completeness` -/
  completeness : ℚ
  /-- the reconstructions of the pipeline on the images of a subset (rig.py:336-344) -/
  sfm : List String → List Rec
  /-- the shots of a reconstruction -/
  shots : Rec → List String
  /-- `compute_relative_pose` on the instances of a group (rig.py:288) -/
  rel : Rec → List Instance → Dict String R

variable {Rec R : Type}

/-- The edges of the graph of a group of `n` instances (rig.py:161-167). -/
def edges (env : Env Rec R) (key : String) (n : Nat) : List (Nat × Nat) :=
  (List.range n).flatMap (fun i =>
    ((env.neighbors key i).filter (fun j => !(i = j || decide (n ≤ j)))).map (fun j => (i, j)))

/-- The biggest component of a group (rig.py:168-181); `none` if the graph has no edge. -/
def biggest (env : Env Rec R) (key : String) (n : Nat) : Option (List Nat) :=
  ((env.components (edges env key n)).insertionSort (fun a b => b.length ≤ a.length)).head?

/-- `instances_to_pick` (rig.py:143-181), with the instances instead of their positions
(rig.py:187-190). -/
def toPick (env : Env Rec R) (ri : Dict String Instance) : List (String × List Instance) :=
  (groupInstances ri).filterMap (fun q =>
    (biggest env q.1 q.2.length).map (fun c => (q.1, c.filterMap (fun i => q.2[i]?))))

/-- The instances of a group sorted by capture time of their first image (rig.py:188-192). -/
def byTime (env : Env Rec R) (l : List Instance) : List Instance :=
  l.insertionSort (fun a b =>
    env.time ((a.head?.map Prod.fst).getD "") ≤ env.time ((b.head?.map Prod.fst).getD ""))

/-- The instances of round `k` (rig.py:184-206). -/
def roundInstances (env : Env Rec R) (ri : Dict String Instance) (k : Nat) : List Instance :=
  (toPick env ri).flatMap (fun q =>
    window (byTime env q.2) (env.rand k q.1 (byTime env q.2).length) env.size)

/-- The images of round `k` (rig.py:203-204). -/
def roundImages (env : Env Rec R) (ri : Dict String Instance) (k : Nat) : List String :=
  (roundInstances env ri k).flatMap (fun i => i.map Prod.fst)

/-- `create_rig_cameras_from_reconstruction` (rig.py:263-295): the groups by decreasing size. -/
def rigCameras (env : Env Rec R) (ri : Dict String Instance) (r : Rec) : Dict String R :=
  rigCamerasFrom (env.rel r) (fun s => decide (s ∈ env.shots r))
    ((groupInstances ri).vals.insertionSort (fun a b => b.length ≤ a.length))

/-- What a round ends with. -/
inductive Outcome (R : Type)
  | next
  | found (cameras : Dict String R)
  | crash
deriving DecidableEq

/-- `set(a) == set(b)`. -/
def sameSet (a b : List String) : Bool := a.all (fun x => decide (x ∈ b)) && b.all (fun x => decide (x ∈ a))

/-- The checks of a round on a reconstruction (rig.py:349-377); `crash` is the `KeyError` of
`count_reconstructed_instances`. -/
def check (env : Env Rec R) (ri : Dict String Instance) (k : Nat) (r : Rec) : Outcome R :=
  if !sameSet (rigCameras env ri r).keys (ri.vals.flatten.map Prod.snd) then .next
  else
    match countReconstructed (roundInstances env ri k) (env.shots r) with
    | none => .crash
    | some n =>
      if (n : ℚ) < ((roundInstances env ri k).length : ℚ) * env.completeness then .next
      else .found (rigCameras env ri r)

/-- Round `k` (rig.py:324-377). -/
def attempt (env : Env Rec R) (ri : Dict String Instance) (k : Nat) : Outcome R :=
  if (roundImages env ri k).length = 0 then .next
  else
    match env.sfm (roundImages env ri k) with
    | [] => .next
    | r :: _ => check env ri k r

/-- The loop over the subsets (rig.py:317-377); `count` is also the number of subsets made before. -/
def loop (env : Env Rec R) (ri : Dict String Instance) (maxRounds count : Nat) : Outcome R :=
  if count > maxRounds then .next
  else
    match attempt env ri count with
    | .next => loop env ri maxRounds (count + 1)
    | o => o
termination_by maxRounds + 1 - count

/-- What the run leaves in the dataset. -/
inductive Saved (R : Type)
  | nothing
  | crash
  | files (cameras : Dict String R) (assignments : Dict String Instance)
deriving DecidableEq

/-- `create_rigs_with_pattern` (rig.py:298-387): an empty dictionary of rig cameras is false (rig.py:379). -/
def run (env : Env Rec R) (sub : String → String → String) (images : List String)
    (patterns : Dict String String) (maxRounds : Nat) : Saved R :=
  let ri := (createInstances sub images patterns).1
  match loop env ri maxRounds 0 with
  | .next => .nothing
  | .crash => .crash
  | .found cams => if cams.length = 0 then .nothing else .files cams ri

end Verif.RigRun
