import Mathlib.Logic.Function.Basic
import Mathlib.Data.List.Perm.Basic

/-!
Model of the stage that computes depthmaps (/repo/opensfm/dense.py:15-62, 64-290) over the depthmap files
(/repo/opensfm/dataset.py:866-968).

Simplifications: the numerical work is a parameter (C80, C81); tasks are atomic: a task reads only files of the phase
before, which nobody writes, and writes only the files of its own shot. A file that was being written when the process
was killed is `torn`; reading it raises.
-/
namespace Verif.DenseStage

/-- A file. -/
inductive File (α : Type) where
  | absent
  | torn
  | ok (a : α)

/-- `*_depthmap_exists` (dataset.py:894-895, 920-921, 936-937): is there a file. -/
def File.exists' {α : Type} : File α → Bool
  | .absent => false
  | _ => true

/-- The depthmap files of all shots (dataset.py:866-871): `raw.npz`, `clean.npz`, `pruned.npz`. -/
structure State (N R C P : Type) where
  raw : N → File R
  clean : N → File C
  pruned : N → File P

/-- The numerical work. `none`: an exception. -/
structure Work (N R C P : Type) where
  /-- `compute_depthmap` (dense.py:96-139) up to saving -/
  est : N → Option R
  /-- `dc.clean()` with the views given (dense.py:183-190), then the planes and scores of the raw depthmap of the shot
  (dense.py:192-194) -/
  clean : List (N × R) → R → Option C
  /-- loading images and labels, `dp.prune()` with the views given (dense.py:230-235) -/
  prune : List (N × C) → Option P

/-- A shot with its neighbors, itself first (dense.py:33-36). -/
structure Job (N : Type) where
  shot : N
  neighbors : List N

section
variable {N R C P : Type} [DecidableEq N]

/-- The loop of `add_views_to_depth_cleaner` and `add_views_to_depth_pruner` (dense.py:316-328, 356-373): files that
do not exist are skipped, a torn one raises. -/
def loadAll {α : Type} (files : N → File α) : List N → Option (List (N × α))
  | [] => some []
  | n :: ns =>
    match files n with
    | .absent => loadAll files ns
    | .torn => none
    | .ok a => (loadAll files ns).map (fun l => (n, a) :: l)

/-- `compute_depthmap_catched` (dense.py:64-71, 96-139). -/
def rawTask (w : Work N R C P) (st : State N R C P) (j : Job N) : Option (State N R C P) :=
  if (st.raw j.shot).exists' then some st
  else
    match w.est j.shot with
    | none => some st
    | some r => some { st with raw := Function.update st.raw j.shot (.ok r) }

/-- The end of `clean_depthmap` (dense.py:190-194): `load_raw_depthmap` of the shot itself, then the file is saved. -/
def saveClean (w : Work N R C P) (st : State N R C P) (j : Job N) (vs : List (N × R)) : State N R C P :=
  match st.raw j.shot with
  | .ok r =>
    match w.clean vs r with
    | none => st
    | some c => { st with clean := Function.update st.clean j.shot (.ok c) }
  | _ => st

/-- `clean_depthmap_catched` (dense.py:74-81, 168-194). `none`: the process is killed, because `Clean` reads the first
element of an empty vector (depthmap.cc:513). -/
def cleanTask (w : Work N R C P) (st : State N R C P) (j : Job N) : Option (State N R C P) :=
  if (st.clean j.shot).exists' then some st
  else
    match loadAll st.raw j.neighbors with
    | none => some st
    | some [] => none
    | some (v :: vs) => some (saveClean w st j (v :: vs))

/-- The end of `prune_depthmap` (dense.py:234-238). -/
def savePruned (w : Work N R C P) (st : State N R C P) (j : Job N) (vs : List (N × C)) : State N R C P :=
  match w.prune vs with
  | none => st
  | some p => { st with pruned := Function.update st.pruned j.shot (.ok p) }

/-- `prune_depthmap_catched` (dense.py:84-91, 216-241). `none`: the process is killed, because `Prune` reads the first
element of an empty vector (depthmap.cc:569). -/
def pruneTask (w : Work N R C P) (st : State N R C P) (j : Job N) : Option (State N R C P) :=
  if (st.pruned j.shot).exists' then some st
  else
    match loadAll st.clean j.neighbors with
    | none => some st
    | some [] => none
    | some (v :: vs) => some (savePruned w st j (v :: vs))

/-- `parallel_map(task, arguments)` (context.py:47-67), the tasks in some order. -/
def phase (task : State N R C P → Job N → Option (State N R C P)) : List (Job N) → State N R C P → Option (State N R C P)
  | [], st => some st
  | j :: js, st => (task st j).bind (phase task js)

/-- The jobs (dense.py:40-43, 49-51, 56-58): shots that have a neighbor besides themselves. -/
def jobs (shots : List (Job N)) : List (Job N) := shots.filter (fun j => decide (1 < j.neighbors.length))

/-- `compute_depthmaps` (dense.py:38-60) up to merging, the jobs of the three phases in the orders `l1`, `l2`, `l3`. -/
def run (w : Work N R C P) (l1 l2 l3 : List (Job N)) (st : State N R C P) : Option (State N R C P) :=
  ((phase (rawTask w) l1 st).bind (phase (cleanTask w) l2)).bind (phase (pruneTask w) l3)

/-- `merge_depthmaps` (dense.py:267-276) before concatenating: the clouds of the shots that have one. `none`: an
exception, that nothing catches. -/
def merge (st : State N R C P) (shots : List N) : Option (List (N × P)) := loadAll st.pruned shots

end

end Verif.DenseStage
