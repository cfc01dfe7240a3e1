import Mathlib.Data.Rat.Floor
import Mathlib.Data.List.Basic
import Mathlib.Logic.Relation

/-!
# Parallel map

`/repo/opensfm/context.py`: `parallel_map`, `processes_that_fit_in_memory`. The thread pool of joblib is a transition system: the arguments are cut in
batches (in any way that respects the largest batch size), workers take the batches in order, at most `num_proc` at a time, run the calls of a
batch one after the other, and store its results at the index of the batch; the steps of different workers are interleaved in any way. After a call
raises, the other batches may go on or not.
-/
namespace Verif.ParallelMap

variable {T R E : Type}

/-- `num_proc = min(num_proc, len(args))` (context.py:55). -/
def procs (numProc : ℤ) (n : ℕ) : ℤ := min numProc n

/-- `batch_size` (context.py:60-63); a `max_batch_size` of zero is none. -/
def batchSize (n : ℕ) (p : ℤ) (maxBatch : ℕ) : ℕ :=
  let b := max 1 (n / (p.toNat * 2))
  if maxBatch ≠ 0 then min b maxBatch else b

/-- How joblib may cut the arguments: batches in order, none empty, none larger than `batch_size` (context.py:64). -/
structure IsBatches (b : ℕ) (args : List T) (bs : List (List T)) : Prop where
  all : bs.flatten = args
  nonempty : ∀ x ∈ bs, x ≠ []
  size : ∀ x ∈ bs, x.length ≤ b

/-- A batch that a worker runs: its index, the calls to make, the results. -/
structure Running (T R : Type) where
  index : ℕ
  rest : List T
  results : List R

/-- The state of the pool: the next batch, those that run, the results by index, the calls made (in the order in which they are made) and the
exceptions (context.py:59-64). -/
structure Pool (T R E : Type) where
  next : ℕ
  running : List (Running T R)
  finished : List (ℕ × List R)
  calls : List T
  raised : List E

/-- The pool before anything runs (context.py:59). -/
def Pool.start : Pool T R E := ⟨0, [], [], [], []⟩

/-- A step of some worker (context.py:59-64). -/
inductive Step (f : T → Except E R) (p : ℤ) (bs : List (List T)) : Pool T R E → Pool T R E → Prop
  /-- A free worker takes the next batch. -/
  | take (s : Pool T R E) (batch : List T) : bs[s.next]? = some batch → (s.running.length : ℤ) < p →
      Step f p bs s { s with next := s.next + 1, running := s.running ++ [⟨s.next, batch, []⟩] }
  /-- A call returns. -/
  | call (s : Pool T R E) (before after : List (Running T R)) (i : ℕ) (x : T) (rest : List T) (res : List R) (r : R) :
      s.running = before ++ ⟨i, x :: rest, res⟩ :: after → f x = .ok r →
      Step f p bs s { s with running := before ++ ⟨i, rest, res ++ [r]⟩ :: after, calls := s.calls ++ [x] }
  /-- A call raises: its batch ends. -/
  | raise (s : Pool T R E) (before after : List (Running T R)) (i : ℕ) (x : T) (rest : List T) (res : List R) (e : E) :
      s.running = before ++ ⟨i, x :: rest, res⟩ :: after → f x = .error e →
      Step f p bs s { s with running := before ++ after, calls := s.calls ++ [x], raised := s.raised ++ [e] }
  /-- A batch without more calls stores its results. -/
  | finish (s : Pool T R E) (before after : List (Running T R)) (i : ℕ) (res : List R) :
      s.running = before ++ ⟨i, [], res⟩ :: after →
      Step f p bs s { s with running := before ++ after, finished := s.finished ++ [(i, res)] }

/-- The states the pool can be in. -/
def Reachable (f : T → Except E R) (p : ℤ) (bs : List (List T)) (s : Pool T R E) : Prop :=
  Relation.ReflTransGen (Step f p bs) Pool.start s

/-- The results of batch `i`. -/
def Pool.resultsOf (s : Pool T R E) (i : ℕ) : List R :=
  match s.finished.find? fun e => e.1 = i with
  | some e => e.2
  | none => []

/-- The results in the order of the batches (context.py:64). -/
def Pool.results (s : Pool T R E) (n : ℕ) : List R := (List.range n).flatMap s.resultsOf

/-- `list(map(func, args))` (context.py:57): the result and the calls made. -/
def sequential (f : T → Except E R) : List T → Except E (List R) × List T
  | [] => (.ok [], [])
  | x :: t =>
    match f x with
    | .error e => (.error e, [x])
    | .ok r =>
      match sequential f t with
      | (.error e, c) => (.error e, x :: c)
      | (.ok rs, c) => (.ok (r :: rs), x :: c)

/-- `cv2.setNumThreads(threads_used)`, which an exception jumps over (context.py:66). -/
def threadsAfter (threads : ℕ) : Except E (List R) → ℕ
  | .error _ => 0
  | .ok _ => threads

/-- The possible outcomes of `parallel_map` (context.py:47-67): the number of OpenCV threads after it, the result and the calls made. -/
inductive Outcome (f : T → Except E R) (args : List T) (numProc : ℤ) (maxBatch threads : ℕ) : ℕ → Except E (List R) → List T → Prop
  | sequential : procs numProc args.length ≤ 1 →
      Outcome f args numProc maxBatch threads (threadsAfter threads (sequential f args).1) (sequential f args).1 (sequential f args).2
  | parallel (bs : List (List T)) (s : Pool T R E) : ¬ procs numProc args.length ≤ 1 →
      IsBatches (batchSize args.length (procs numProc args.length) maxBatch) args bs →
      Reachable f (procs numProc args.length) bs s → s.next = bs.length → s.running = [] → s.raised = [] →
      Outcome f args numProc maxBatch threads (threadsAfter (E := E) threads (.ok (s.results bs.length))) (.ok (s.results bs.length)) s.calls
  | failed (bs : List (List T)) (s : Pool T R E) (e : E) : ¬ procs numProc args.length ≤ 1 →
      IsBatches (batchSize args.length (procs numProc args.length) maxBatch) args bs →
      Reachable f (procs numProc args.length) bs s → e ∈ s.raised →
      Outcome f args numProc maxBatch threads (threadsAfter (R := R) threads (.error e)) (.error e) s.calls

/-- `processes_that_fit_in_memory` (context.py:129-136): `available` is `memory_available()`. -/
def processesThatFit (available : Option ℕ) (desired : ℤ) (perProcess : ℕ) : ℤ :=
  match available with
  | none => desired
  | some a => min desired (max 1 ⌊(a : ℚ) / perProcess⌋)

end Verif.ParallelMap
