import Mathlib.Data.List.Basic

/-!
Model of the parallel feature extraction, /repo/opensfm/features_processing.py and of
`parallel_map` (/repo/opensfm/context.py:47-67, threading backend of joblib).

Threads are interleaved: one step is one queue operation, one counter operation, one call of
`detect` or one start of a task by the thread pool. Not modelled: the exceptions of `load_image` and
`detect`, the 600 s timeout of `queue.put` (201; a queue that stays full that long raises), float
rounding of `math.ceil(a / b)` (exact below 2^53).
-/
namespace Verif.FeatureQueue

variable {Img : Type}

/-- Where a thread is. -/
inductive Worker (Img : Type)
  /-- `read_images`, head of the `for image in images` loop (191): the images not read yet -/
  | reading (todo : List Img)
  /-- before `counter.increment()` (202) -/
  | incrementing (todo : List Img)
  /-- before `counter.value() == expected` (203) -/
  | checking (todo : List Img)
  /-- before `queue.put(None)` (205) -/
  | finishing (todo : List Img)
  /-- `run_detection`, before `queue.get()` (210) -/
  | getting
  /-- before `detect(image, ..)` (215) -/
  | detecting (img : Img)
  /-- before `queue.put(None)` (212) -/
  | handingOver
  /-- `read_images` has returned -/
  | readDone
  /-- `run_detection` has returned -/
  | detectDone
deriving DecidableEq

/-- What the threads share: the queue, the `Counter` (151-169: the next number of
`itertools.count()` and `number_of_read`) and the images `detect` was called on, in order. -/
structure Shared (Img : Type) where
  queue : List (Option Img)
  next : Nat
  numberOfRead : Nat
  detected : List Img
deriving DecidableEq

/-- Room in a `queue.Queue(cap)`: `cap = 0` is unbounded. -/
def room (cap : Nat) (q : List (Option Img)) : Bool := cap = 0 ∨ q.length < cap

/-- `Counter.value()` (165-169). The read and the subtraction happen under `read_lock`, and
`number_of_read` only changes under that lock, so the call is one step at `next(self.counter)`. -/
def counterValue (s : Shared Img) : Int × Shared Img :=
  ((s.next : Int) - s.numberOfRead, { s with next := s.next + 1, numberOfRead := s.numberOfRead + 1 })

/-- `Counter.increment()` (162-163). -/
def counterIncrement (s : Shared Img) : Shared Img := { s with next := s.next + 1 }

/-- The next operation of a thread; `none` when it is blocked or has returned
(`read_images` 182-205, `run_detection` 208-218). -/
def workerStep (cap expected : Nat) (s : Shared Img) : Worker Img → Option (Shared Img × Worker Img)
  | .reading [] => some (s, .readDone)
  | .reading (img :: rest) =>
    if room cap s.queue then some ({ s with queue := s.queue ++ [some img] }, .incrementing rest)
    else none
  | .incrementing rest => some (counterIncrement s, .checking rest)
  | .checking rest =>
    some ((counterValue s).2,
      if (counterValue s).1 = expected then .finishing rest else .reading rest)
  | .finishing rest =>
    if room cap s.queue then some ({ s with queue := s.queue ++ [none] }, .reading rest) else none
  | .getting =>
    match s.queue with
    | [] => none
    | none :: q => some ({ s with queue := q }, .handingOver)
    | some img :: q => some ({ s with queue := q }, .detecting img)
  | .detecting img => some ({ s with detected := s.detected ++ [img] }, .getting)
  | .handingOver =>
    if room cap s.queue then some ({ s with queue := s.queue ++ [none] }, .detectDone) else none
  | .readDone => none
  | .detectDone => none

/-- A state of the whole run: the tasks started, those not started yet (in order). -/
structure St (Img : Type) where
  started : List (Worker Img)
  pending : List (Worker Img)
  shared : Shared Img
deriving DecidableEq

/-- The task has returned. -/
def Worker.isDone : Worker Img → Bool
  | .readDone => true
  | .detectDone => true
  | _ => false

/-- Threads in use. -/
def busy (l : List (Worker Img)) : Nat := l.countP (fun w => !w.isDone)

/-- One step: the pool of `processes` threads starts the next task if a thread is free
(context.py:59-64; joblib dispatches the tasks in order), or thread `i` makes a step. -/
inductive Step (cap expected processes : Nat) : St Img → St Img → Prop
  | start (s : St Img) (w : Worker Img) (rest : List (Worker Img)) (hp : s.pending = w :: rest)
      (hb : busy s.started < processes) :
      Step cap expected processes s { s with started := s.started ++ [w], pending := rest }
  | work (pre post : List (Worker Img)) (w w' : Worker Img) (pending : List (Worker Img))
      (sh sh' : Shared Img) (h : workerStep cap expected sh w = some (sh', w')) :
      Step cap expected processes ⟨pre ++ w :: post, pending, sh⟩ ⟨pre ++ w' :: post, pending, sh'⟩

/-- Executions. -/
inductive Reach (cap expected processes : Nat) (s0 : St Img) : Nat → St Img → Prop
  | refl : Reach cap expected processes s0 0 s0
  | step {n : Nat} {s s' : St Img} : Reach cap expected processes s0 n s →
      Step cap expected processes s s' → Reach cap expected processes s0 (n + 1) s'

/-- `math.ceil(a / b)`. -/
def ceilDiv (a b : Nat) : Nat := (a + b - 1) / b

/-- Number of reading threads before looking at the images (90-92). -/
def readProcesses (config processes : Nat) : Nat :=
  if 3 * config ≥ 2 * processes then max 1 (processes / 2) else config

/-- The chunks given to the producers (94-100). With no image `chunk_size` is 0 and line 95 raises
ZeroDivisionError; so does line 94 with no reading thread: `none`. -/
def chunks (images : List Img) (config processes : Nat) : Option (List (List Img)) :=
  let rp := readProcesses config processes
  if rp = 0 then none
  else
    let chunkSize := ceilDiv images.length rp
    if chunkSize = 0 then none
    else
      let rp' := min rp (ceilDiv images.length chunkSize)
      some ((List.range rp').map (fun i => (images.drop (i * chunkSize)).take chunkSize))

/-- The state in which `parallel_map` starts (98-109): producers first, then `processes`
consumers. -/
def initSt (chs : List (List Img)) (processes : Nat) : St Img :=
  ⟨[], chs.map .reading ++ List.replicate processes .getting, ⟨[], 0, 0, []⟩⟩

/-- Run a single thread until it returns or blocks; `none` if it blocks. -/
def runAlone (cap expected : Nat) : Nat → Shared Img → Worker Img → Option (Shared Img)
  | 0, _, _ => none
  | fuel + 1, s, w =>
    if w.isDone then some s
    else
      match workerStep cap expected s w with
      | none => none
      | some (s', w') => runAlone cap expected fuel s' w'

/-- One turn of the loop of lines 83-87 (`processes == 1`): a new counter, `read_images` of one
image, `run_detection`, and `process_queue.get()` of the sentinel. Ten steps are enough for either
call (theorem `C31_sequential` shows that only blocking gives `none`). -/
def sequentialTurn (cap : Nat) (q : List (Option Img)) (img : Img) :
    Option (List (Option Img) × List Img) :=
  match runAlone cap 1 10 ⟨q, 0, 0, []⟩ (.reading [img]) with
  | none => none
  | some s1 =>
    match runAlone cap 1 10 s1 .getting with
    | none => none
    | some s2 =>
      match s2.queue with
      | [] => none
      | _ :: q' => some (q', s2.detected)

/-- The loop of lines 83-87: what was detected, or `none` if a queue operation blocks for ever. -/
def sequential (cap : Nat) : List (Option Img) → List Img → Option (List Img)
  | _, [] => some []
  | q, img :: rest =>
    match sequentialTurn cap q img with
    | none => none
    | some (q', d) =>
      match sequential cap q' rest with
      | none => none
      | some ds => some (d ++ ds)

end Verif.FeatureQueue
