import Verif.Model.FeatureQueue
import Mathlib.Algebra.BigOperators.Group.Multiset.Basic
import Mathlib.Tactic.Abel
import Mathlib.Tactic.Linarith
import Mathlib.Tactic.Ring
import Mathlib.Algebra.BigOperators.Group.List.Basic

/-!
Properties C30 (each image detected exactly once), C31 (no deadlock, termination) and C32 (chunks).
-/
set_option linter.unusedSectionVars false
set_option linter.unusedSimpArgs false
namespace Verif.FeatureQueue

variable {Img : Type}

/-! ### C32 -/

theorem ceilDiv_spec (a b : Nat) (hb : 0 < b) : a ≤ b * ceilDiv a b ∧ b * ceilDiv a b < a + b := by
  unfold ceilDiv
  have h1 := Nat.div_add_mod (a + b - 1) b
  have h2 := Nat.mod_lt (a + b - 1) hb
  constructor <;> omega

theorem readProcesses_spec (config processes : Nat) (hc : 1 ≤ config) (hp : 2 ≤ processes) :
    1 ≤ readProcesses config processes ∧ readProcesses config processes ≤ config ∧
    readProcesses config processes < processes := by
  unfold readProcesses
  split <;> omega

theorem flatten_chunks (n : Nat) (images : List Img) (c : Nat) :
    ((List.range n).map (fun i => (images.drop (i * c)).take c)).flatten = images.take (n * c) := by
  induction n with
  | zero => simp
  | succ n ih =>
    rw [List.range_succ, List.map_append, List.flatten_append, ih]
    simp only [List.map_cons, List.map_nil, List.flatten_cons, List.flatten_nil, List.append_nil]
    rw [Nat.succ_mul, List.take_add]

/-- The chunks concatenate to the image list, none is empty, there are at most `read_processes` of
them, and strictly fewer than `processes`. -/
theorem C32_chunks (images : List Img) (config processes : Nat) (hi : images ≠ [])
    (hc : 1 ≤ config) (hp : 2 ≤ processes) :
    ∃ chs, chunks images config processes = some chs ∧ chs.flatten = images ∧
      (∀ c ∈ chs, c ≠ []) ∧ chs.length ≤ config ∧ 1 ≤ chs.length ∧ chs.length < processes := by
  obtain ⟨r1, r2, r3⟩ := readProcesses_spec config processes hc hp
  have hn : 0 < images.length := List.length_pos_iff.2 hi
  unfold chunks
  generalize readProcesses config processes = rp at r1 r2 r3
  obtain ⟨s1, s2⟩ := ceilDiv_spec images.length rp (by omega)
  have hcs : 0 < ceilDiv images.length rp := by
    rcases Nat.eq_zero_or_pos (ceilDiv images.length rp) with h | h
    · rw [h] at s1; omega
    · exact h
  simp only [show rp ≠ 0 by omega, show ceilDiv images.length rp ≠ 0 by omega, if_false]
  generalize ceilDiv images.length rp = cs at *
  obtain ⟨t1, t2⟩ := ceilDiv_spec images.length cs hcs
  generalize ceilDiv images.length cs = m at *
  have hm : m ≤ rp := by
    by_contra h
    have h' : rp + 1 ≤ m := by omega
    have : cs * (rp + 1) ≤ cs * m := Nat.mul_le_mul_left _ h'
    have e : cs * (rp + 1) = rp * cs + cs := by ring
    omega
  have hm1 : 1 ≤ m := by
    rcases Nat.eq_zero_or_pos m with h | h
    · rw [h] at t1; omega
    · exact h
  have hmin : min rp m = m := by omega
  rw [hmin]
  refine ⟨_, rfl, ?_, ?_, by simp; omega, by simp; omega, by simp; omega⟩
  · rw [flatten_chunks, List.take_of_length_le]
    rw [Nat.mul_comm]; omega
  · intro c hcmem
    obtain ⟨i, hi', rfl⟩ := List.mem_map.1 hcmem
    have hlt : i < m := List.mem_range.1 hi'
    have hle : cs * (i + 1) ≤ cs * m := Nat.mul_le_mul_left _ hlt
    have e : cs * (i + 1) = i * cs + cs := by ring
    intro h0
    have hl := congrArg List.length h0
    simp only [List.length_take, List.length_drop, List.length_nil] at hl
    omega

/-- Ten images, four reading threads wanted: 3 + 3 + 3 + 1. -/
example : chunks (List.range 10) 4 8 = some [[0, 1, 2], [3, 4, 5], [6, 7, 8], [9]] := by decide
/-- Six images over four threads: chunks of two, so only three threads. -/
example : chunks (List.range 6) 4 8 = some [[0, 1], [2, 3], [4, 5]] := by decide

/-! ### Invariant -/

namespace Worker

/-- Images the thread still has to put. -/
def todo : Worker Img → Multiset Img
  | reading l => l
  | incrementing l => l
  | checking l => l
  | finishing l => l
  | _ => 0

/-- The image being detected. -/
def held : Worker Img → Multiset Img
  | detecting i => {i}
  | _ => 0

def isInc : Worker Img → Nat
  | incrementing _ => 1
  | _ => 0

def isCheck : Worker Img → Nat
  | checking _ => 1
  | _ => 0

/-- Sentinels in the hands of the thread. -/
def sent : Worker Img → Nat
  | finishing _ => 1
  | handingOver => 1
  | _ => 0

/-- The thread can still create a sentinel. -/
def mayGen : Worker Img → Nat
  | reading [] => 0
  | reading _ => 1
  | incrementing _ => 1
  | checking _ => 1
  | _ => 0

/-- The thread has seen a sentinel. -/
def popped : Worker Img → Nat
  | handingOver => 1
  | detectDone => 1
  | _ => 0

/-- The thread runs `run_detection`. -/
def cons : Worker Img → Nat
  | getting => 1
  | detecting _ => 1
  | handingOver => 1
  | detectDone => 1
  | _ => 0

/-- Steps left, roughly. -/
def weight : Worker Img → Nat
  | reading l => 10 * l.length + 1
  | incrementing l => 10 * l.length + 5
  | checking l => 10 * l.length + 4
  | finishing l => 10 * l.length + 3
  | getting => 3
  | detecting _ => 4
  | handingOver => 2
  | readDone => 0
  | detectDone => 0

end Worker

def tot {M : Type} [AddCommMonoid M] (f : Worker Img → M) (l : List (Worker Img)) : M := (l.map f).sum

theorem tot_append {M : Type} [AddCommMonoid M] (f : Worker Img → M) (l l' : List (Worker Img)) :
    tot f (l ++ l') = tot f l + tot f l' := by simp [tot]
theorem tot_cons {M : Type} [AddCommMonoid M] (f : Worker Img → M) (w) (l : List (Worker Img)) :
    tot f (w :: l) = f w + tot f l := by simp [tot]
theorem tot_nil {M : Type} [AddCommMonoid M] (f : Worker Img → M) :
    tot f ([] : List (Worker Img)) = 0 := by simp [tot]

theorem tot_pos_of_mem (f : Worker Img → Nat) (l : List (Worker Img)) (w) (h : w ∈ l) :
    f w ≤ tot f l := by
  obtain ⟨a, b, rfl⟩ := List.append_of_mem h
  rw [tot_append, tot_cons]; omega

theorem tot_eq_zero {M : Type} [AddCommMonoid M] (f : Worker Img → M) (l : List (Worker Img))
    (h : ∀ w ∈ l, f w = 0) : tot f l = 0 := by
  induction l with
  | nil => exact tot_nil f
  | cons w l ih =>
    rw [tot_cons, h w List.mem_cons_self, ih (fun w hw => h w (List.mem_cons_of_mem _ hw)), add_zero]

/-- Images and sentinels of a queue. -/
def imgs (q : List (Option Img)) : Multiset Img := (q.filterMap id : List Img)
def nones (q : List (Option Img)) : Nat := q.countP (·.isNone)

/-- No image behind a sentinel. -/
def Shape (q : List (Option Img)) : Prop := q.Pairwise (fun a b => a.isNone → b.isNone)

/-- The invariant. `n` images in all, `r` producers, `W` all tasks. -/
structure Inv (images : Multiset Img) (r c : Nat) (W : List (Worker Img)) (sh : Shared Img) : Prop where
  count : tot Worker.todo W + imgs sh.queue + tot Worker.held W + (sh.detected : Multiset Img) = images
  counter : sh.next + tot Worker.isInc W + (tot Worker.todo W).card = images.card + sh.numberOfRead
  shape : Shape sh.queue
  sentinel : 1 ≤ nones sh.queue + tot Worker.sent W + tot Worker.popped W →
    tot Worker.todo W = 0 ∧ tot Worker.isInc W = 0
  popped : 1 ≤ tot Worker.popped W → imgs sh.queue = 0
  bound : nones sh.queue + tot Worker.sent W + tot Worker.mayGen W ≤ r
  created : tot Worker.todo W = 0 → tot Worker.isInc W = 0 → tot Worker.isCheck W = 0 →
    1 ≤ nones sh.queue + tot Worker.sent W
  consumers : tot Worker.cons W = c

theorem imgs_append (a b : List (Option Img)) : imgs (a ++ b) = imgs a + imgs b := by
  simp [imgs, List.filterMap_append]
theorem nones_append (a b : List (Option Img)) : nones (a ++ b) = nones a + nones b := by
  simp [nones]

@[simp] theorem nones_some (x : Img) : nones [some x] = 0 := rfl
@[simp] theorem nones_none : nones [(none : Option Img)] = 1 := rfl
theorem add_eq_zero_iff' {A B : Multiset Img} : A + B = 0 ↔ A = 0 ∧ B = 0 := by
  rw [← Multiset.card_eq_zero, ← Multiset.card_eq_zero, ← Multiset.card_eq_zero, Multiset.card_add]
  omega

theorem shape_snoc_none (q : List (Option Img)) (h : Shape q) : Shape (q ++ [none]) := by
  unfold Shape at *
  rw [List.pairwise_append]
  exact ⟨h, by simp, by simp⟩

theorem shape_snoc_some (q : List (Option Img)) (x : Img) (h : Shape q) (hn : nones q = 0) :
    Shape (q ++ [some x]) := by
  unfold Shape at *
  rw [List.pairwise_append]
  refine ⟨h, by simp, ?_⟩
  intro a ha b hb hna
  unfold nones at hn
  rw [List.countP_eq_zero] at hn
  exact absurd hna (hn a ha)

theorem todo_zero_nil {l : List Img} {A B : Multiset Img} (h : A + ((l : Multiset Img) + B) = 0) :
    l = [] ∧ A = 0 ∧ B = 0 := by
  rw [add_eq_zero_iff'] at h
  obtain ⟨h1, h2⟩ := h
  rw [add_eq_zero_iff'] at h2
  exact ⟨by simpa using h2.1, h1, h2.2⟩

theorem inv_work {cap : Nat} {images : Multiset Img} {r c : Nat} {pre post : List (Worker Img)}
    {w w' : Worker Img} {sh sh' : Shared Img}
    (hI : Inv images r c (pre ++ w :: post) sh)
    (h : workerStep cap images.card sh w = some (sh', w')) :
    Inv images r c (pre ++ w' :: post) sh' := by
  obtain ⟨i1, i2, i3, i4, i5, i6, i7, i8⟩ := hI
  simp only [tot_append, tot_cons] at i1 i2 i4 i5 i6 i7 i8
  cases w with
  | reading l =>
    cases l with
    | nil =>
      simp only [workerStep, Option.some.injEq, Prod.mk.injEq] at h
      obtain ⟨rfl, rfl⟩ := h
      simp only [Worker.todo, Worker.held, Worker.isInc, Worker.isCheck, Worker.sent,
        Worker.mayGen, Worker.popped, Worker.cons] at i1 i2 i4 i5 i6 i7 i8
      constructor <;> (try simp only [tot_append, tot_cons, Worker.todo,
          Worker.held, Worker.isInc, Worker.isCheck, Worker.sent, Worker.mayGen, Worker.popped,
          Worker.cons]) <;> assumption
    | cons img rest =>
      simp only [workerStep] at h
      split at h
      · simp only [Option.some.injEq, Prod.mk.injEq] at h
        obtain ⟨rfl, rfl⟩ := h
        simp only [Worker.todo, Worker.held, Worker.isInc, Worker.isCheck, Worker.sent,
          Worker.mayGen, Worker.popped, Worker.cons] at i1 i2 i4 i5 i6 i7 i8
        have hz : ¬ 1 ≤ nones sh.queue + (tot Worker.sent pre + (0 + tot Worker.sent post)) +
            (tot Worker.popped pre + (0 + tot Worker.popped post)) := by
          intro h1
          have := (todo_zero_nil (i4 h1).1).1
          cases this
        constructor <;> simp only [tot_append, tot_cons, imgs_append, nones_append, Worker.todo,
          Worker.held, Worker.isInc, Worker.isCheck, Worker.sent, Worker.mayGen, Worker.popped,
          Worker.cons]
        · rw [← i1, ← Multiset.cons_coe, ← Multiset.singleton_add]
          simp only [imgs, List.filterMap_cons, id, List.filterMap_nil, Multiset.coe_singleton]
          abel
        · rw [← Multiset.cons_coe, ← Multiset.singleton_add] at i2
          simp only [Multiset.card_add, Multiset.card_singleton] at i2 ⊢
          omega
        · exact shape_snoc_some _ _ i3 (by omega)
        · intro h1
          simp only [nones_some] at h1
          omega
        · intro h1; omega
        · simp only [nones_some]; omega
        · intro _ h2; omega
        · exact i8
      · cases h
  | incrementing l =>
    simp only [workerStep, Option.some.injEq, Prod.mk.injEq, counterIncrement] at h
    obtain ⟨rfl, rfl⟩ := h
    simp only [Worker.todo, Worker.held, Worker.isInc, Worker.isCheck, Worker.sent,
      Worker.mayGen, Worker.popped, Worker.cons] at i1 i2 i4 i5 i6 i7 i8
    constructor <;> simp only [tot_append, tot_cons, imgs_append, nones_append, Worker.todo,
      Worker.held, Worker.isInc, Worker.isCheck, Worker.sent, Worker.mayGen, Worker.popped,
      Worker.cons]
    · exact i1
    · omega
    · exact i3
    · intro h1; have := (i4 h1).2; omega
    · exact i5
    · exact i6
    · intro _ _ h3; omega
    · exact i8
  | checking l =>
    simp only [workerStep, Option.some.injEq, Prod.mk.injEq] at h
    obtain ⟨rfl, rfl⟩ := h
    simp only [Worker.todo, Worker.held, Worker.isInc, Worker.isCheck, Worker.sent,
      Worker.mayGen, Worker.popped, Worker.cons] at i1 i2 i4 i5 i6 i7 i8
    by_cases hv : (counterValue sh).1 = images.card
    · rw [if_pos hv]
      simp only [counterValue] at hv ⊢
      have hc0 : tot Worker.isInc pre + (0 + tot Worker.isInc post) = 0 := by omega
      have hc1 : (tot Worker.todo pre + ((l : Multiset Img) + tot Worker.todo post)) = 0 := by
        apply Multiset.card_eq_zero.1; omega
      obtain ⟨rfl, ha, hb⟩ := todo_zero_nil hc1
      constructor <;> simp only [tot_append, tot_cons, imgs_append, nones_append, Worker.todo,
        Worker.held, Worker.isInc, Worker.isCheck, Worker.sent, Worker.mayGen, Worker.popped,
        Worker.cons]
      · exact i1
      · omega
      · exact i3
      · intro _; exact ⟨hc1, hc0⟩
      · exact i5
      · omega
      · intro _ _ _; omega
      · exact i8
    · rw [if_neg hv]
      simp only [counterValue] at hv ⊢
      have hne : (tot Worker.todo pre + ((l : Multiset Img) + tot Worker.todo post)) = 0 →
          tot Worker.isInc pre + (0 + tot Worker.isInc post) = 0 → False := by
        intro h1 h2
        rw [h1] at i2
        simp only [Multiset.card_zero] at i2
        omega
      constructor <;> simp only [tot_append, tot_cons, imgs_append, nones_append, Worker.todo,
        Worker.held, Worker.isInc, Worker.isCheck, Worker.sent, Worker.popped,
        Worker.cons]
      · exact i1
      · omega
      · exact i3
      · exact i4
      · exact i5
      · have : Worker.mayGen (Worker.reading l) ≤ 1 := by cases l <;> simp [Worker.mayGen]
        omega
      · intro h1 h2 _; exact (hne h1 h2).elim
      · exact i8
  | finishing l =>
    simp only [workerStep] at h
    split at h
    · simp only [Option.some.injEq, Prod.mk.injEq] at h
      obtain ⟨rfl, rfl⟩ := h
      simp only [Worker.todo, Worker.held, Worker.isInc, Worker.isCheck, Worker.sent,
        Worker.mayGen, Worker.popped, Worker.cons] at i1 i2 i4 i5 i6 i7 i8
      obtain ⟨z1, z2⟩ := i4 (by omega)
      obtain ⟨rfl, ha, hb⟩ := todo_zero_nil z1
      constructor <;> simp only [tot_append, tot_cons, imgs_append, nones_append, Worker.todo,
        Worker.held, Worker.isInc, Worker.isCheck, Worker.sent, Worker.mayGen, Worker.popped,
        Worker.cons]
      · rw [← i1]; simp [imgs]
      · exact i2
      · exact shape_snoc_none _ i3
      · intro _; exact ⟨z1, z2⟩
      · intro h1; rw [i5 h1]; simp [imgs]
      · simp only [nones_none]; omega
      · intro _ _ _; simp only [nones_none]; omega
      · exact i8
    · cases h
  | getting =>
    simp only [workerStep] at h
    split at h
    · cases h
    · rename_i q hq
      simp only [Option.some.injEq, Prod.mk.injEq] at h
      obtain ⟨rfl, rfl⟩ := h
      rw [hq] at i1 i3 i4 i5 i6 i7
      have hall : ∀ b ∈ q, b.isNone := by
        have := (List.pairwise_cons.1 i3).1
        intro b hb; exact this b hb rfl
      have him : imgs q = 0 := by
        unfold imgs
        have : q.filterMap id = [] := by
          rw [List.filterMap_eq_nil_iff]
          intro a ha
          have := hall a ha
          simpa using this
        rw [this]; rfl
      have hn : nones (none :: q) = nones q + 1 := by simp [nones]
      have hm : imgs (none :: q) = imgs q := by simp [imgs]
      simp only [Worker.todo, Worker.held, Worker.isInc, Worker.isCheck, Worker.sent,
        Worker.mayGen, Worker.popped, Worker.cons, hn, hm] at i1 i2 i4 i5 i6 i7 i8
      constructor <;> simp only [tot_append, tot_cons, imgs_append, nones_append, Worker.todo,
        Worker.held, Worker.isInc, Worker.isCheck, Worker.sent, Worker.mayGen, Worker.popped,
        Worker.cons]
      · exact i1
      · exact i2
      · exact (List.pairwise_cons.1 i3).2
      · intro _; exact i4 (by omega)
      · intro _; exact him
      · omega
      · intro a b c; have := i7 a b c; omega
      · exact i8
    · rename_i img q hq
      simp only [Option.some.injEq, Prod.mk.injEq] at h
      obtain ⟨rfl, rfl⟩ := h
      rw [hq] at i1 i3 i4 i5 i6 i7
      have hn : nones (some img :: q) = nones q := by simp [nones]
      have hm : imgs (some img :: q) = {img} + imgs q := by
        simp [imgs]
      simp only [Worker.todo, Worker.held, Worker.isInc, Worker.isCheck, Worker.sent,
        Worker.mayGen, Worker.popped, Worker.cons, hn, hm] at i1 i2 i4 i5 i6 i7 i8
      constructor <;> simp only [tot_append, tot_cons, imgs_append, nones_append, Worker.todo,
        Worker.held, Worker.isInc, Worker.isCheck, Worker.sent, Worker.mayGen, Worker.popped,
        Worker.cons]
      · rw [← i1]; abel
      · exact i2
      · exact (List.pairwise_cons.1 i3).2
      · exact i4
      · intro h1; exact (add_eq_zero_iff'.1 (i5 h1)).2
      · exact i6
      · exact i7
      · exact i8
  | detecting img =>
    simp only [workerStep, Option.some.injEq, Prod.mk.injEq] at h
    obtain ⟨rfl, rfl⟩ := h
    simp only [Worker.todo, Worker.held, Worker.isInc, Worker.isCheck, Worker.sent,
      Worker.mayGen, Worker.popped, Worker.cons] at i1 i2 i4 i5 i6 i7 i8
    constructor <;> simp only [tot_append, tot_cons, imgs_append, nones_append, Worker.todo,
      Worker.held, Worker.isInc, Worker.isCheck, Worker.sent, Worker.mayGen, Worker.popped,
      Worker.cons]
    · rw [← i1, ← Multiset.coe_add, Multiset.coe_singleton]; abel
    all_goals assumption
  | handingOver =>
    simp only [workerStep] at h
    split at h
    · simp only [Option.some.injEq, Prod.mk.injEq] at h
      obtain ⟨rfl, rfl⟩ := h
      simp only [Worker.todo, Worker.held, Worker.isInc, Worker.isCheck, Worker.sent,
        Worker.mayGen, Worker.popped, Worker.cons] at i1 i2 i4 i5 i6 i7 i8
      constructor <;> simp only [tot_append, tot_cons, imgs_append, nones_append, Worker.todo,
        Worker.held, Worker.isInc, Worker.isCheck, Worker.sent, Worker.mayGen, Worker.popped,
        Worker.cons]
      · rw [← i1]; simp [imgs]
      · exact i2
      · exact shape_snoc_none _ i3
      · intro _; exact i4 (by omega)
      · intro h1; rw [i5 h1]; simp [imgs]
      · simp only [nones_none]; omega
      · intro _ _ _; simp only [nones_none]; omega
      · exact i8
    · cases h
  | readDone => simp [workerStep] at h
  | detectDone => simp [workerStep] at h

theorem inv_start {images : Multiset Img} {r c : Nat} {W W' : List (Worker Img)} {sh : Shared Img}
    (hp : W = W') (hI : Inv images r c W sh) : Inv images r c W' sh := hp ▸ hI

/-- All tasks of a state. -/
def St.all (s : St Img) : List (Worker Img) := s.started ++ s.pending

theorem inv_step {cap processes : Nat} {images : Multiset Img} {r c : Nat} {s s' : St Img}
    (hI : Inv images r c s.all s.shared) (h : Step cap images.card processes s s') :
    Inv images r c s'.all s'.shared := by
  cases h with
  | start _ w rest hp => refine inv_start ?_ hI; simp [St.all, hp]
  | work pre post w w' pending sh sh' h =>
    simp only [St.all, List.append_assoc, List.cons_append] at hI ⊢
    exact inv_work hI h

theorem tot_todo_readings (chs : List (List Img)) :
    tot Worker.todo (chs.map Worker.reading) = ((chs.flatten : List Img) : Multiset Img) := by
  induction chs with
  | nil => rfl
  | cons c cs ih =>
    rw [List.map_cons, tot_cons, ih, List.flatten_cons, ← Multiset.coe_add]; rfl

theorem tot_zero_readings (f : Worker Img → Nat) (hf : ∀ l, f (.reading l) = 0) (chs : List (List Img)) :
    tot f (chs.map Worker.reading) = 0 := by
  apply tot_eq_zero
  intro w hw
  obtain ⟨c, -, rfl⟩ := List.mem_map.1 hw
  exact hf c

theorem tot_replicate (f : Worker Img → Nat) (n : Nat) (w : Worker Img) :
    tot f (List.replicate n w) = n * f w := by simp [tot]

theorem tot_le_length (f : Worker Img → Nat) (hf : ∀ w, f w ≤ 1) (l : List (Worker Img)) :
    tot f l ≤ l.length := by
  induction l with
  | nil => simp [tot]
  | cons w l ih => rw [tot_cons, List.length_cons]; have := hf w; omega

theorem inv_init (chs : List (List Img)) (processes : Nat) (hne : chs.flatten ≠ []) :
    Inv (chs.flatten : Multiset Img) chs.length processes (initSt chs processes).all
      (initSt chs processes).shared := by
  have hrep0 : tot Worker.todo (List.replicate processes (Worker.getting : Worker Img)) = 0 :=
    tot_eq_zero _ _ (fun w hw => by rw [List.eq_of_mem_replicate hw]; rfl)
  have hrep1 : tot Worker.held (List.replicate processes (Worker.getting : Worker Img)) = 0 :=
    tot_eq_zero _ _ (fun w hw => by rw [List.eq_of_mem_replicate hw]; rfl)
  have hheld : tot Worker.held (chs.map Worker.reading) = 0 := by
    apply tot_eq_zero
    intro w hw
    obtain ⟨c, -, rfl⟩ := List.mem_map.1 hw
    rfl
  have hmay : tot Worker.mayGen (chs.map Worker.reading) ≤ chs.length := by
    have := tot_le_length Worker.mayGen (fun w => by
      cases w with
      | reading l => cases l <;> simp [Worker.mayGen]
      | _ => simp [Worker.mayGen]) (chs.map Worker.reading)
    simpa using this
  constructor <;> simp only [initSt, St.all, List.nil_append, tot_append, hrep0, hrep1, hheld,
    tot_todo_readings, tot_replicate, tot_zero_readings Worker.isInc (fun _ => rfl),
    tot_zero_readings Worker.isCheck (fun _ => rfl), tot_zero_readings Worker.sent (fun _ => rfl),
    tot_zero_readings Worker.popped (fun _ => rfl), tot_zero_readings Worker.cons (fun _ => rfl),
    Worker.isInc, Worker.isCheck, Worker.sent, Worker.popped, Worker.cons, Worker.mayGen]
  · simp [imgs]
  · simp
  · exact List.Pairwise.nil
  · simp [nones]
  · simp
  · simp [nones]; omega
  · intro h
    rw [add_zero, Multiset.coe_eq_zero] at h
    exact absurd h hne
  · simp

theorem reach_inv {cap processes n : Nat} {chs : List (List Img)} {s : St Img}
    (hne : chs.flatten ≠ [])
    (h : Reach cap chs.flatten.length processes (initSt chs processes) n s) :
    Inv (chs.flatten : Multiset Img) chs.length processes s.all s.shared := by
  induction h with
  | refl => exact inv_init chs processes hne
  | step _ hs ih => exact inv_step (cap := cap) (processes := processes) ih (by simpa using hs)

/-- All tasks have been started and have returned. -/
def AllReturned (s : St Img) : Prop := s.pending = [] ∧ ∀ w ∈ s.started, w.isDone = true

theorem chunks_flatten {images : List Img} {config processes : Nat} {chs : List (List Img)}
    (hi : images ≠ []) (hp : 2 ≤ processes) (hch : chunks images config processes = some chs) :
    chs.flatten = images ∧ 1 ≤ chs.length ∧ chs.length < processes := by
  have hc : 1 ≤ config := by
    rcases Nat.eq_zero_or_pos config with rfl | h
    · have : readProcesses 0 processes = 0 := by
        unfold readProcesses; rw [if_neg]; omega
      simp [chunks, this] at hch
    · exact h
  obtain ⟨chs', h1, h2, _, _, h3, h4⟩ := C32_chunks images config processes hi hc hp
  rw [hch] at h1; cases h1
  exact ⟨h2, h3, h4⟩

theorem count_held [DecidableEq Img] (a : Img) (l : List (Worker Img)) :
    Multiset.count a (tot Worker.held l) = l.countP (fun w => w = .detecting a) := by
  induction l with
  | nil => simp [tot]
  | cons w l ih =>
    rw [tot_cons, Multiset.count_add, ih, List.countP_cons]
    cases w <;> simp [Worker.held, Multiset.count_singleton, Nat.add_comm]
    rename_i img
    by_cases h : a = img
    · simp [h]
    · have : ¬ img = a := fun x => h x.symm
      simp [h, this]

/-- In every state of every execution of `read_processes` producers and `processes` consumers on a
queue of any capacity, the images passed to `detect` so far together with those being detected are
part of the image list with their multiplicities: no image is detected more often than it is listed.
When all tasks have returned, the images detected are exactly the images listed. -/
theorem C30_exactly_once [DecidableEq Img] (images : List Img) (config processes cap : Nat)
    (hi : images ≠ []) (hp : 2 ≤ processes) (chs : List (List Img))
    (hch : chunks images config processes = some chs) (n : Nat) (s : St Img)
    (h : Reach cap images.length processes (initSt chs processes) n s) :
    (∀ a, s.shared.detected.count a + s.started.countP (fun w => w = .detecting a) ≤ images.count a) ∧
    (AllReturned s → s.shared.detected.Perm images) := by
  obtain ⟨hfl, hr1, hr2⟩ := chunks_flatten hi hp hch
  subst hfl
  have hI := reach_inv hi h
  have hall : s.all = s.started ++ s.pending := rfl
  constructor
  · intro a
    have hc := congrArg (Multiset.count a) hI.count
    rw [hall, tot_append Worker.held] at hc
    simp only [Multiset.count_add, Multiset.coe_count, count_held] at hc
    omega
  · rintro ⟨hpend, hdone⟩
    rw [hall, hpend, List.append_nil] at hI
    have hz : ∀ {M : Type} [AddCommMonoid M] (f : Worker Img → M), f .readDone = 0 →
        f .detectDone = 0 → tot f s.started = 0 := by
      intro M _ f h1 h2
      apply tot_eq_zero
      intro w hw
      have := hdone w hw
      cases w <;> simp [Worker.isDone] at this
      · exact h1
      · exact h2
    have hpop : tot Worker.popped s.started = tot Worker.cons s.started := by
      unfold tot
      congr 1
      apply List.map_congr_left
      intro w hw
      have := hdone w hw
      cases w <;> simp [Worker.isDone] at this <;> rfl
    have him : imgs s.shared.queue = 0 := hI.popped (by rw [hpop, hI.consumers]; omega)
    have hc := hI.count
    rw [hz Worker.todo rfl rfl, hz Worker.held rfl rfl, him] at hc
    simp only [zero_add, add_zero] at hc
    exact Multiset.coe_eq_coe.1 hc

/-! ### C31 -/

/-- Total weight of a state. -/
def measure (s : St Img) : Nat :=
  tot Worker.weight s.started + tot Worker.weight s.pending + s.pending.length +
    2 * (imgs s.shared.queue).card

theorem measure_step {cap expected processes : Nat} {s s' : St Img}
    (h : Step cap expected processes s s') : measure s' < measure s := by
  cases h with
  | start _ w rest hp =>
    simp only [measure, hp, tot_append, tot_cons, tot_nil, List.length_cons]; omega
  | work pre post w w' pending sh sh' h =>
    simp only [measure, tot_append, tot_cons]
    cases w with
    | reading l =>
      cases l with
      | nil =>
        simp only [workerStep, Option.some.injEq, Prod.mk.injEq] at h
        obtain ⟨rfl, rfl⟩ := h
        simp [Worker.weight]
      | cons img rest =>
        simp only [workerStep] at h
        split at h
        · simp only [Option.some.injEq, Prod.mk.injEq] at h
          obtain ⟨rfl, rfl⟩ := h
          simp only [Worker.weight, List.length_cons, imgs_append, Multiset.card_add]
          simp only [imgs, List.filterMap_cons, id, List.filterMap_nil, Multiset.coe_card,
            List.length_cons, List.length_nil]
          omega
        · cases h
    | incrementing l =>
      simp only [workerStep, Option.some.injEq, Prod.mk.injEq, counterIncrement] at h
      obtain ⟨rfl, rfl⟩ := h
      simp only [Worker.weight]; omega
    | checking l =>
      simp only [workerStep, Option.some.injEq, Prod.mk.injEq] at h
      obtain ⟨rfl, rfl⟩ := h
      by_cases hv : (counterValue sh).1 = expected
      · rw [if_pos hv]; simp only [Worker.weight, counterValue]; omega
      · rw [if_neg hv]; simp only [Worker.weight, counterValue]; omega
    | finishing l =>
      simp only [workerStep] at h
      split at h
      · simp only [Option.some.injEq, Prod.mk.injEq] at h
        obtain ⟨rfl, rfl⟩ := h
        simp only [Worker.weight, imgs_append, Multiset.card_add]
        simp only [imgs, List.filterMap_cons, id, List.filterMap_nil, Multiset.coe_card, List.length_nil]
        omega
      · cases h
    | getting =>
      simp only [workerStep] at h
      split at h
      · cases h
      · rename_i q hq
        simp only [Option.some.injEq, Prod.mk.injEq] at h
        obtain ⟨rfl, rfl⟩ := h
        simp only [Worker.weight, hq, imgs, List.filterMap_cons, id]; omega
      · rename_i img q hq
        simp only [Option.some.injEq, Prod.mk.injEq] at h
        obtain ⟨rfl, rfl⟩ := h
        simp only [Worker.weight, hq, imgs, List.filterMap_cons, id, Multiset.coe_card,
          List.length_cons]; omega
    | detecting img =>
      simp only [workerStep, Option.some.injEq, Prod.mk.injEq] at h
      obtain ⟨rfl, rfl⟩ := h
      simp only [Worker.weight]; omega
    | handingOver =>
      simp only [workerStep] at h
      split at h
      · simp only [Option.some.injEq, Prod.mk.injEq] at h
        obtain ⟨rfl, rfl⟩ := h
        simp only [Worker.weight, imgs_append, Multiset.card_add]
        simp only [imgs, List.filterMap_cons, id, List.filterMap_nil, Multiset.coe_card, List.length_nil]
        omega
      · cases h
    | readDone => simp [workerStep] at h
    | detectDone => simp [workerStep] at h

theorem reach_measure {cap expected processes n : Nat} {s0 s : St Img}
    (h : Reach cap expected processes s0 n s) : n + measure s ≤ measure s0 := by
  induction h with
  | refl => omega
  | step _ hs ih => have := measure_step hs; omega

/-- Tasks are started in the order given. -/
theorem reach_pending {cap expected processes n : Nat} {s0 s : St Img} (h0 : s0.started = [])
    (h : Reach cap expected processes s0 n s) :
    s.pending = s0.pending.drop s.started.length := by
  induction h with
  | refl => simp [h0]
  | step _ hs ih =>
    cases hs with
    | start _ w rest hp =>
      simp only [List.length_append, List.length_cons, List.length_nil]
      rw [hp] at ih
      rw [← List.drop_drop, ← ih]; rfl
    | work pre post w w' pending sh sh' h => simpa using ih

theorem sum_shape (q : List (Option Img)) : q.length = (imgs q).card + nones q := by
  induction q with
  | nil => rfl
  | cons o q ih =>
    cases o <;> simp [imgs, nones] at ih ⊢ <;> omega

theorem progress {cap processes n : Nat} {chs : List (List Img)} {s : St Img}
    (hne : chs.flatten ≠ []) (hr1 : 1 ≤ chs.length) (hr : chs.length < processes)
    (hcap : cap = 0 ∨ chs.length ≤ cap)
    (h : Reach cap chs.flatten.length processes (initSt chs processes) n s)
    (hstuck : ∀ s', ¬ Step cap chs.flatten.length processes s s') : AllReturned s := by
  have hI := reach_inv hne h
  have hpend := reach_pending rfl h
  have hall : s.all = s.started ++ s.pending := rfl
  -- every started worker is blocked
  have hblk : ∀ w ∈ s.started, workerStep cap chs.flatten.length s.shared w = none := by
    intro w hw
    by_contra hne'
    obtain ⟨⟨sh', w'⟩, hs⟩ := Option.ne_none_iff_exists'.1 hne'
    obtain ⟨pre, post, e⟩ := List.append_of_mem hw
    have := Step.work (cap := cap) (expected := chs.flatten.length) (processes := processes)
      pre post w w' s.pending s.shared sh' hs
    rw [← e] at this
    exact hstuck _ this
  have hstart : s.pending = [] ∨ processes ≤ busy s.started := by
    cases hp : s.pending with
    | nil => exact Or.inl rfl
    | cons w rest =>
      right
      by_contra hlt
      exact hstuck _ (Step.start s w rest hp (by omega))
  have hfin : (∀ w ∈ s.started, w.isDone = true) → AllReturned s := by
    intro hd
    refine ⟨?_, hd⟩
    rcases hstart with h | h
    · exact h
    · have : busy s.started = 0 := by
        unfold busy; rw [List.countP_eq_zero]
        intro w hw; simp [hd w hw]
      omega
  -- consumers among pending tasks once all producers are started
  have hpg : chs.length ≤ s.started.length → ∀ w ∈ s.pending, w = .getting := by
    intro hl w hw
    rw [hpend] at hw
    simp only [initSt] at hw
    rw [List.drop_append, List.drop_eq_nil_of_le (by simpa using hl), List.nil_append] at hw
    exact List.eq_of_mem_replicate (List.mem_of_mem_drop hw)
  have hbusy : busy s.started ≤ s.started.length := List.countP_le_length
  have hlen : s.started.length + s.pending.length = chs.length + processes := by
    have := congrArg List.length hpend
    have hle : s.started.length ≤ chs.length + processes := by
      clear hblk hstart hfin hpg hbusy hI hstuck this hpend hall
      have key : ∀ {n s}, Reach cap chs.flatten.length processes (initSt chs processes) n s →
          s.started.length + s.pending.length = chs.length + processes := by
        intro n s h
        induction h with
        | refl => simp [initSt]
        | step _ hs ih =>
          cases hs with
          | start _ w rest hp =>
            simp only [List.length_append, List.length_cons, List.length_nil, hp] at ih ⊢; omega
          | work pre post w w' pending sh sh' h => simpa using ih
      have := key h; omega
    simp only [initSt, List.length_drop, List.length_append, List.length_map,
      List.length_replicate] at this
    omega
  have hmem : ∀ (f : Worker Img → Nat) w, w ∈ s.started → f w ≤ tot f s.all := by
    intro f w hw
    exact tot_pos_of_mem f _ _ (List.mem_append_left _ hw)
  by_cases hroom : room cap s.shared.queue = true
  · -- there is room: threads are blocked on an empty queue or have returned
    by_cases hg : Worker.getting ∈ s.started
    · exfalso
      have hq : s.shared.queue = [] := by
        have := hblk _ hg
        simp only [workerStep] at this
        split at this
        · assumption
        · cases this
        · cases this
      have hst : ∀ w ∈ s.started, w = .getting ∨ w.isDone = true := by
        intro w hw
        have := hblk w hw
        cases w with
        | reading l => cases l <;> simp [workerStep, hroom] at this
        | incrementing l => simp [workerStep] at this
        | checking l => simp [workerStep] at this
        | finishing l => simp [workerStep, hroom] at this
        | getting => exact Or.inl rfl
        | detecting i => simp [workerStep] at this
        | handingOver => simp [workerStep, hroom] at this
        | readDone => exact Or.inr rfl
        | detectDone => exact Or.inr rfl
      have hpg' : ∀ w ∈ s.pending, w = .getting := by
        rcases hstart with h | h
        · rw [h]; simp
        · exact hpg (by omega)
      have hW : ∀ w ∈ s.all, w = .getting ∨ w.isDone = true := by
        intro w hw
        rcases List.mem_append.1 hw with hw | hw
        · exact hst w hw
        · exact Or.inl (hpg' w hw)
      have hz : ∀ {M : Type} [AddCommMonoid M] (f : Worker Img → M), f .getting = 0 →
          f .readDone = 0 → f .detectDone = 0 → tot f s.all = 0 := by
        intro M _ f h0 h1 h2
        apply tot_eq_zero
        intro w hw
        rcases hW w hw with rfl | hd
        · exact h0
        · cases w <;> simp [Worker.isDone] at hd
          · exact h1
          · exact h2
      have := hI.created (hz _ rfl rfl rfl) (hz _ rfl rfl rfl) (hz _ rfl rfl rfl)
      rw [hz Worker.sent rfl rfl rfl, hq] at this
      simp [nones] at this
    · apply hfin
      intro w hw
      have := hblk w hw
      cases w with
      | reading l => cases l <;> simp [workerStep, hroom] at this
      | incrementing l => simp [workerStep] at this
      | checking l => simp [workerStep] at this
      | finishing l => simp [workerStep, hroom] at this
      | getting => exact absurd hw hg
      | detecting i => simp [workerStep] at this
      | handingOver => simp [workerStep, hroom] at this
      | readDone => rfl
      | detectDone => rfl
  · -- the queue is full
    have hfull : cap ≠ 0 ∧ cap ≤ s.shared.queue.length := by
      simp only [room, decide_eq_true_eq, not_or] at hroom
      exact ⟨hroom.1, by omega⟩
    have hcapr : chs.length ≤ cap := by rcases hcap with h | h <;> omega
    have hng : ∀ w ∈ s.started, w ≠ .getting := by
      rintro w hw rfl
      have := hblk _ hw
      simp only [workerStep] at this
      split at this
      · rename_i hq
        rw [hq] at hfull
        simp only [List.length_nil] at hfull; omega
      · cases this
      · cases this
    by_cases hpop : 1 ≤ tot Worker.popped s.all
    · have him := hI.popped hpop
      have hk : s.shared.queue.length = nones s.shared.queue := by
        have := sum_shape s.shared.queue
        rw [him] at this; simpa using this
      have hb := hI.bound
      apply hfin
      intro w hw
      have h1 := hmem Worker.sent w hw
      have h2 := hmem Worker.mayGen w hw
      have := hblk w hw
      cases w with
      | reading l =>
        cases l with
        | nil => simp [workerStep] at this
        | cons a l => simp only [Worker.mayGen] at h2; omega
      | incrementing l => simp [workerStep] at this
      | checking l => simp [workerStep] at this
      | finishing l => simp only [Worker.sent] at h1; omega
      | getting => exact absurd rfl (hng _ hw)
      | detecting i => simp [workerStep] at this
      | handingOver => simp only [Worker.sent] at h1; omega
      | readDone => rfl
      | detectDone => rfl
    · exfalso
      have hnc : ∀ w ∈ s.started, Worker.cons w = 0 := by
        intro w hw
        have h1 := hmem Worker.popped w hw
        have := hblk w hw
        cases w with
        | getting => exact absurd rfl (hng _ hw)
        | detecting i => simp [workerStep] at this
        | handingOver => simp only [Worker.popped] at h1; omega
        | detectDone => simp only [Worker.popped] at h1; omega
        | _ => rfl
      have hc := hI.consumers
      rw [hall, tot_append, tot_eq_zero _ _ hnc] at hc
      have hle : tot Worker.cons s.pending ≤ s.pending.length :=
        tot_le_length _ (fun w => by cases w <;> simp [Worker.cons]) _
      rcases hstart with h | h
      · rw [h] at hc; simp [tot] at hc; omega
      · omega

/-- No deadlock and no livelock. If the queue is unbounded or can hold one sentinel per producer,
then in every execution: the number of steps is bounded by a number that depends only on the images
and processes; in every state some thread can make a step unless all tasks have returned; so every
maximal execution ends with every image detected exactly once. -/
theorem C31_no_deadlock (images : List Img) (config processes cap : Nat)
    (hi : images ≠ []) (hp : 2 ≤ processes) (chs : List (List Img))
    (hch : chunks images config processes = some chs) (hcap : cap = 0 ∨ chs.length ≤ cap)
    (n : Nat) (s : St Img)
    (h : Reach cap images.length processes (initSt chs processes) n s) :
    n ≤ 10 * images.length + 2 * chs.length + 4 * processes ∧
    ((∃ s', Step cap images.length processes s s') ∨
      (AllReturned s ∧ s.shared.detected.Perm images)) := by
  classical
  obtain ⟨hfl, hr1, hr2⟩ := chunks_flatten hi hp hch
  constructor
  · have h1 := reach_measure h
    have h2 : measure (initSt chs processes) = 10 * images.length + 2 * chs.length + 4 * processes := by
      have hw : ∀ chs : List (List Img), tot Worker.weight (chs.map Worker.reading) =
          10 * chs.flatten.length + chs.length := by
        intro chs
        induction chs with
        | nil => rfl
        | cons c cs ih =>
          rw [List.map_cons, tot_cons, ih]
          simp only [Worker.weight, List.flatten_cons, List.length_append, List.length_cons]; omega
      simp only [measure, initSt, tot_nil, tot_append, hw, tot_replicate, Worker.weight, hfl,
        List.length_append, List.length_map, List.length_replicate]
      simp only [imgs, List.filterMap_nil, Multiset.coe_card, List.length_nil]
      omega
    omega
  · by_cases hs : ∃ s', Step cap images.length processes s s'
    · exact Or.inl hs
    · right
      have hret : AllReturned s := by
        have hne : chs.flatten ≠ [] := by rw [hfl]; exact hi
        rw [← hfl] at h hs
        exact progress hne hr1 hr2 hcap h (fun s' hs' => hs ⟨s', hs'⟩)
      exact ⟨hret, (C30_exactly_once images config processes cap hi hp chs hch n s h).2 hret⟩

/-- Such executions exist: every execution can be continued to one that ends. -/
theorem C31_completes (images : List Img) (config processes cap : Nat)
    (hi : images ≠ []) (hp : 2 ≤ processes) (chs : List (List Img))
    (hch : chunks images config processes = some chs) (hcap : cap = 0 ∨ chs.length ≤ cap)
    (n : Nat) (s : St Img)
    (h : Reach cap images.length processes (initSt chs processes) n s) :
    ∃ m s', Reach cap images.length processes (initSt chs processes) (n + m) s' ∧ AllReturned s' := by
  generalize hk : measure s = k
  induction k using Nat.strong_induction_on generalizing n s with
  | _ k ih =>
    rcases (C31_no_deadlock images config processes cap hi hp chs hch hcap n s h).2 with ⟨s', hs⟩ | hr
    · obtain ⟨m, s'', h1, h2⟩ := ih (measure s') (by rw [← hk]; exact measure_step hs) (n + 1) s'
        (Reach.step h hs) rfl
      exact ⟨1 + m, s'', by rwa [← Nat.add_assoc], h2⟩
    · exact ⟨0, s, h, hr.1⟩

/-- Run a schedule: `none` starts a task, `some i` is a step of task `i`. -/
def runSchedule (cap expected processes : Nat) : List (Option Nat) → St Img → Option (St Img)
  | [], s => some s
  | none :: rest, s =>
    match s.pending with
    | [] => none
    | w :: p =>
      if busy s.started < processes then
        runSchedule cap expected processes rest { s with started := s.started ++ [w], pending := p }
      else none
  | some i :: rest, s =>
    match s.started[i]? with
    | none => none
    | some w =>
      match workerStep cap expected s.shared w with
      | none => none
      | some (sh, w') =>
        runSchedule cap expected processes rest ⟨s.started.take i ++ w' :: s.started.drop (i + 1),
          s.pending, sh⟩

theorem runSchedule_reach {cap expected processes : Nat} {s0 : St Img} (sched : List (Option Nat)) :
    ∀ {n : Nat} {s s' : St Img}, Reach cap expected processes s0 n s →
      runSchedule cap expected processes sched s = some s' →
      Reach cap expected processes s0 (n + sched.length) s' := by
  induction sched with
  | nil => intro n s s' h hr; simp only [runSchedule, Option.some.injEq] at hr; subst hr; exact h
  | cons o rest ih =>
    intro n s s' h hr
    cases o with
    | none =>
      simp only [runSchedule] at hr
      split at hr
      · cases hr
      · rename_i w p hp
        split at hr
        · rename_i hb
          have := ih (Reach.step h (Step.start s w p hp hb)) hr
          rw [List.length_cons]; convert this using 1; omega
        · cases hr
    | some i =>
      simp only [runSchedule] at hr
      split at hr
      · cases hr
      · rename_i w hw
        split at hr
        · cases hr
        · rename_i sh w' hstep
          have hsplit : s.started = s.started.take i ++ w :: s.started.drop (i + 1) := by
            obtain ⟨hlt, e⟩ := List.getElem?_eq_some_iff.1 hw
            rw [← e]
            simp
          have st : Step cap expected processes s
              ⟨s.started.take i ++ w' :: s.started.drop (i + 1), s.pending, sh⟩ := by
            have := Step.work (cap := cap) (expected := expected) (processes := processes)
              (s.started.take i) (s.started.drop (i + 1)) w w' s.pending s.shared sh hstep
            rw [← hsplit] at this
            exact this
          have := ih (Reach.step h st) hr
          rw [List.length_cons]; convert this using 1; omega

/-- The capacity hypothesis is needed: two images, two producers, four consumers and a queue of
capacity 1 (`run_features_processing` sizes the queue by the memory available, down to one image)
reach a state in which a consumer waits for ever to hand its sentinel over: both producers saw the
final count, so there are two sentinels and the queue holds one. -/
theorem C31_capacity_needed :
    chunks [0, 1] 2 4 = some [[0], [1]] ∧
    ∃ n s, Reach 1 2 4 (initSt [[0], [1]] 4) n s ∧ ¬ AllReturned s ∧
      ∀ s', ¬ Step 1 2 4 s s' := by
  refine ⟨by decide, ?_⟩
  let sched : List (Option Nat) := [none, none, none, none,
    some 0, some 2, some 0,           -- 0 puts, 2 gets, 0 increments
    some 1, some 1,                   -- 1 puts, increments
    some 0, some 1,                   -- both see the final count
    some 3,                           -- 3 gets
    some 2, some 3,                   -- detect
    some 0, some 2, some 1,           -- sentinel, taken by 2, second sentinel
    some 0, some 1,                   -- producers return
    some 3, some 2,                   -- 3 takes the second, 2 hands over the first and returns
    none, none,                       -- tasks 4 and 5 start
    some 4, some 3, some 5, some 4]   -- take, hand over, take, hand over: 5 is left
  have hrun : runSchedule 1 2 4 sched (initSt [[0], [1]] 4) =
      some ⟨[.readDone, .readDone, .detectDone, .detectDone, .detectDone, .handingOver], [],
        ⟨[none], 4, 2, [0, 1]⟩⟩ := by decide
  refine ⟨_, _, runSchedule_reach sched Reach.refl hrun, ?_, ?_⟩
  · rintro ⟨-, hd⟩
    have := hd .handingOver (by simp)
    cases this
  · intro s' hs
    generalize hst : (⟨[.readDone, .readDone, .detectDone, .detectDone, .detectDone, .handingOver], [],
        ⟨[none], 4, 2, [0, 1]⟩⟩ : St Nat) = st at hs
    cases hs with
    | start _ w rest hp => subst hst; cases hp
    | work pre post w w' pending sh sh' h =>
      simp only [St.mk.injEq] at hst
      obtain ⟨e, -, rfl⟩ := hst
      have hw : w ∈ [Worker.readDone, .readDone, .detectDone, .detectDone, .detectDone,
          (.handingOver : Worker Nat)] := by rw [e]; simp
      simp only [List.mem_cons, List.not_mem_nil, or_false] at hw
      rcases hw with rfl | rfl | rfl | rfl | rfl | rfl <;> simp [workerStep, room] at h

theorem sequentialTurn_eq (cap : Nat) (img : Img) :
    sequentialTurn cap [] img = if cap = 1 then none else some ([], [img]) := by
  have r0 : room cap ([] : List (Option Img)) = true := by
    unfold room; simp; omega
  by_cases h : cap = 1
  · subst h
    simp [sequentialTurn, runAlone, workerStep, Worker.isDone, r0, counterIncrement, counterValue, room]
  · have r1 : ∀ o : Option Img, room cap [o] = true := by
      intro o; unfold room; simp; omega
    simp [sequentialTurn, runAlone, workerStep, Worker.isDone, r0, r1, counterIncrement,
      counterValue, h]

/-- With a single process (`processes == 1`) the images are read and detected one by one, in order —
except on a queue of capacity one, where the sentinel of the first image does not fit and the program
blocks for ever. -/
theorem C31_sequential (cap : Nat) (images : List Img) :
    sequential cap [] images = if cap = 1 ∧ images ≠ [] then none else some images := by
  induction images with
  | nil => simp [sequential]
  | cons img rest ih =>
    simp only [sequential, sequentialTurn_eq]
    by_cases h : cap = 1
    · simp [h]
    · simp only [h, if_false, ih, false_and]
      rfl

end Verif.FeatureQueue
