import Mathlib.Data.List.Count
import Verif.Model.TracksManager

/-! Helper lemmas about the tracks manager model. -/
set_option linter.unusedSectionVars false
namespace Verif
namespace TM

section look2
variable {A B O : Type} [DecidableEq A] [DecidableEq B]

/-- Two-level lookup. -/
def look2 (m : Dict A (Dict B O)) (a : A) (b : B) : Option O := (m.get? a).bind (·.get? b)

/-- Both levels have distinct keys. -/
def Wf2 (m : Dict A (Dict B O)) : Prop := m.Wf ∧ ∀ a d, m.get? a = some d → Dict.Wf d

theorem look2_set2 (m : Dict A (Dict B O)) (a a' : A) (b b' : B) (o : O) :
    look2 (set2 m a b o) a' b' = if a = a' ∧ b = b' then some o else look2 m a' b' := by
  unfold look2 set2
  rw [Dict.get?_set]
  by_cases h : a = a'
  · subst h
    simp only [if_true, Option.bind_some, true_and]
    rw [Dict.get?_set]
    cases m.get? a <;> simp
  · simp [h]

theorem look2_erase {m : Dict A (Dict B O)} {a : A} {d : Dict B O} (h : m.get? a = some d)
    (b : B) (a' : A) (b' : B) :
    look2 (m.set a (d.erase b)) a' b' = if a = a' ∧ b = b' then none else look2 m a' b' := by
  unfold look2
  rw [Dict.get?_set]
  by_cases h1 : a = a'
  · subst h1
    simp only [if_true, Option.bind_some, true_and, h, Dict.get?_erase]
  · simp [h1]

theorem wf2_set2 {m : Dict A (Dict B O)} (h : Wf2 m) (a : A) (b : B) (o : O) :
    Wf2 (set2 m a b o) := by
  refine ⟨Dict.wf_set h.1 _ _, ?_⟩
  intro a' d hd
  rw [set2, Dict.get?_set] at hd
  split at hd
  · cases hd
    apply Dict.wf_set
    cases hm : m.get? a with
    | none => simp
    | some d => exact h.2 a d hm
  · exact h.2 _ _ hd

theorem wf2_erase {m : Dict A (Dict B O)} (h : Wf2 m) {a : A} {d : Dict B O}
    (hd : m.get? a = some d) (b : B) : Wf2 (m.set a (d.erase b)) := by
  refine ⟨Dict.wf_set h.1 _ _, ?_⟩
  intro a' d' hd'
  rw [Dict.get?_set] at hd'
  split at hd'
  · cases hd'; exact Dict.wf_erase (h.2 _ _ hd) b
  · exact h.2 _ _ hd'

theorem keys_set_of_get? {V : Type} {m : Dict A V} {a : A} {d : V} (h : m.get? a = some d) (v : V) :
    (m.set a v).keys = m.keys := by
  rw [Dict.keys_set, if_pos]
  rw [Dict.mem_keys_iff, h]; rfl

end look2

variable {S T O : Type} [DecidableEq S] [DecidableEq T]

/-- Representation invariant. -/
structure Inv (m : TM S T O) : Prop where
  wfS : Wf2 m.perShot
  wfT : Wf2 m.perTrack
  sym : ∀ s t, look2 m.perShot s t = look2 m.perTrack t s

theorem inv_empty : Inv (empty : TM S T O) :=
  ⟨⟨by simp [empty], by simp [empty]⟩, ⟨by simp [empty], by simp [empty]⟩,
   by simp [empty, look2]⟩

theorem inv_add {m : TM S T O} (h : Inv m) (s : S) (t : T) (o : O) :
    Inv (m.addObservation s t o) := by
  refine ⟨wf2_set2 h.wfS _ _ _, wf2_set2 h.wfT _ _ _, ?_⟩
  intro s' t'
  simp only [addObservation, look2_set2, h.sym]
  by_cases h1 : s = s' <;> by_cases h2 : t = t' <;> simp [h1, h2]

theorem inv_remove {m m' : TM S T O} (h : Inv m) {s : S} {t : T}
    (hr : m.removeObservation s t = .ok m') : Inv m' := by
  unfold removeObservation at hr
  split at hr
  · cases hr
  · rename_i d hd
    split at hr
    · cases hr
    · rename_i e he
      cases hr
      refine ⟨wf2_erase h.wfS hd _, wf2_erase h.wfT he _, ?_⟩
      intro s' t'
      simp only [look2_erase hd, look2_erase he, h.sym]
      by_cases h1 : s = s' <;> by_cases h2 : t = t' <;> simp [h1, h2]

theorem step_remove_none_shot {m : TM S T O} {s : S} (t : T) (hs : m.perShot.get? s = none) :
    m.step (.remove s t) = (m, some .invalidShot) := by
  simp [step, removeObservation, hs]

theorem step_remove_none_track {m : TM S T O} {s : S} {t : T} {d : Dict T O}
    (hs : m.perShot.get? s = some d) (ht : m.perTrack.get? t = none) :
    m.step (.remove s t) = (m, some .invalidTrack) := by
  simp [step, removeObservation, hs, ht]

theorem step_remove_ok {m : TM S T O} {s : S} {t : T} {d : Dict T O} {e : Dict S O}
    (hs : m.perShot.get? s = some d) (ht : m.perTrack.get? t = some e) :
    m.step (.remove s t) =
      ({ perShot := m.perShot.set s (d.erase t), perTrack := m.perTrack.set t (e.erase s) }, none) := by
  simp [step, removeObservation, hs, ht]

theorem inv_step {m : TM S T O} (h : Inv m) (op : Op S T O) : Inv (m.step op).1 := by
  cases op with
  | add s t o => exact inv_add h s t o
  | remove s t =>
    cases hr : m.removeObservation s t with
    | ok m' => simp only [step, hr]; exact inv_remove h hr
    | error e => simp only [step, hr]; exact h

theorem inv_foldl {m : TM S T O} (h : Inv m) (ops : List (Op S T O)) :
    Inv (ops.foldl (fun m op => (m.step op).1) m) := by
  induction ops generalizing m with
  | nil => exact h
  | cons op ops ih => exact ih (inv_step h op)

theorem inv_run (ops : List (Op S T O)) : Inv (run ops) := inv_foldl inv_empty ops

theorem inv_of_reachable {m : TM S T O} (h : Reachable m) : Inv m := by
  obtain ⟨ops, rfl⟩ := h; exact inv_run ops

theorem run_snoc (ops : List (Op S T O)) (op : Op S T O) :
    run (ops ++ [op]) = ((run ops).step op).1 := by simp [run]

theorem run_append (a b : List (Op S T O)) :
    run (a ++ b) = b.foldl (fun m op => (m.step op).1) (run a) := by simp [run]

theorem look2_add (m : TM S T O) (s s' : S) (t t' : T) (o : O) :
    look2 (m.addObservation s t o).perShot s' t' =
      if s = s' ∧ t = t' then some o else look2 m.perShot s' t' := by
  simp [addObservation, look2_set2]

theorem look2_step {m : TM S T O} (h : Inv m) (op : Op S T O) (s : S) (t : T) :
    look2 (m.step op).1.perShot s t =
      match op with
      | .add s' t' o => if s' = s ∧ t' = t then some o else look2 m.perShot s t
      | .remove s' t' => if s' = s ∧ t' = t then none else look2 m.perShot s t := by
  cases op with
  | add s' t' o => simp [step, look2_add]
  | remove s' t' =>
    cases hs : m.perShot.get? s' with
    | none =>
      rw [step_remove_none_shot _ hs]
      by_cases hc : s' = s ∧ t' = t
      · obtain ⟨rfl, rfl⟩ := hc; simp [look2, hs]
      · simp [hc]
    | some d =>
      cases ht : m.perTrack.get? t' with
      | none =>
        rw [step_remove_none_track hs ht]
        by_cases hc : s' = s ∧ t' = t
        · obtain ⟨rfl, rfl⟩ := hc
          simp only [h.sym]; simp [look2, ht]
        · simp [hc]
      | some e => rw [step_remove_ok hs ht]; simp only [look2_erase hs]

theorem getObservation_ok_iff (m : TM S T O) (s : S) (t : T) (o : O) :
    m.getObservation s t = .ok o ↔ look2 m.perShot s t = some o := by
  unfold getObservation look2
  cases m.perShot.get? s with
  | none => simp
  | some d => cases h : d.get? t <;> simp [h]

/-- A shot view contains `(t, o)` iff the two-level lookup does. -/
theorem getShotObservations_mem {m : TM S T O} (h : Inv m) (s : S) (t : T) (o : O) :
    (∃ d, m.getShotObservations s = .ok d ∧ (t, o) ∈ d) ↔ look2 m.perShot s t = some o := by
  unfold getShotObservations look2
  cases hs : m.perShot.get? s with
  | none => simp
  | some d => simp [Dict.mem_iff_get? (h.wfS.2 _ _ hs)]

theorem getTrackObservations_mem {m : TM S T O} (h : Inv m) (s : S) (t : T) (o : O) :
    (∃ d, m.getTrackObservations t = .ok d ∧ (s, o) ∈ d) ↔ look2 m.perShot s t = some o := by
  rw [h.sym]
  unfold getTrackObservations look2
  cases hs : m.perTrack.get? t with
  | none => simp
  | some d => simp [Dict.mem_iff_get? (h.wfT.2 _ _ hs)]

/-! ### Registered ids -/

theorem keys_step_shot (m : TM S T O) (op : Op S T O) :
    (m.step op).1.perShot.keys =
      match op with
      | .add s _ _ => if s ∈ m.perShot.keys then m.perShot.keys else m.perShot.keys ++ [s]
      | .remove _ _ => m.perShot.keys := by
  cases op with
  | add s t o => simp [step, addObservation, set2, Dict.keys_set]
  | remove s t =>
    cases hs : m.perShot.get? s with
    | none => rw [step_remove_none_shot _ hs]
    | some d =>
      cases ht : m.perTrack.get? t with
      | none => rw [step_remove_none_track hs ht]
      | some e => rw [step_remove_ok hs ht]; exact keys_set_of_get? hs _

theorem keys_step_track (m : TM S T O) (op : Op S T O) :
    (m.step op).1.perTrack.keys =
      match op with
      | .add _ t _ => if t ∈ m.perTrack.keys then m.perTrack.keys else m.perTrack.keys ++ [t]
      | .remove _ _ => m.perTrack.keys := by
  cases op with
  | add s t o => simp [step, addObservation, set2, Dict.keys_set]
  | remove s t =>
    cases hs : m.perShot.get? s with
    | none => rw [step_remove_none_shot _ hs]
    | some d =>
      cases ht : m.perTrack.get? t with
      | none => rw [step_remove_none_track hs ht]
      | some e => rw [step_remove_ok hs ht]; exact keys_set_of_get? ht _

/-! ### Sub manager -/

/-- A list of additions is a history. -/
theorem reachable_addMany {m : TM S T O} (h : Reachable m) (l : List (S × T × O)) :
    Reachable (l.foldl (fun m p => m.addObservation p.1 p.2.1 p.2.2) m) := by
  obtain ⟨ops, rfl⟩ := h
  refine ⟨ops ++ l.map (fun p => Op.add p.1 p.2.1 p.2.2), ?_⟩
  rw [run_append, List.foldl_map]
  rfl

theorem subAddTrack_eq (shots : List S) (t : T) (sub : TM S T O) (track : Dict S O) :
    subAddTrack shots t sub track =
      ((track.filter (fun p => p.1 ∈ shots)).map (fun p => (p.1, t, p.2))).foldl
        (fun m p => m.addObservation p.1 p.2.1 p.2.2) sub := by
  unfold subAddTrack
  induction track generalizing sub with
  | nil => rfl
  | cons p l ih =>
    simp only [List.foldl_cons]
    rw [ih]
    by_cases h : p.1 ∈ shots <;> simp [h]

/-- Observations a sub-manager call adds, in order. -/
def subList (m : TM S T O) (tracks : List T) (shots : List S) : List (S × T × O) :=
  tracks.flatMap fun t =>
    (((m.perTrack.get? t).getD []).filter (fun p => p.1 ∈ shots)).map (fun p => (p.1, t, p.2))

theorem constructSub_eq (m : TM S T O) (tracks : List T) (shots : List S) :
    m.constructSubTracksManager tracks shots =
      (m.subList tracks shots).foldl (fun m p => m.addObservation p.1 p.2.1 p.2.2) empty := by
  unfold constructSubTracksManager subList
  rw [List.foldl_flatMap]
  congr 1
  funext sub t
  cases m.perTrack.get? t with
  | none => rfl
  | some track => simp [subAddTrack_eq]

/-- Lookup after a list of additions: the last matching entry wins. -/
theorem look2_addMany (l : List (S × T × O)) (m : TM S T O) (s : S) (t : T) :
    look2 (l.foldl (fun m p => m.addObservation p.1 p.2.1 p.2.2) m).perShot s t =
      (l.reverse.findSome? fun p => if p.1 = s ∧ p.2.1 = t then some p.2.2 else none).or
        (look2 m.perShot s t) := by
  induction l generalizing m with
  | nil => simp
  | cons p l ih =>
    simp only [List.foldl_cons, ih, look2_add, List.reverse_cons, List.findSome?_append]
    cases hh : (l.reverse.findSome? fun p => if p.1 = s ∧ p.2.1 = t then some p.2.2 else none) with
    | some v => simp
    | none => by_cases hc : p.1 = s ∧ p.2.1 = t <;> simp [hc]

theorem mem_subList {m : TM S T O} (h : Inv m) (tracks : List T) (shots : List S)
    (s : S) (t : T) (o : O) :
    (s, t, o) ∈ m.subList tracks shots ↔
      t ∈ tracks ∧ s ∈ shots ∧ look2 m.perShot s t = some o := by
  unfold subList
  rw [h.sym]
  simp only [List.mem_flatMap, List.mem_map, List.mem_filter, decide_eq_true_eq, Prod.mk.injEq]
  constructor
  · rintro ⟨t', ht, ⟨s', o'⟩, ⟨hm, hs⟩, rfl, rfl, rfl⟩
    refine ⟨ht, hs, ?_⟩
    cases hg : m.perTrack.get? t' with
    | none => simp [hg] at hm
    | some d =>
      simp only [hg, Option.getD_some] at hm
      simp [look2, hg, Dict.get?_of_mem (h.wfT.2 _ _ hg) hm]
  · rintro ⟨ht, hs, hl⟩
    refine ⟨t, ht, (s, o), ⟨?_, hs⟩, rfl, rfl, rfl⟩
    unfold look2 at hl
    cases hg : m.perTrack.get? t with
    | none => simp [hg] at hl
    | some d =>
      simp only [hg, Option.bind_some] at hl
      simpa using Dict.mem_of_get? hl

theorem look2_sub {m : TM S T O} (h : Inv m) (tracks : List T) (shots : List S) (s : S) (t : T) :
    look2 (m.constructSubTracksManager tracks shots).perShot s t =
      if t ∈ tracks ∧ s ∈ shots then look2 m.perShot s t else none := by
  rw [constructSub_eq, look2_addMany]
  rw [show look2 (empty : TM S T O).perShot s t = none from rfl, Option.or_none]
  apply Option.ext
  intro o
  constructor
  · intro ho
    obtain ⟨p, hp, hpe⟩ := List.exists_of_findSome?_eq_some ho
    rw [List.mem_reverse] at hp
    split at hpe
    · rename_i hc
      obtain ⟨ps, pt, po⟩ := p
      obtain ⟨rfl, rfl⟩ := hc
      cases hpe
      obtain ⟨h1, h2, h3⟩ := (mem_subList h tracks shots _ _ _).1 hp
      rw [if_pos ⟨h1, h2⟩]; exact h3
    · cases hpe
  · intro ho
    split at ho
    · rename_i hc
      have hm := (mem_subList h tracks shots s t o).2 ⟨hc.1, hc.2, ho⟩
      cases hf : (List.findSome? (fun p => if p.1 = s ∧ p.2.1 = t then some p.2.2 else none)
          (m.subList tracks shots).reverse) with
      | none =>
        rw [List.findSome?_eq_none_iff] at hf
        have := hf _ (List.mem_reverse.2 hm)
        simp at this
      | some o' =>
        obtain ⟨p, hp, hpe⟩ := List.exists_of_findSome?_eq_some hf
        rw [List.mem_reverse] at hp
        split at hpe
        · rename_i hc'
          obtain ⟨ps, pt, po⟩ := p
          obtain ⟨rfl, rfl⟩ := hc'
          cases hpe
          have h3 := ((mem_subList h tracks shots _ _ _).1 hp).2.2
          rw [ho] at h3; exact h3.symm
        · cases hpe
    · cases ho

theorem reachable_sub (m : TM S T O) (tracks : List T) (shots : List S) :
    Reachable (m.constructSubTracksManager tracks shots) := by
  rw [constructSub_eq]
  exact reachable_addMany ⟨[], rfl⟩ _

/-! ### Pair connectivity -/

section incr
variable {K : Type} [DecidableEq K]

theorem get?_incr (d : Dict K Nat) (k k' : K) :
    (incr d k).get? k' = if k = k' then some ((d.get? k').getD 0 + 1) else d.get? k' := by
  unfold incr
  rw [Dict.get?_set]
  by_cases h : k = k' <;> simp [h]

theorem get?_foldl_incr [BEq K] [LawfulBEq K] (l : List K) (d : Dict K Nat) (k : K) :
    (l.foldl incr d).get? k =
      if l.count k = 0 then d.get? k else some ((d.get? k).getD 0 + l.count k) := by
  induction l generalizing d with
  | nil => simp
  | cons a l ih =>
    rw [List.foldl_cons, ih, get?_incr, List.count_cons]
    by_cases h : a = k
    · subst h
      by_cases h0 : List.count a l = 0
      · simp [h0]
      · simp [h0]; omega
    · simp [h]

end incr

/-- The pairs counted for one track. -/
def trackPairs (lt : S → S → Bool) (use : List S) (ks : List S) : List (S × S) :=
  ks.flatMap fun a => if a ∈ use then (ks.filter fun b => lt a b ∧ b ∈ use).map fun b => (a, b)
    else []

theorem countTrack_eq (lt : S → S → Bool) (use : List S) (track : Dict S O)
    (acc : Dict (S × S) Nat) :
    countTrack lt use track acc = (trackPairs lt use track.keys).foldl incr acc := by
  unfold countTrack trackPairs
  rw [List.foldl_flatMap, Dict.keys, List.foldl_map]
  congr 1
  funext acc p
  by_cases h : p.1 ∈ use
  · simp only [h, if_true]
    rw [List.foldl_map, List.foldl_filter, List.foldl_map]
    simp
  · simp [h]

theorem count_trackPairs (lt : S → S → Bool) (use : List S) {ks : List S} (hk : ks.Nodup)
    (a b : S) :
    (trackPairs lt use ks).count (a, b) =
      if lt a b ∧ a ∈ use ∧ b ∈ use ∧ a ∈ ks ∧ b ∈ ks then 1 else 0 := by
  unfold trackPairs
  rw [List.count_flatMap]
  have key : ∀ x : S, (List.count (a, b) ∘ fun a' =>
      if a' ∈ use then (ks.filter fun b => lt a' b ∧ b ∈ use).map fun b => (a', b) else []) x =
      if x = a then (if lt a b ∧ a ∈ use ∧ b ∈ use ∧ b ∈ ks then 1 else 0) else 0 := by
    intro x
    simp only [Function.comp]
    by_cases hx : x = a
    · subst hx
      by_cases hu : x ∈ use
      · simp only [hu, if_true]
        rw [show List.count (x, b) ((ks.filter fun b => lt x b ∧ b ∈ use).map fun b => (x, b)) =
          List.count b (ks.filter fun b => lt x b ∧ b ∈ use) from
          List.count_map_of_injective _ (fun b => (x, b)) (by intro u v; simp) b]
        have hnd : (ks.filter fun b => decide (lt x b ∧ b ∈ use)).Nodup := hk.filter _
        rw [hnd.count]
        simp only [List.mem_filter, decide_eq_true_eq]
        by_cases h1 : b ∈ ks <;> by_cases h2 : lt x b = true <;> by_cases h3 : b ∈ use <;>
          simp [h1, h2, h3]
      · simp [hu]
    · simp only [hx, if_false]
      apply List.count_eq_zero_of_not_mem
      intro hm
      split at hm
      · simp at hm; exact hx hm.2
      · simp at hm
  rw [List.map_congr_left (fun x _ => key x)]
  have sumlem : ∀ (l : List S) (c : Nat), l.Nodup →
      (l.map fun x => if x = a then c else 0).sum = if a ∈ l then c else 0 := by
    intro l c hl
    induction l with
    | nil => simp
    | cons y l ih =>
      rw [List.nodup_cons] at hl
      by_cases hy : y = a
      · subst hy; simp [ih hl.2, hl.1]
      · simp [hy, Ne.symm hy, ih hl.2]
  rw [sumlem _ _ hk]
  by_cases h1 : a ∈ ks <;> simp [h1]

/-- All pairs counted by a connectivity query, in order. -/
def allPairs (lt : S → S → Bool) (m : TM S T O) (use : List S) (tracks : List T) : List (S × S) :=
  tracks.flatMap fun t => trackPairs lt use ((m.perTrack.get? t).getD []).keys

theorem connectivity_eq (lt : S → S → Bool) (m : TM S T O) (shots : List S) (tracks : List T) :
    m.getAllPairsConnectivity lt shots tracks =
      (allPairs lt m (if shots.isEmpty then m.perShot.keys else shots)
        (if tracks.isEmpty then m.perTrack.keys else tracks)).foldl incr [] := by
  unfold getAllPairsConnectivity allPairs
  rw [List.foldl_flatMap]
  dsimp only
  congr 1
  funext acc t
  cases m.perTrack.get? t with
  | none => rfl
  | some d => simp [countTrack_eq]

theorem count_allPairs {m : TM S T O} (h : Inv m) (lt : S → S → Bool) (use : List S)
    (tracks : List T) (a b : S) :
    (allPairs lt m use tracks).count (a, b) =
      if lt a b ∧ a ∈ use ∧ b ∈ use then
        tracks.countP fun t => (look2 m.perShot a t).isSome ∧ (look2 m.perShot b t).isSome
      else 0 := by
  unfold allPairs
  rw [List.count_flatMap]
  induction tracks with
  | nil => simp
  | cons t l ih =>
    simp only [List.map_cons, List.sum_cons, ih, Function.comp, List.countP_cons]
    have hn : (((m.perTrack.get? t).getD []).keys).Nodup := by
      cases hg : m.perTrack.get? t with
      | none => simp
      | some d => exact h.wfT.2 _ _ hg
    rw [count_trackPairs lt use hn]
    have hk : ∀ s, s ∈ ((m.perTrack.get? t).getD []).keys ↔ (look2 m.perShot s t).isSome := by
      intro s
      rw [h.sym, Dict.mem_keys_iff]
      unfold look2
      cases m.perTrack.get? t <;> simp
    by_cases hc : lt a b = true ∧ a ∈ use ∧ b ∈ use
    · simp only [hc, and_self, true_and, if_true, hk, decide_eq_true_eq]
      exact Nat.add_comm _ _
    · simp only [hc, if_false]
      rw [if_neg]
      rintro ⟨h1, h2, h3, _⟩
      exact hc ⟨h1, h2, h3⟩

end TM
end Verif
