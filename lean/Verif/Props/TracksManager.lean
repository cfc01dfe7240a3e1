import Verif.Lemmas.TracksManager
import Mathlib.Data.List.Dedup
import Mathlib.Data.List.Induction
import Mathlib.Data.List.Perm.Subperm

/-!
# C01–C05: the tracks manager

Specification: a history of calls is a list of `Op`s; `lastWrite` reads off the
value of a (shot, track) pair from the history alone.
-/
set_option linter.unusedSectionVars false
namespace Verif.TM
variable {S T O : Type} [DecidableEq S] [DecidableEq T]

/-! ## Specification -/

/-- The observation most recently added for `(s, t)` and not removed since.
The history is given newest call first. -/
def lastWrite : List (Op S T O) → S → T → Option O
  | [], _, _ => none
  | .add s' t' o :: older, s, t => if s' = s ∧ t' = t then some o else lastWrite older s t
  | .remove s' t' :: older, s, t => if s' = s ∧ t' = t then none else lastWrite older s t

/-- Shot ids appearing in an `add` call. -/
def addedShots (ops : List (Op S T O)) : List S :=
  ops.filterMap fun | .add s _ _ => some s | .remove _ _ => none

/-- Track ids appearing in an `add` call. -/
def addedTracks (ops : List (Op S T O)) : List T :=
  ops.filterMap fun | .add _ t _ => some t | .remove _ _ => none

/-- A small history used in the examples: two shots, two tracks, an overwrite and a removal. -/
def sampleOps : List (Op Nat Nat String) :=
  [.add 1 10 "a", .add 2 10 "b", .add 1 11 "c", .add 2 11 "d", .add 1 10 "a2", .remove 2 11]

/-! ## C01 -/

theorem look2_run (ops : List (Op S T O)) (s : S) (t : T) :
    look2 (run ops).perShot s t = lastWrite ops.reverse s t := by
  induction ops using List.reverseRecOn with
  | nil => rfl
  | append_singleton ops op ih =>
    rw [run_snoc, look2_step (inv_run ops), List.reverse_append]
    cases op <;> simp [lastWrite, ih]

/-- `get_observation` returns exactly the last value written and not removed since. -/
theorem C01_getObservation (ops : List (Op S T O)) (s : S) (t : T) (o : O) :
    (run ops).getObservation s t = .ok o ↔ lastWrite ops.reverse s t = some o := by
  rw [getObservation_ok_iff, look2_run]

example : (run sampleOps).getObservation 1 10 = .ok "a2" ∧
    lastWrite sampleOps.reverse 1 10 = some "a2" ∧ lastWrite sampleOps.reverse 2 11 = none := by
  decide

/-- The per-shot view holds exactly the live triples. -/
theorem C01_shotView (ops : List (Op S T O)) (s : S) (t : T) (o : O) :
    (∃ d, (run ops).getShotObservations s = .ok d ∧ (t, o) ∈ d) ↔
      lastWrite ops.reverse s t = some o := by
  rw [getShotObservations_mem (inv_run ops), look2_run]

/-- The per-track view holds exactly the live triples: the same set as the per-shot view. -/
theorem C01_trackView (ops : List (Op S T O)) (s : S) (t : T) (o : O) :
    (∃ d, (run ops).getTrackObservations t = .ok d ∧ (s, o) ∈ d) ↔
      lastWrite ops.reverse s t = some o := by
  rw [getTrackObservations_mem (inv_run ops), look2_run]

example : (run sampleOps).getShotObservations 1 = .ok [(10, "a2"), (11, "c")] ∧
    (run sampleOps).getTrackObservations 10 = .ok [(1, "a2"), (2, "b")] := by decide

/-- No view lists a key twice. -/
theorem C01_views_nodup (ops : List (Op S T O)) :
    (∀ s d, (run ops).getShotObservations s = .ok d → (d.map Prod.fst).Nodup) ∧
    (∀ t d, (run ops).getTrackObservations t = .ok d → (d.map Prod.fst).Nodup) := by
  have h := inv_run ops
  constructor
  · intro s d hd
    unfold getShotObservations at hd
    split at hd
    · cases hd
    · rename_i d' hd'; cases hd; exact h.wfS.2 _ _ hd'
  · intro s d hd
    unfold getTrackObservations at hd
    split at hd
    · cases hd
    · rename_i d' hd'; cases hd; exact h.wfT.2 _ _ hd'

/-! ## C02 -/

theorem mem_shotIds (ops : List (Op S T O)) (s : S) :
    s ∈ (run ops).getShotIds ↔ s ∈ addedShots ops := by
  unfold getShotIds
  induction ops using List.reverseRecOn with
  | nil => simp [run, empty, addedShots]
  | append_singleton ops op ih =>
    rw [run_snoc, keys_step_shot]
    cases op with
    | add s' t o =>
      simp only [addedShots, List.filterMap_append, List.mem_append] at ih ⊢
      split
      · rename_i h
        constructor
        · intro hm; exact .inl (ih.1 hm)
        · rintro (hm | hm)
          · exact ih.2 hm
          · simp at hm; subst hm; exact h
      · simp [ih]
    | remove s' t => simpa [addedShots] using ih

theorem mem_trackIds (ops : List (Op S T O)) (t : T) :
    t ∈ (run ops).getTrackIds ↔ t ∈ addedTracks ops := by
  unfold getTrackIds
  induction ops using List.reverseRecOn with
  | nil => simp [run, empty, addedTracks]
  | append_singleton ops op ih =>
    rw [run_snoc, keys_step_track]
    cases op with
    | add s' t' o =>
      simp only [addedTracks, List.filterMap_append, List.mem_append] at ih ⊢
      split
      · rename_i h
        constructor
        · intro hm; exact .inl (ih.1 hm)
        · rintro (hm | hm)
          · exact ih.2 hm
          · simp at hm; subst hm; exact h
      · simp [ih]
    | remove s' t' => simpa [addedTracks] using ih

/-- The registered shot ids are exactly the ids ever added (each once), whatever was removed. -/
theorem C02_shotIds (ops : List (Op S T O)) :
    ((run ops).getShotIds).Perm (addedShots ops).dedup ∧
    (run ops).numShots = (addedShots ops).dedup.length ∧
    (∀ s, (run ops).hasShotObservations s = true ↔ s ∈ addedShots ops) := by
  have hp : ((run ops).getShotIds).Perm (addedShots ops).dedup :=
    (List.perm_ext_iff_of_nodup (inv_run ops).wfS.1 (List.nodup_dedup _)).2
      (fun s => by rw [List.mem_dedup]; exact mem_shotIds ops s)
  refine ⟨hp, ?_, ?_⟩
  · rw [← hp.length_eq]; simp [numShots, getShotIds, Dict.keys]
  · intro s
    rw [← mem_shotIds, hasShotObservations, Dict.has_iff_mem]; rfl

/-- The registered track ids are exactly the ids ever added (each once), whatever was removed. -/
theorem C02_trackIds (ops : List (Op S T O)) :
    ((run ops).getTrackIds).Perm (addedTracks ops).dedup ∧
    (run ops).numTracks = (addedTracks ops).dedup.length := by
  have hp : ((run ops).getTrackIds).Perm (addedTracks ops).dedup :=
    (List.perm_ext_iff_of_nodup (inv_run ops).wfT.1 (List.nodup_dedup _)).2
      (fun s => by rw [List.mem_dedup]; exact mem_trackIds ops s)
  refine ⟨hp, ?_⟩
  rw [← hp.length_eq]; simp [numTracks, getTrackIds, Dict.keys]

example : (run sampleOps).getTrackIds = [10, 11] ∧ (addedTracks sampleOps).dedup.length = 2 := by
  decide

/-- A removal raises `invalidShot` exactly if the shot id was never added, `invalidTrack` exactly
if the shot id was added but the track id never was, and a raising call changes nothing. -/
theorem C02_remove (ops : List (Op S T O)) (s : S) (t : T) :
    (((run ops).step (.remove s t)).2 = some .invalidShot ↔ s ∉ addedShots ops) ∧
    (((run ops).step (.remove s t)).2 = some .invalidTrack ↔
      s ∈ addedShots ops ∧ t ∉ addedTracks ops) ∧
    (((run ops).step (.remove s t)).2 ≠ none → ((run ops).step (.remove s t)).1 = run ops) := by
  rw [← mem_shotIds, ← mem_trackIds]
  unfold getShotIds getTrackIds
  rw [Dict.mem_keys_iff, Dict.mem_keys_iff]
  cases hs : (run ops).perShot.get? s with
  | none => simp [step_remove_none_shot t hs]
  | some d =>
    cases ht : (run ops).perTrack.get? t with
    | none => simp [step_remove_none_track hs ht]
    | some e => simp [step_remove_ok hs ht]

/-- Adding never raises. -/
theorem C02_add (m : TM S T O) (s : S) (t : T) (o : O) : (m.step (.add s t o)).2 = none := rfl

example : ((run sampleOps).step (.remove 7 10)).2 = some .invalidShot ∧
    ((run sampleOps).step (.remove 1 12)).2 = some .invalidTrack ∧
    ((run sampleOps).step (.remove 2 11)).2 = none := by decide

/-- Lookups raise exactly for what is absent. -/
theorem C02_lookup (ops : List (Op S T O)) (s : S) (t : T) :
    ((run ops).getObservation s t = .error .invalidShot ↔ s ∉ addedShots ops) ∧
    ((run ops).getObservation s t = .error .invalidTrack ↔
      s ∈ addedShots ops ∧ lastWrite ops.reverse s t = none) ∧
    ((run ops).getShotObservations s = .error .invalidShot ↔ s ∉ addedShots ops) ∧
    ((run ops).getTrackObservations t = .error .invalidTrack ↔ t ∉ addedTracks ops) := by
  rw [← mem_shotIds, ← mem_trackIds, ← look2_run]
  unfold getShotIds getTrackIds getObservation getShotObservations getTrackObservations look2
  rw [Dict.mem_keys_iff, Dict.mem_keys_iff]
  refine ⟨?_, ?_, ?_, ?_⟩
  · cases (run ops).perShot.get? s with
    | none => simp
    | some d => cases hd : d.get? t <;> simp [hd]
  · cases (run ops).perShot.get? s with
    | none => simp
    | some d => cases hd : d.get? t <;> simp [hd]
  · cases (run ops).perShot.get? s <;> simp
  · cases (run ops).perTrack.get? t <;> simp

example : (run sampleOps).getObservation 2 11 = .error .invalidTrack ∧
    (run sampleOps).getObservation 3 11 = .error .invalidShot := by decide

/-! ## C03 -/

/-- The sub manager holds `(s, t) ↦ o` iff `t` and `s` are selected and the original does. -/
theorem C03_sub (ops : List (Op S T O)) (tracks : List T) (shots : List S) (s : S) (t : T) (o : O) :
    ((run ops).constructSubTracksManager tracks shots).getObservation s t = .ok o ↔
      t ∈ tracks ∧ s ∈ shots ∧ (run ops).getObservation s t = .ok o := by
  rw [getObservation_ok_iff, getObservation_ok_iff, look2_sub (inv_run ops)]
  by_cases h : t ∈ tracks ∧ s ∈ shots
  · simp [h]
  · rw [if_neg h]
    simp only [reduceCtorEq, false_iff]
    rintro ⟨h1, h2, _⟩; exact h ⟨h1, h2⟩

/-- The sub manager is itself a manager produced by a history of calls, so C01 and C02 apply
to it (in particular its two views agree). -/
theorem C03_sub_reachable (m : TM S T O) (tracks : List T) (shots : List S) :
    Reachable (m.constructSubTracksManager tracks shots) := reachable_sub m tracks shots

example : ((run sampleOps).constructSubTracksManager [10, 99] [2]).getShotObservations 2 =
      .ok [(10, "b")] ∧
    ((run sampleOps).constructSubTracksManager [10, 99] [2]).getShotIds = [2] := by decide

/-! ## C04 -/

theorem mem_common {m : TM S T O} (h : Inv m) {s1 s2 : S} {l : List (T × O × O)}
    (hl : m.getAllCommonObservations s1 s2 = .ok l) (t : T) (o1 o2 : O) :
    (t, o1, o2) ∈ l ↔ look2 m.perShot s1 t = some o1 ∧ look2 m.perShot s2 t = some o2 := by
  unfold getAllCommonObservations at hl
  split at hl
  · rename_i d1 d2 h1 h2
    cases hl
    simp only [List.mem_filterMap, Option.map_eq_some_iff, Prod.mk.injEq, look2, h1, h2,
      Option.bind_some]
    constructor
    · rintro ⟨⟨t', o'⟩, hm, o2', hg, rfl, rfl, rfl⟩
      exact ⟨Dict.get?_of_mem (h.wfS.2 _ _ h1) hm, hg⟩
    · rintro ⟨hg1, hg2⟩
      exact ⟨(t, o1), Dict.mem_of_get? hg1, o2, hg2, rfl, rfl, rfl⟩
  · cases hl

/-- The list contains `(t, o1, o2)` iff `t` is seen in `s1` as `o1` and in `s2` as `o2`;
each track appears once; an exception is raised iff one of the shots was never added. -/
theorem C04_common (ops : List (Op S T O)) (s1 s2 : S) :
    (∀ l, (run ops).getAllCommonObservations s1 s2 = .ok l →
      (l.map Prod.fst).Nodup ∧
      ∀ t o1 o2, (t, o1, o2) ∈ l ↔
        lastWrite ops.reverse s1 t = some o1 ∧ lastWrite ops.reverse s2 t = some o2) ∧
    ((∃ e, (run ops).getAllCommonObservations s1 s2 = .error e) ↔
      s1 ∉ addedShots ops ∨ s2 ∉ addedShots ops) := by
  refine ⟨?_, ?_⟩
  · intro l hl
    refine ⟨?_, fun t o1 o2 => by rw [mem_common (inv_run ops) hl, look2_run, look2_run]⟩
    unfold getAllCommonObservations at hl
    split at hl
    · rename_i d1 d2 h1 h2
      cases hl
      have hw : (d1.map Prod.fst).Nodup := (inv_run ops).wfS.2 _ _ h1
      rw [List.map_filterMap]
      refine hw.sublist ?_
      clear h1 hw
      induction d1 with
      | nil => simp
      | cons p l ih =>
        cases hg : d2.get? p.1 with
        | none => simpa [List.filterMap_cons, hg] using ih.cons _
        | some v => simpa [List.filterMap_cons, hg] using ih
    · cases hl
  · rw [← mem_shotIds, ← mem_shotIds]
    unfold getShotIds getAllCommonObservations
    rw [Dict.mem_keys_iff, Dict.mem_keys_iff]
    cases (run ops).perShot.get? s1 <;> cases (run ops).perShot.get? s2 <;> simp

example : (run sampleOps).getAllCommonObservations 1 2 = .ok [(10, "a2", "b")] ∧
    (run sampleOps).getAllCommonObservations 1 3 = .error .invalidShot := by decide

/-! ## C05 -/

/-- Number of tracks of the list `tracks` seen live in both shots. -/
def sharedTracks (ops : List (Op S T O)) (tracks : List T) (a b : S) : Nat :=
  tracks.countP fun t =>
    (lastWrite ops.reverse a t).isSome ∧ (lastWrite ops.reverse b t).isSome

/-- `get_all_pairs_connectivity` maps `(a, b)` to `k` iff `a < b`, both are considered shots and
they share `k > 0` considered tracks (empty argument lists mean: all). -/
theorem C05_connectivity (lt : S → S → Bool) (ops : List (Op S T O)) (shots : List S)
    (tracks : List T) (a b : S) (k : Nat) :
    ((run ops).getAllPairsConnectivity lt shots tracks).get? (a, b) = some k ↔
      lt a b = true ∧ (shots = [] ∧ a ∈ addedShots ops ∧ b ∈ addedShots ops ∨ a ∈ shots ∧ b ∈ shots) ∧
      k > 0 ∧ k = sharedTracks ops (if tracks = [] then (addedTracks ops).dedup else tracks) a b := by
  rw [connectivity_eq, get?_foldl_incr, count_allPairs (inv_run ops)]
  have hshots : ∀ x, x ∈ (if shots.isEmpty then (run ops).perShot.keys else shots) ↔
      (shots = [] ∧ x ∈ addedShots ops ∨ x ∈ shots) := by
    intro x
    cases shots with
    | nil => simpa [getShotIds] using mem_shotIds ops x
    | cons y l => simp
  have hcount : List.countP (fun t => decide ((look2 (run ops).perShot a t).isSome = true ∧
        (look2 (run ops).perShot b t).isSome = true))
        (if tracks.isEmpty then (run ops).perTrack.keys else tracks) =
      sharedTracks ops (if tracks = [] then (addedTracks ops).dedup else tracks) a b := by
    unfold sharedTracks
    simp only [look2_run]
    cases tracks with
    | nil => simpa [getTrackIds] using (C02_trackIds ops).1.countP_eq _
    | cons y l => simp
  rw [hcount]
  simp only [hshots, Dict.get?_nil, Option.getD_none, Nat.zero_add]
  generalize sharedTracks ops _ a b = n
  have hdisj : ((shots = [] ∧ a ∈ addedShots ops ∨ a ∈ shots) ∧
      (shots = [] ∧ b ∈ addedShots ops ∨ b ∈ shots)) ↔
      (shots = [] ∧ a ∈ addedShots ops ∧ b ∈ addedShots ops ∨ a ∈ shots ∧ b ∈ shots) := by
    by_cases h : shots = []
    · subst h; simp
    · simp [h]
  simp only [hdisj]
  by_cases hc : lt a b = true ∧
      (shots = [] ∧ a ∈ addedShots ops ∧ b ∈ addedShots ops ∨ a ∈ shots ∧ b ∈ shots)
  · rw [if_pos hc]
    rw [← and_assoc, and_iff_right hc]
    by_cases hn : n = 0
    · subst hn; simp; omega
    · simp only [hn, if_false, Option.some.injEq]
      omega
  · simp only [hc, if_false, if_true, reduceCtorEq, false_iff]
    rintro ⟨h1, h2, _⟩; exact hc ⟨h1, h2⟩

example : ((run sampleOps).getAllPairsConnectivity (fun a b => decide (a < b)) [] []) =
      [((1, 2), 1)] ∧
    ((run (sampleOps ++ [.add 2 11 "e"])).getAllPairsConnectivity (fun a b => decide (a < b)) [] [])
      = [((1, 2), 2)] ∧
    ((run sampleOps).getAllPairsConnectivity (fun a b => decide (a < b)) [1] []) = [] := by decide

end Verif.TM
