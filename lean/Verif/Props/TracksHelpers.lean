import Verif.Model.TracksHelpers
import Verif.Props.TracksManager

/-!
# C130: counting tracks, temporary connections

The specification is the one of C01 and C02: `lastWrite`, `addedShots` and `addedTracks` of a
history of calls.
-/
set_option linter.unusedSectionVars false
namespace Verif.TM
variable {S T O : Type} [DecidableEq S] [DecidableEq T]

theorem countOne_eq (tracks : List T) (d : Dict T O) :
    countOne tracks d = (d.keys.filter (fun t => decide (t ∈ tracks))).length := by
  have : ∀ (d : Dict T O) (n : Nat), d.foldl (fun sum p => if p.1 ∈ tracks then sum + 1 else sum) n =
      n + (d.keys.filter (fun t => decide (t ∈ tracks))).length := by
    intro d
    induction d with
    | nil => intro n; rfl
    | cons p d ih =>
      intro n
      rw [List.foldl_cons, ih]
      by_cases h : p.1 ∈ tracks
      · simp [h]; omega
      · simp [h]
  unfold countOne
  simpa using this d 0

theorem foldlM_count {m : TM S T O} {tracks : List T} (shots : List S) (d : Dict S Nat)
    (h : ∀ s ∈ shots, ∃ obs, m.getShotObservations s = .ok obs) :
    ∃ d', shots.foldlM (countStep m tracks) d = .ok d' ∧ (∀ s, s ∈ d'.keys ↔ s ∈ d.keys ∨ s ∈ shots) ∧
      (d.Wf → d'.Wf) ∧
      (∀ s, s ∉ shots → d'.get? s = d.get? s) ∧
      ∀ s ∈ shots, ∀ obs, m.getShotObservations s = .ok obs → d'.get? s = some (countOne tracks obs) := by
  induction shots generalizing d with
  | nil => exact ⟨d, rfl, by simp, id, fun _ _ => rfl, by simp⟩
  | cons a shots ih =>
    obtain ⟨obs, ho⟩ := h a (by simp)
    obtain ⟨d', h1, h2, h3, h4, h5⟩ := ih (d.set a (countOne tracks obs)) (fun s hs => h s (by simp [hs]))
    refine ⟨d', ?_, ?_, ?_, ?_, ?_⟩
    · rw [List.foldlM_cons]
      have : countStep m tracks d a = .ok (d.set a (countOne tracks obs)) := by
        unfold countStep; rw [ho]
      rw [this]; exact h1
    · intro s
      rw [h2, Dict.mem_keys_set]
      simp only [List.mem_cons]
      constructor
      · rintro ((h | h) | h)
        · exact .inr (.inl h)
        · exact .inl h
        · exact .inr (.inr h)
      · rintro (h | h | h)
        · exact .inl (.inr h)
        · exact .inl (.inl h)
        · exact .inr h
    · intro hw; exact h3 (Dict.wf_set hw _ _)
    · intro s hs
      simp only [List.mem_cons, not_or] at hs
      rw [h4 s hs.2, Dict.get?_set_ne _ _ (Ne.symm hs.1)]
    · intro s hs obs' ho'
      by_cases hm : s ∈ shots
      · exact h5 s hm obs' ho'
      · rcases List.mem_cons.1 hs with rfl | hs
        · rw [h4 s hm, Dict.get?_set_self]
          rw [ho] at ho'; cases ho'; rfl
        · exact absurd hs hm

/-- **The count of a shot is the number of different tracks of the list it observes**, whether shots or tracks are
repeated in the lists; each asked shot has one entry and no other shot has one. -/
theorem C130_count (ops : List (Op S T O)) (shots : List S) (tracks : List T)
    (h : ∀ s ∈ shots, s ∈ addedShots ops) :
    ∃ d, (run ops).countTracksPerShot shots tracks = .ok d ∧ d.keys.Nodup ∧ (∀ s, s ∈ d.keys ↔ s ∈ shots) ∧
      ∀ s ∈ shots, ∃ ts : List T, d.get? s = some ts.length ∧ ts.Nodup ∧
        ∀ t, t ∈ ts ↔ t ∈ tracks ∧ lastWrite ops.reverse s t ≠ none := by
  have hobs : ∀ s ∈ shots, ∃ obs, (run ops).getShotObservations s = .ok obs := by
    intro s hs
    cases hg : (run ops).getShotObservations s with
    | ok obs => exact ⟨obs, rfl⟩
    | error e =>
      exfalso
      have hn : s ∈ (run ops).getShotIds := (mem_shotIds ops s).2 (h s hs)
      unfold getShotIds at hn
      rw [Dict.mem_keys_iff] at hn
      unfold getShotObservations at hg
      cases hx : (run ops).perShot.get? s with
      | none => rw [hx] at hn; cases hn
      | some d => rw [hx] at hg; cases hg
  obtain ⟨d, h1, h2, h3, -, h5⟩ := foldlM_count (tracks := tracks) shots [] hobs
  refine ⟨d, h1, h3 Dict.wf_nil, fun s => by rw [h2]; simp, ?_⟩
  intro s hs
  obtain ⟨obs, ho⟩ := hobs s hs
  have hw : obs.keys.Nodup := by
    unfold getShotObservations at ho
    cases hx : (run ops).perShot.get? s with
    | none => rw [hx] at ho; cases ho
    | some e => rw [hx] at ho; cases ho; exact (inv_run ops).wfS.2 _ _ hx
  refine ⟨obs.keys.filter (fun t => decide (t ∈ tracks)), ?_, hw.filter _, ?_⟩
  · rw [h5 s hs obs ho, countOne_eq]
  · intro t
    rw [List.mem_filter, decide_eq_true_iff, and_comm]
    refine and_congr_right fun _ => ?_
    constructor
    · intro hk
      rw [Dict.mem_keys_iff] at hk
      obtain ⟨o, ho'⟩ := Option.isSome_iff_exists.1 hk
      rw [(C01_shotView ops s t o).1 ⟨obs, ho, Dict.mem_of_get? ho'⟩]
      simp
    · intro hl
      obtain ⟨o, hl⟩ := Option.ne_none_iff_exists'.1 hl
      obtain ⟨obs', ho', hm⟩ := (C01_shotView ops s t o).2 hl
      rw [ho] at ho'; cases ho'
      exact List.mem_map.2 ⟨_, hm, rfl⟩

/-- **Asking for a shot that was never added raises.** -/
theorem C130_count_raises (ops : List (Op S T O)) (shots : List S) (tracks : List T)
    (h : ∃ s ∈ shots, s ∉ addedShots ops) :
    (run ops).countTracksPerShot shots tracks = .error .invalidShot := by
  unfold countTracksPerShot
  generalize ([] : Dict S Nat) = d
  induction shots generalizing d with
  | nil => obtain ⟨s, hs, _⟩ := h; cases hs
  | cons a shots ih =>
    rw [List.foldlM_cons]
    unfold countStep
    cases hg : (run ops).getShotObservations a with
    | error e =>
      unfold getShotObservations at hg
      cases hx : (run ops).perShot.get? a with
      | none => rw [hx] at hg; cases hg; rfl
      | some d => rw [hx] at hg; cases hg
    | ok obs =>
      have ha : a ∈ addedShots ops := by
        rw [← mem_shotIds]
        unfold getShotIds
        rw [Dict.mem_keys_iff]
        unfold getShotObservations at hg
        cases hx : (run ops).perShot.get? a with
        | none => rw [hx] at hg; cases hg
        | some d => rfl
      obtain ⟨s, hs, hn⟩ := h
      rcases List.mem_cons.1 hs with rfl | hs
      · exact absurd ha hn
      · exact ih ⟨s, hs, hn⟩ _

example : (run sampleOps).countTracksPerShot [2, 1, 2] [10, 11, 10] = .ok [(2, 1), (1, 2)] := by decide

theorem addConnections_run (dflt : O) (ops : List (Op S T O)) (s : S) (ts : List T) :
    addConnections dflt (run ops) s ts = run (ops ++ ts.map fun t => .add s t dflt) := by
  induction ts generalizing ops with
  | nil => simp [addConnections]
  | cons t ts ih =>
    have := ih (ops ++ [.add s t dflt])
    rw [run_snoc] at this
    simpa [addConnections, step] using this

/-- **Adding connections is adding the default observation for each of the tracks, one after the other**; the
observations of these tracks in the shot are replaced, also the real ones, and all others stay. -/
theorem C130_add (dflt : O) (ops : List (Op S T O)) (s : S) (ts : List T) :
    addConnections dflt (run ops) s ts = run (ops ++ ts.map fun t => .add s t dflt) ∧
    ∀ s' t' o, (addConnections dflt (run ops) s ts).getObservation s' t' = .ok o ↔
      (s' = s ∧ t' ∈ ts ∧ o = dflt) ∨ (¬ (s' = s ∧ t' ∈ ts) ∧ (run ops).getObservation s' t' = .ok o) := by
  refine ⟨addConnections_run dflt ops s ts, ?_⟩
  intro s' t' o
  rw [addConnections_run, C01_getObservation, C01_getObservation, List.reverse_append]
  generalize ops.reverse = l
  induction ts using List.reverseRecOn with
  | nil => simp
  | append_singleton ts t ih =>
    rw [List.map_append, List.reverse_append]
    rw [List.map_cons, List.map_nil, List.reverse_singleton, List.append_assoc, List.singleton_append, lastWrite]
    by_cases h : s = s' ∧ t = t'
    · obtain ⟨rfl, rfl⟩ := h
      simp [eq_comm]
    · rw [if_neg h, ih]
      simp only [List.mem_append, List.mem_singleton]
      constructor
      · rintro (⟨a, b, c⟩ | ⟨a, b⟩)
        · exact .inl ⟨a, .inl b, c⟩
        · refine .inr ⟨?_, b⟩
          rintro ⟨rfl, hm | rfl⟩
          · exact a ⟨rfl, hm⟩
          · exact h ⟨rfl, rfl⟩
      · rintro (⟨rfl, b | rfl, c⟩ | ⟨a, b⟩)
        · exact .inl ⟨rfl, b, c⟩
        · exact absurd ⟨rfl, rfl⟩ h
        · exact .inr ⟨fun hc => a ⟨hc.1, .inl hc.2⟩, b⟩

theorem remove_known {ops : List (Op S T O)} {s : S} {t : T} (hs : s ∈ addedShots ops) (ht : t ∈ addedTracks ops) :
    (run ops).removeObservation s t = .ok (run (ops ++ [.remove s t])) := by
  have h := C02_remove ops s t
  rw [run_snoc]
  cases hr : (run ops).removeObservation s t with
  | ok m' => simp [step, hr]
  | error e =>
    exfalso
    have : ((run ops).step (.remove s t)).2 = some e := by simp [step, hr]
    cases e with
    | invalidShot => exact h.1.1 this hs
    | invalidTrack => exact (h.2.1.1 this).2 ht

theorem remove_unknown {ops : List (Op S T O)} {s : S} {t : T} :
    (s ∉ addedShots ops → (run ops).removeObservation s t = .error .invalidShot) ∧
    (s ∈ addedShots ops → t ∉ addedTracks ops → (run ops).removeObservation s t = .error .invalidTrack) := by
  have h := C02_remove ops s t
  constructor
  · intro hs
    have := h.1.2 hs
    cases hr : (run ops).removeObservation s t with
    | ok m' => simp [step, hr] at this
    | error e => simp [step, hr] at this; rw [this]
  · intro hs ht
    have := h.2.1.2 ⟨hs, ht⟩
    cases hr : (run ops).removeObservation s t with
    | ok m' => simp [step, hr] at this
    | error e => simp [step, hr] at this; rw [this]

theorem added_removes (ops : List (Op S T O)) (s : S) (ts : List T) :
    addedShots (ops ++ ts.map fun t => .remove s t) = addedShots ops ∧
    addedTracks (ops ++ ts.map fun t => .remove s t) = addedTracks ops := by
  induction ts with
  | nil => simp
  | cons t ts ih =>
    simp only [addedShots, addedTracks, List.filterMap_append, List.map_cons, List.filterMap_cons] at ih ⊢
    exact ih

theorem removeConnections_pre (ops : List (Op S T O)) (s : S) (pre post : List T)
    (hs : s ∈ addedShots ops) (ht : ∀ t ∈ pre, t ∈ addedTracks ops) :
    removeConnections (run ops) s (pre ++ post) =
      removeConnections (run (ops ++ pre.map fun t => .remove s t)) s post := by
  induction pre generalizing ops with
  | nil => simp
  | cons t pre ih =>
    have h1 := added_removes ops s [t]
    simp only [List.map_cons, List.map_nil] at h1
    rw [List.cons_append, removeConnections, remove_known hs (ht t (by simp))]
    show removeConnections (run (ops ++ [.remove s t])) s (pre ++ post) = _
    rw [ih _ (by rw [h1.1]; exact hs) (fun u hu => by rw [h1.2]; exact ht u (by simp [hu]))]
    simp

/-- **Removing connections of a known shot and known tracks removes exactly these observations and raises
nothing, whether they existed or not.** -/
theorem C130_remove (ops : List (Op S T O)) (s : S) (ts : List T) (hs : s ∈ addedShots ops)
    (ht : ∀ t ∈ ts, t ∈ addedTracks ops) :
    removeConnections (run ops) s ts = (run (ops ++ ts.map fun t => .remove s t), none) ∧
    ∀ s' t' o, (removeConnections (run ops) s ts).1.getObservation s' t' = .ok o ↔
      ¬ (s' = s ∧ t' ∈ ts) ∧ (run ops).getObservation s' t' = .ok o := by
  have h := removeConnections_pre ops s ts [] hs ht
  rw [List.append_nil, removeConnections] at h
  refine ⟨h, ?_⟩
  intro s' t' o
  rw [h, C01_getObservation, C01_getObservation, List.reverse_append]
  clear h ht
  generalize ops.reverse = l
  induction ts using List.reverseRecOn with
  | nil => simp
  | append_singleton ts t ih =>
    rw [List.map_append, List.reverse_append]
    rw [List.map_cons, List.map_nil, List.reverse_singleton, List.append_assoc, List.singleton_append, lastWrite]
    by_cases h : s = s' ∧ t = t'
    · obtain ⟨rfl, rfl⟩ := h
      simp
    · rw [if_neg h, ih]
      simp only [List.mem_append, List.mem_singleton]
      refine and_congr_left fun _ => not_congr ?_
      constructor
      · rintro ⟨a, b⟩; exact ⟨a, .inl b⟩
      · rintro ⟨rfl, b | rfl⟩
        · exact ⟨rfl, b⟩
        · exact absurd ⟨rfl, rfl⟩ h

/-- **Removing raises at the first track that was never added, with the connections before it gone and those after
it left; for a shot that was never added it raises at once and changes nothing; with no connections it does
nothing.** -/
theorem C130_remove_raises (ops : List (Op S T O)) (s : S) :
    (s ∈ addedShots ops → ∀ (pre post : List T) (t : T), (∀ u ∈ pre, u ∈ addedTracks ops) →
      t ∉ addedTracks ops → removeConnections (run ops) s (pre ++ t :: post) =
        (run (ops ++ pre.map fun u => .remove s u), some .invalidTrack)) ∧
    (s ∉ addedShots ops → ∀ (t : T) (ts : List T),
      removeConnections (run ops) s (t :: ts) = (run ops, some .invalidShot)) ∧
    removeConnections (run ops) s [] = (run ops, none) := by
  refine ⟨?_, ?_, rfl⟩
  · intro hs pre post t hp ht
    rw [removeConnections_pre ops s pre _ hs hp, removeConnections]
    have h1 := added_removes ops s pre
    rw [(remove_unknown (ops := ops ++ pre.map fun t => Op.remove s t) (s := s) (t := t)).2
      (by rw [h1.1]; exact hs) (by rw [h1.2]; exact ht)]
  · intro hs t ts
    rw [removeConnections, remove_unknown.1 hs]

/-- **Connections added and removed again: nothing is raised, every observation of the shot in one of these tracks
is gone, also one that was there before, and all others are as before.** The shot stays registered. -/
theorem C130_temporary (dflt : O) (ops : List (Op S T O)) (s : S) (ts : List T) (hne : ts ≠ []) :
    let r := removeConnections (addConnections dflt (run ops) s ts) s ts
    r.2 = none ∧
    (∀ s' t' o, r.1.getObservation s' t' = .ok o ↔
      ¬ (s' = s ∧ t' ∈ ts) ∧ (run ops).getObservation s' t' = .ok o) ∧
    (∀ s', s' ∈ r.1.getShotIds ↔ s' = s ∨ s' ∈ (run ops).getShotIds) ∧
    (∀ t', t' ∈ r.1.getTrackIds ↔ t' ∈ ts ∨ t' ∈ (run ops).getTrackIds) := by
  have hS : ∀ s', s' ∈ addedShots (ops ++ ts.map fun t => .add s t dflt) ↔ s' = s ∨ s' ∈ addedShots ops := by
    intro s'
    simp only [addedShots, List.filterMap_append, List.mem_append, List.filterMap_map]
    rw [or_comm]
    refine or_congr ?_ Iff.rfl
    rw [List.mem_filterMap]
    constructor
    · rintro ⟨a, _, h⟩; simp at h; exact h.symm
    · rintro rfl
      obtain ⟨t, ht⟩ := List.exists_mem_of_ne_nil ts hne
      exact ⟨t, ht, rfl⟩
  have hT : ∀ t', t' ∈ addedTracks (ops ++ ts.map fun t => .add s t dflt) ↔ t' ∈ ts ∨ t' ∈ addedTracks ops := by
    intro t'
    simp only [addedTracks, List.filterMap_append, List.mem_append, List.filterMap_map]
    rw [or_comm]
    refine or_congr ?_ Iff.rfl
    rw [List.mem_filterMap]
    constructor
    · rintro ⟨a, ha, h⟩; simp at h; exact h ▸ ha
    · intro h; exact ⟨t', h, rfl⟩
  have ha := C130_add dflt ops s ts
  obtain ⟨h1, h2⟩ := C130_remove (ops ++ ts.map fun t => .add s t dflt) s ts ((hS s).2 (.inl rfl))
    (fun t ht => (hT t).2 (.inl ht))
  have h3 := added_removes (ops ++ ts.map fun t => .add s t dflt) s ts
  rw [ha.1]
  refine ⟨by rw [h1], ?_, ?_, ?_⟩
  · intro s' t' o
    rw [h2, ← ha.1, ha.2]
    constructor
    · rintro ⟨a, ⟨b, c, _⟩ | ⟨_, b⟩⟩
      · exact absurd ⟨b, c⟩ a
      · exact ⟨a, b⟩
    · rintro ⟨a, b⟩; exact ⟨a, .inr ⟨a, b⟩⟩
  · intro s'
    rw [h1, mem_shotIds, mem_shotIds, h3.1, hS]
  · intro t'
    rw [h1, mem_trackIds, mem_trackIds, h3.2, hT]

/-- The real observation `"a2"` of track 10 in shot 1 does not survive a temporary connection. -/
example : (run sampleOps).getObservation 1 10 = .ok "a2" ∧
    (removeConnections (addConnections "" (run sampleOps) 1 [10, 12]) 1 [10, 12]).1.getObservation 1 10 =
      .error .invalidTrack ∧
    (removeConnections (addConnections "" (run sampleOps) 1 [10, 12]) 1 [10, 12]).1.getObservation 1 11 =
      .ok "c" := by decide

example : (removeConnections (run sampleOps) 1 [10, 99, 11]).2 = some .invalidTrack ∧
    (removeConnections (run sampleOps) 1 [10, 99, 11]).1.getObservation 1 11 = .ok "c" ∧
    (removeConnections (run sampleOps) 1 [10, 99, 11]).1.getObservation 1 10 = .error .invalidTrack := by decide

end Verif.TM
