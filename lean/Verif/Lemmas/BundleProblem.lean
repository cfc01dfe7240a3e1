import Verif.Model.BundleProblem
import Mathlib.Data.List.Basic

/-! What a sequence of calls on a bundle adjuster builds. -/
set_option linter.unusedSectionVars false
set_option linter.unusedSimpArgs false
namespace Verif.BundleProblem
open Verif.Superimpose
variable {Id Cam Bias P V O E : Type} [DecidableEq Id]

/-- The block of every key: the value of one of the entries, constant if one of the entries says so. -/
def Field {X : Type} (L : List (Id × X × Bool)) (d : Dict Id (Blk X)) : Prop :=
  (∀ k, d.get? k = none → ∀ v c, (k, v, c) ∉ L) ∧
  ∀ k b, d.get? k = some b → (∃ c, (k, b.value, c) ∈ L) ∧ (b.const = true ↔ ∃ v, (k, v, true) ∈ L)

theorem field_nil {X : Type} : Field (X := X) ([] : List (Id × X × Bool)) [] :=
  ⟨fun _ _ _ _ h => absurd h (by simp), fun _ _ h => absurd h (by simp)⟩

theorem field_emplace {X : Type} {L : List (Id × X × Bool)} {d : Dict Id (Blk X)} (h : Field L d) (k : Id) (v : X) (c : Bool) :
    Field (L ++ [(k, v, c)]) (emplace d k v c) := by
  unfold emplace
  obtain ⟨h1, h2⟩ := h
  cases hk : d.get? k with
  | none =>
    simp only
    refine ⟨?_, ?_⟩
    · intro k' hn v' c' hm
      rw [Dict.get?_set] at hn
      by_cases e : k = k'
      · rw [if_pos e] at hn; exact absurd hn (by simp)
      · rw [if_neg e] at hn
        rcases List.mem_append.1 hm with hm | hm
        · exact h1 k' hn v' c' hm
        · simp at hm; exact e hm.1.symm
    · intro k' b hb
      rw [Dict.get?_set] at hb
      by_cases e : k = k'
      · rw [if_pos e] at hb
        simp only [Option.some.injEq] at hb
        subst e hb
        refine ⟨⟨c, by simp⟩, ?_⟩
        simp only [List.mem_append, List.mem_singleton, Prod.mk.injEq, true_and]
        constructor
        · intro hc; exact ⟨v, Or.inr ⟨rfl, hc.symm⟩⟩
        · rintro ⟨v', hm | ⟨-, hc⟩⟩
          · exact absurd hm (h1 k hk v' true)
          · exact hc.symm
      · rw [if_neg e] at hb
        obtain ⟨⟨c', hc'⟩, h4⟩ := h2 k' b hb
        refine ⟨⟨c', List.mem_append_left _ hc'⟩, h4.trans ?_⟩
        constructor
        · rintro ⟨v', hm⟩; exact ⟨v', List.mem_append_left _ hm⟩
        · rintro ⟨v', hm⟩
          rcases List.mem_append.1 hm with hm | hm
          · exact ⟨v', hm⟩
          · simp at hm; exact absurd hm.1.symm e
  | some b0 =>
    simp only
    obtain ⟨⟨c0, hc0⟩, h4⟩ := h2 k b0 hk
    refine ⟨?_, ?_⟩
    · intro k' hn v' c' hm
      rw [Dict.get?_set] at hn
      by_cases e : k = k'
      · rw [if_pos e] at hn; exact absurd hn (by simp)
      · rw [if_neg e] at hn
        rcases List.mem_append.1 hm with hm | hm
        · exact h1 k' hn v' c' hm
        · simp at hm; exact e hm.1.symm
    · intro k' b hb
      rw [Dict.get?_set] at hb
      by_cases e : k = k'
      · rw [if_pos e] at hb
        simp only [Option.some.injEq] at hb
        subst e hb
        refine ⟨⟨c0, List.mem_append_left _ hc0⟩, ?_⟩
        simp only [Bool.or_eq_true, List.mem_append, List.mem_singleton, Prod.mk.injEq, true_and]
        constructor
        · rintro (hc | hc)
          · obtain ⟨v', hm⟩ := h4.1 hc
            exact ⟨v', Or.inl hm⟩
          · exact ⟨v, Or.inr ⟨rfl, hc.symm⟩⟩
        · rintro ⟨v', hm | ⟨-, hc⟩⟩
          · exact Or.inl (h4.2 ⟨v', hm⟩)
          · exact Or.inr hc.symm
      · rw [if_neg e] at hb
        obtain ⟨⟨c', hc'⟩, h4⟩ := h2 k' b hb
        refine ⟨⟨c', List.mem_append_left _ hc'⟩, h4.trans ?_⟩
        constructor
        · rintro ⟨v', hm⟩; exact ⟨v', List.mem_append_left _ hm⟩
        · rintro ⟨v', hm⟩
          rcases List.mem_append.1 hm with hm | hm
          · exact ⟨v', hm⟩
          · simp at hm; exact absurd hm.1.symm e

theorem field_has {X : Type} {L : List (Id × X × Bool)} {d : Dict Id (Blk X)} (h : Field L d) (k : Id) :
    d.has k = true ↔ ∃ v c, (k, v, c) ∈ L := by
  unfold Dict.has
  cases hk : d.get? k with
  | none => simp only [Option.isSome_none]; constructor
            · intro h; exact absurd h (by simp)
            · rintro ⟨v, c, hm⟩; exact absurd hm (h.1 k hk v c)
  | some b =>
    simp only [Option.isSome_some, true_iff]
    obtain ⟨⟨c, hc⟩, -⟩ := h.2 k b hk
    exact ⟨b.value, c, hc⟩

/-- After the minimisation, if all entries of a key have the same value. -/
theorem field_after {X : Type} {L : List (Id × X × Bool)} {d : Dict Id (Blk X)} (h : Field L d) (new : Id → X) (k : Id) (v : X)
    (hex : ∃ v c, (k, v, c) ∈ L) (hv : ∀ v' c, (k, v', c) ∈ L → v' = v) :
    ((∃ v', (k, v', true) ∈ L) → after d new k = some v) ∧
    ((∀ v' c, (k, v', c) ∈ L → c = false) → after d new k = some (new k)) := by
  have hh := (field_has h k).2 hex
  unfold Dict.has at hh
  unfold after
  cases hk : d.get? k with
  | none => rw [hk] at hh; exact absurd hh (by simp)
  | some b =>
    obtain ⟨⟨c, hc⟩, h4⟩ := h.2 k b hk
    simp only [Option.map_some, Option.some.injEq]
    refine ⟨fun hx => ?_, fun hx => ?_⟩
    · rw [if_pos (h4.2 hx)]; exact hv _ _ hc
    · rw [if_neg]
      intro hb
      obtain ⟨v', hm⟩ := h4.1 hb
      exact absurd (hx v' true hm) (by simp)

/-! ### The entries of calls -/

/-- Calls of each kind. -/
def camEntry : Call Id Cam Bias P V O → Option (Id × Cam × Bool)
  | .camera i v c => some (i, v, c)
  | _ => none
/-- See `camEntry`. -/
def rigEntry : Call Id Cam Bias P V O → Option (Id × P × Bool)
  | .rigCamera i v c => some (i, v, c)
  | _ => none
/-- See `camEntry`. -/
def instEntry : Call Id Cam Bias P V O → Option (Id × P × Bool)
  | .inst i v _ c => some (i, v, c)
  | _ => none
/-- See `camEntry`. -/
def pointEntry : Call Id Cam Bias P V O → Option (Id × V × Bool)
  | .point i v c => some (i, v, c)
  | _ => none
/-- See `camEntry`. -/
def obsEntry : Call Id Cam Bias P V O → Option (Id × Id × O)
  | .obs s p o => some (s, p, o)
  | _ => none
/-- See `camEntry`. -/
def shotEntries : Call Id Cam Bias P V O → List Id
  | .inst _ _ sh _ => sh.map (·.1)
  | _ => []
/-- See `camEntry`. -/
def biasEntry : Call Id Cam Bias P V O → Option (Id × Bias)
  | .bias i v => some (i, v)
  | _ => none
/-- See `camEntry`. -/
def priorEntry (i : Id) : Call Id Cam Bias P V O → Option (Vec 3 × ℝ)
  | .prior j x s => if j = i then some (x, s) else none
  | _ => none

/-- What has been built by some calls. -/
structure Built (identity : Bias) (cs : List (Call Id Cam Bias P V O)) (ba : BA Id Cam Bias P V O) : Prop where
  cams : Field (cs.filterMap camEntry) ba.cameras
  rigs : Field (cs.filterMap rigEntry) ba.rigCameras
  insts : Field (cs.filterMap instEntry) ba.instances
  points : Field (cs.filterMap pointEntry) ba.points
  obs : ba.obs = cs.filterMap obsEntry
  shots : ∀ s, ba.shots.has s = true ↔ s ∈ cs.flatMap shotEntries
  biasHas : ∀ k, ba.biases.has k = true ↔ ∃ v c, (k, v, c) ∈ cs.filterMap camEntry
  biasNone : ∀ k b, ba.biases.get? k = some b → (∀ v, (k, v) ∉ cs.filterMap biasEntry) → b = ⟨identity, true⟩
  priors : ∀ i, ba.priors.get? i = (cs.filterMap (priorEntry i)).getLast?

theorem built_empty (identity : Bias) : Built identity [] (BA.empty : BA Id Cam Bias P V O) :=
  ⟨field_nil, field_nil, field_nil, field_nil, rfl, fun _ => by simp [BA.empty, Dict.has], fun _ => by simp [BA.empty, Dict.has],
    fun _ _ h => absurd h (by simp [BA.empty]), fun _ => rfl⟩

/-- When a call does not raise. -/
def Ok (pre : List (Call Id Cam Bias P V O)) : Call Id Cam Bias P V O → Prop
  | .need b => b = true
  | .camera _ _ _ => True
  | .bias i _ => ∃ v c, (i, v, c) ∈ pre.filterMap camEntry
  | .rigCamera i _ _ => ∀ v c, (i, v, c) ∉ pre.filterMap rigEntry
  | .inst _ _ sh _ => ∀ q ∈ sh, (∃ v c, (q.2.1, v, c) ∈ pre.filterMap camEntry) ∧ ∃ v c, (q.2.2, v, c) ∈ pre.filterMap rigEntry
  | .prior i _ _ => ∃ v c, (i, v, c) ∈ pre.filterMap instEntry
  | .point _ _ _ => True
  | .obs s p _ => s ∈ pre.flatMap shotEntries ∧ ∃ v c, (p, v, c) ∈ pre.filterMap pointEntry

theorem has_insertNew {X : Type} (d : Dict Id X) (k k' : Id) (v : X) : (d.insertNew k v).has k' = true ↔ d.has k' = true ∨ k = k' := by
  unfold Dict.insertNew
  split
  · rename_i h
    constructor
    · exact Or.inl
    · rintro (h' | rfl)
      · exact h'
      · exact h
  · unfold Dict.has
    rw [Dict.get?_set]
    by_cases e : k = k'
    · simp [e]
    · simp [e]

theorem has_set {X : Type} (d : Dict Id X) (k k' : Id) (v : X) : (d.set k v).has k' = true ↔ d.has k' = true ∨ k = k' := by
  unfold Dict.has
  rw [Dict.get?_set]
  by_cases e : k = k'
  · simp [e]
  · simp [e]

theorem has_emplace {X : Type} (d : Dict Id (Blk X)) (k k' : Id) (v : X) (c : Bool) :
    (emplace d k v c).has k' = true ↔ d.has k' = true ∨ k = k' := by
  unfold emplace
  cases h : d.get? k with
  | none => exact has_set _ _ _ _
  | some b => exact has_set _ _ _ _

theorem addShots_spec (i : Id) : ∀ (sh : List (Id × Id × Id)) (ba : BA Id Cam Bias P V O),
    ((∀ q ∈ sh, ba.cameras.has q.2.1 = true ∧ ba.rigCameras.has q.2.2 = true) →
      ∃ ba', addShots ba i sh = some ba' ∧ ba' = { ba with shots := ba'.shots } ∧
        ∀ s, ba'.shots.has s = true ↔ ba.shots.has s = true ∨ s ∈ sh.map (·.1)) ∧
    (¬ (∀ q ∈ sh, ba.cameras.has q.2.1 = true ∧ ba.rigCameras.has q.2.2 = true) → addShots ba i sh = none) := by
  intro sh
  induction sh with
  | nil => intro ba; exact ⟨fun _ => ⟨ba, rfl, rfl, by simp⟩, fun h => absurd (by simp) h⟩
  | cons q sh ih =>
    obtain ⟨s, c, r⟩ := q
    intro ba
    obtain ⟨h1, h2⟩ := ih { ba with shots := ba.shots.insertNew s (c, r, i) }
    unfold addShots
    by_cases hq : ba.cameras.has c = true ∧ ba.rigCameras.has r = true
    · rw [if_pos (by simp [hq.1, hq.2])]
      refine ⟨fun h => ?_, fun h => ?_⟩
      · obtain ⟨ba', e1, e2, e3⟩ := h1 (fun q hq => h q (List.mem_cons_of_mem _ hq))
        refine ⟨ba', e1, by rw [e2], ?_⟩
        intro s'
        rw [e3]
        simp only
        rw [has_insertNew]
        simp only [List.map_cons, List.mem_cons]
        tauto
      · apply h2
        intro h'
        apply h
        intro q hq'
        rcases List.mem_cons.1 hq' with rfl | hq'
        · exact hq
        · exact h' q hq'
    · rw [if_neg (by simpa using hq)]
      exact ⟨fun h => absurd (h (s, c, r) (by simp)) hq, fun _ => rfl⟩

set_option maxHeartbeats 1000000 in
theorem step_spec (identity : Bias) (pre : List (Call Id Cam Bias P V O)) (ba : BA Id Cam Bias P V O) (hb : Built identity pre ba)
    (c : Call Id Cam Bias P V O) :
    (Ok pre c → ∃ ba', ba.step identity c = some ba' ∧ Built identity (pre ++ [c]) ba') ∧ (¬ Ok pre c → ba.step identity c = none) := by
  cases c with
  | need b =>
    cases b with
    | true =>
      refine ⟨fun _ => ⟨ba, rfl, ?_⟩, fun h => absurd rfl h⟩
      obtain ⟨a1, a2, a3, a4, a5, a6, a7, a8, a9⟩ := hb
      constructor
      · simpa [List.filterMap_append, List.filterMap_cons, List.filterMap_nil, camEntry] using a1
      · simpa [List.filterMap_append, List.filterMap_cons, List.filterMap_nil, rigEntry] using a2
      · simpa [List.filterMap_append, List.filterMap_cons, List.filterMap_nil, instEntry] using a3
      · simpa [List.filterMap_append, List.filterMap_cons, List.filterMap_nil, pointEntry] using a4
      · simpa [List.filterMap_append, List.filterMap_cons, List.filterMap_nil, obsEntry] using a5
      · simpa [shotEntries] using a6
      · simpa [List.filterMap_append, List.filterMap_cons, List.filterMap_nil, camEntry] using a7
      · simpa [List.filterMap_append, List.filterMap_cons, List.filterMap_nil, biasEntry] using a8
      · intro i'
        simpa [List.filterMap_append, List.filterMap_cons, List.filterMap_nil, priorEntry] using a9 i'
    | false => exact ⟨fun h => absurd h (by simp [Ok]), fun _ => rfl⟩
  | camera i v f =>
    refine ⟨fun _ => ⟨_, rfl, ?_⟩, fun h => absurd trivial h⟩
    obtain ⟨a1, a2, a3, a4, a5, a6, a7, a8, a9⟩ := hb
    constructor
    · simp only [List.filterMap_append, List.filterMap_cons, List.filterMap_nil, camEntry]
      exact field_emplace a1 i v f
    · simpa [List.filterMap_append, List.filterMap_cons, List.filterMap_nil, rigEntry] using a2
    · simpa [List.filterMap_append, List.filterMap_cons, List.filterMap_nil, instEntry] using a3
    · simpa [List.filterMap_append, List.filterMap_cons, List.filterMap_nil, pointEntry] using a4
    · simpa [List.filterMap_append, List.filterMap_cons, List.filterMap_nil, obsEntry] using a5
    · simpa [shotEntries] using a6
    · intro k
      simp only
      rw [has_emplace, a7 k]
      simp only [List.filterMap_append, List.filterMap_cons, List.filterMap_nil, camEntry, List.mem_append, List.mem_singleton, Prod.mk.injEq]
      constructor
      · rintro (⟨v', c', h⟩ | rfl)
        · exact ⟨v', c', Or.inl h⟩
        · exact ⟨v, f, Or.inr ⟨rfl, rfl, rfl⟩⟩
      · rintro ⟨v', c', h | h⟩
        · exact Or.inl ⟨v', c', h⟩
        · exact Or.inr h.1.symm
    · intro k b hk hn
      have hn' : ∀ v, (k, v) ∉ pre.filterMap biasEntry := by simpa [List.filterMap_append, List.filterMap_cons, List.filterMap_nil, biasEntry] using hn
      unfold emplace at hk
      cases hi : ba.biases.get? i with
      | none =>
        rw [hi] at hk
        simp only at hk
        rw [Dict.get?_set] at hk
        by_cases e : i = k
        · rw [if_pos e] at hk; simp only [Option.some.injEq] at hk; exact hk.symm
        · rw [if_neg e] at hk; exact a8 k b hk hn'
      | some b0 =>
        rw [hi] at hk
        simp only at hk
        rw [Dict.get?_set] at hk
        by_cases e : i = k
        · rw [if_pos e] at hk
          simp only [Option.some.injEq] at hk
          subst e
          have := a8 i b0 hi hn'
          subst this
          rw [← hk]
          rfl
        · rw [if_neg e] at hk; exact a8 k b hk hn'
    · intro i'
      simpa [List.filterMap_append, List.filterMap_cons, List.filterMap_nil, priorEntry] using a9 i'
  | bias i v =>
    obtain ⟨a1, a2, a3, a4, a5, a6, a7, a8, a9⟩ := hb
    refine ⟨fun h => ?_, fun h => ?_⟩
    · have hh := (a7 i).2 h
      refine ⟨{ ba with biases := ba.biases.set i ⟨v, false⟩ }, if_pos hh, ?_⟩
      constructor
      · simpa [List.filterMap_append, List.filterMap_cons, List.filterMap_nil, camEntry] using a1
      · simpa [List.filterMap_append, List.filterMap_cons, List.filterMap_nil, rigEntry] using a2
      · simpa [List.filterMap_append, List.filterMap_cons, List.filterMap_nil, instEntry] using a3
      · simpa [List.filterMap_append, List.filterMap_cons, List.filterMap_nil, pointEntry] using a4
      · simpa [List.filterMap_append, List.filterMap_cons, List.filterMap_nil, obsEntry] using a5
      · simpa [shotEntries] using a6
      · intro k
        simp only
        rw [has_set, a7 k]
        simp only [List.filterMap_append, List.filterMap_cons, List.filterMap_nil, camEntry, List.append_nil]
        constructor
        · rintro (h | rfl)
          · exact h
          · exact h
        · exact Or.inl
      · intro k b hk hn
        simp only [List.filterMap_append, List.filterMap_cons, List.filterMap_nil, biasEntry, List.mem_append, List.mem_singleton,
          Prod.mk.injEq, not_or, not_and] at hn
        simp only at hk
        rw [Dict.get?_set] at hk
        by_cases e : i = k
        · exact absurd rfl ((hn v).2 e.symm)
        · rw [if_neg e] at hk
          exact a8 k b hk (fun v => (hn v).1)
      · intro i'
        simpa [List.filterMap_append, List.filterMap_cons, List.filterMap_nil, priorEntry] using a9 i'
    · have hh : ¬ ba.biases.has i = true := fun hh => h ((a7 i).1 hh)
      exact if_neg hh
  | rigCamera i v f =>
    obtain ⟨a1, a2, a3, a4, a5, a6, a7, a8, a9⟩ := hb
    refine ⟨fun h => ?_, fun h => ?_⟩
    · have hh : ¬ ba.rigCameras.has i = true := fun hh => by
        obtain ⟨v', c', hm⟩ := (field_has a2 i).1 hh
        exact h v' c' hm
      refine ⟨_, if_neg hh, ?_⟩
      constructor
      · simpa [List.filterMap_append, List.filterMap_cons, List.filterMap_nil, camEntry] using a1
      · simp only [List.filterMap_append, List.filterMap_cons, List.filterMap_nil, rigEntry]
        exact field_emplace a2 i v f
      · simpa [List.filterMap_append, List.filterMap_cons, List.filterMap_nil, instEntry] using a3
      · simpa [List.filterMap_append, List.filterMap_cons, List.filterMap_nil, pointEntry] using a4
      · simpa [List.filterMap_append, List.filterMap_cons, List.filterMap_nil, obsEntry] using a5
      · simpa [shotEntries] using a6
      · simpa [List.filterMap_append, List.filterMap_cons, List.filterMap_nil, camEntry] using a7
      · simpa [List.filterMap_append, List.filterMap_cons, List.filterMap_nil, biasEntry] using a8
      · intro i'
        simpa [List.filterMap_append, List.filterMap_cons, List.filterMap_nil, priorEntry] using a9 i'
    · refine if_pos ?_
      unfold Ok at h
      push Not at h
      exact (field_has a2 i).2 h
  | inst i v sh f =>
    obtain ⟨a1, a2, a3, a4, a5, a6, a7, a8, a9⟩ := hb
    obtain ⟨h1, h2⟩ := addShots_spec i sh { ba with instances := emplace ba.instances i v f }
    have hok : Ok pre (.inst i v sh f) ↔ ∀ q ∈ sh, ba.cameras.has q.2.1 = true ∧ ba.rigCameras.has q.2.2 = true := by
      unfold Ok
      simp only [field_has a1, field_has a2]
    refine ⟨fun h => ?_, fun h => ?_⟩
    · obtain ⟨ba', e1, e2, e3⟩ := h1 (hok.1 h)
      refine ⟨ba', e1, ?_⟩
      constructor
      · rw [e2]; simpa [List.filterMap_append, List.filterMap_cons, List.filterMap_nil, camEntry] using a1
      · rw [e2]; simpa [List.filterMap_append, List.filterMap_cons, List.filterMap_nil, rigEntry] using a2
      · rw [e2]
        simp only [List.filterMap_append, List.filterMap_cons, List.filterMap_nil, instEntry]
        exact field_emplace a3 i v f
      · rw [e2]; simpa [List.filterMap_append, List.filterMap_cons, List.filterMap_nil, pointEntry] using a4
      · rw [e2]; simpa [List.filterMap_append, List.filterMap_cons, List.filterMap_nil, obsEntry] using a5
      · intro s
        rw [e3]
        simp only
        rw [a6 s]
        simp [shotEntries]
      · rw [e2]; simpa [List.filterMap_append, List.filterMap_cons, List.filterMap_nil, camEntry] using a7
      · rw [e2]; simpa [List.filterMap_append, List.filterMap_cons, List.filterMap_nil, biasEntry] using a8
      · intro i'
        rw [e2]
        simpa [List.filterMap_append, List.filterMap_cons, List.filterMap_nil, priorEntry] using a9 i'
    · exact h2 (fun h' => h (hok.2 h'))
  | prior i x s =>
    obtain ⟨a1, a2, a3, a4, a5, a6, a7, a8, a9⟩ := hb
    refine ⟨fun h => ?_, fun h => ?_⟩
    · refine ⟨_, if_pos ((field_has a3 i).2 h), ?_⟩
      constructor
      · simpa [List.filterMap_append, List.filterMap_cons, List.filterMap_nil, camEntry] using a1
      · simpa [List.filterMap_append, List.filterMap_cons, List.filterMap_nil, rigEntry] using a2
      · simpa [List.filterMap_append, List.filterMap_cons, List.filterMap_nil, instEntry] using a3
      · simpa [List.filterMap_append, List.filterMap_cons, List.filterMap_nil, pointEntry] using a4
      · simpa [List.filterMap_append, List.filterMap_cons, List.filterMap_nil, obsEntry] using a5
      · simpa [shotEntries] using a6
      · simpa [List.filterMap_append, List.filterMap_cons, List.filterMap_nil, camEntry] using a7
      · simpa [List.filterMap_append, List.filterMap_cons, List.filterMap_nil, biasEntry] using a8
      · intro i'
        simp only [List.filterMap_append, List.filterMap_cons, List.filterMap_nil, priorEntry]
        rw [Dict.get?_set]
        by_cases e : i = i'
        · simp [e]
        · simp [e, a9 i']
    · exact if_neg (fun h' => h ((field_has a3 i).1 h'))
  | point i v f =>
    obtain ⟨a1, a2, a3, a4, a5, a6, a7, a8, a9⟩ := hb
    refine ⟨fun _ => ⟨_, rfl, ?_⟩, fun h => absurd trivial h⟩
    constructor
    · simpa [List.filterMap_append, List.filterMap_cons, List.filterMap_nil, camEntry] using a1
    · simpa [List.filterMap_append, List.filterMap_cons, List.filterMap_nil, rigEntry] using a2
    · simpa [List.filterMap_append, List.filterMap_cons, List.filterMap_nil, instEntry] using a3
    · simp only [List.filterMap_append, List.filterMap_cons, List.filterMap_nil, pointEntry]
      exact field_emplace a4 i v f
    · simpa [List.filterMap_append, List.filterMap_cons, List.filterMap_nil, obsEntry] using a5
    · simpa [shotEntries] using a6
    · simpa [List.filterMap_append, List.filterMap_cons, List.filterMap_nil, camEntry] using a7
    · simpa [List.filterMap_append, List.filterMap_cons, List.filterMap_nil, biasEntry] using a8
    · intro i'
      simpa [List.filterMap_append, List.filterMap_cons, List.filterMap_nil, priorEntry] using a9 i'
  | obs s p o =>
    obtain ⟨a1, a2, a3, a4, a5, a6, a7, a8, a9⟩ := hb
    have hok : Ok pre (.obs s p o) ↔ (ba.shots.has s && ba.points.has p) = true := by
      unfold Ok
      rw [Bool.and_eq_true, a6 s, field_has a4]
    refine ⟨fun h => ?_, fun h => if_neg (fun h' => h (hok.2 h'))⟩
    refine ⟨_, if_pos (hok.1 h), ?_⟩
    constructor
    · simpa [List.filterMap_append, List.filterMap_cons, List.filterMap_nil, camEntry] using a1
    · simpa [List.filterMap_append, List.filterMap_cons, List.filterMap_nil, rigEntry] using a2
    · simpa [List.filterMap_append, List.filterMap_cons, List.filterMap_nil, instEntry] using a3
    · simpa [List.filterMap_append, List.filterMap_cons, List.filterMap_nil, pointEntry] using a4
    · simp [List.filterMap_append, List.filterMap_cons, List.filterMap_nil, obsEntry, a5]
    · simpa [shotEntries] using a6
    · simpa [List.filterMap_append, List.filterMap_cons, List.filterMap_nil, camEntry] using a7
    · simpa [List.filterMap_append, List.filterMap_cons, List.filterMap_nil, biasEntry] using a8
    · intro i'
      simpa [List.filterMap_append, List.filterMap_cons, List.filterMap_nil, priorEntry] using a9 i'

/-- Every call of a sequence is fine after the ones before it. -/
def OkAll (pre : List (Call Id Cam Bias P V O)) : List (Call Id Cam Bias P V O) → Prop
  | [] => True
  | c :: cs => Ok pre c ∧ OkAll (pre ++ [c]) cs

theorem run_spec (identity : Bias) : ∀ (cs pre : List (Call Id Cam Bias P V O)) (ba : BA Id Cam Bias P V O), Built identity pre ba →
    (OkAll pre cs → ∃ ba', BA.run identity cs ba = some ba' ∧ Built identity (pre ++ cs) ba') ∧
    (¬ OkAll pre cs → BA.run identity cs ba = none) := by
  intro cs
  induction cs with
  | nil => intro pre ba hb; exact ⟨fun _ => ⟨ba, rfl, by simpa using hb⟩, fun h => absurd trivial h⟩
  | cons c cs ih =>
    intro pre ba hb
    obtain ⟨h1, h2⟩ := step_spec identity pre ba hb c
    refine ⟨fun h => ?_, fun h => ?_⟩
    · obtain ⟨ba1, e1, hb1⟩ := h1 h.1
      obtain ⟨ba2, e2, hb2⟩ := (ih (pre ++ [c]) ba1 hb1).1 h.2
      refine ⟨ba2, ?_, by simpa using hb2⟩
      unfold BA.run
      rw [e1]
      exact e2
    · unfold BA.run
      by_cases hc : Ok pre c
      · obtain ⟨ba1, e1, hb1⟩ := h1 hc
        rw [e1]
        exact (ih (pre ++ [c]) ba1 hb1).2 (fun h' => h ⟨hc, h'⟩)
      · rw [h2 hc]

theorem run_built (identity : Bias) (cs : List (Call Id Cam Bias P V O)) (ba : BA Id Cam Bias P V O)
    (h : BA.run identity cs .empty = some ba) : Built identity cs ba ∧ OkAll [] cs := by
  obtain ⟨h1, h2⟩ := run_spec identity cs [] .empty (built_empty identity)
  by_cases ho : OkAll [] cs
  · obtain ⟨ba', e, hb⟩ := h1 ho
    rw [h] at e
    simp only [Option.some.injEq] at e
    subst e
    exact ⟨by simpa using hb, ho⟩
  · rw [h2 ho] at h
    exact absurd h (by simp)

theorem run_ok (identity : Bias) (cs : List (Call Id Cam Bias P V O)) (h : OkAll [] cs) :
    ∃ ba, BA.run identity cs .empty = some ba ∧ Built identity cs ba := by
  obtain ⟨ba, e, hb⟩ := (run_spec identity cs [] .empty (built_empty identity)).1 h
  exact ⟨ba, e, by simpa using hb⟩

theorem okAll_append (pre a b : List (Call Id Cam Bias P V O)) : OkAll pre (a ++ b) ↔ OkAll pre a ∧ OkAll (pre ++ a) b := by
  induction a generalizing pre with
  | nil => simp [OkAll]
  | cons c a ih => simp only [List.cons_append, OkAll, ih]; simp [and_assoc]

/-- What only gets easier with more calls before it. -/
theorem ok_mono {pre pre' : List (Call Id Cam Bias P V O)} (hs : pre ⊆ pre') {c : Call Id Cam Bias P V O} (hc : rigEntry c = none)
    (h : Ok pre c) : Ok pre' c := by
  have hf : ∀ {X : Type} (f : Call Id Cam Bias P V O → Option X) (x : X), x ∈ pre.filterMap f → x ∈ pre'.filterMap f := by
    intro X f x hx
    obtain ⟨a, ha, e⟩ := List.mem_filterMap.1 hx
    exact List.mem_filterMap.2 ⟨a, hs ha, e⟩
  cases c with
  | need b => exact h
  | camera i v f => trivial
  | bias i v => obtain ⟨v', c', hm⟩ := h; exact ⟨v', c', hf _ _ hm⟩
  | rigCamera i v f => exact absurd hc (by simp [rigEntry])
  | inst i v sh f =>
    intro q hq
    obtain ⟨⟨v1, c1, h1⟩, v2, c2, h2⟩ := h q hq
    exact ⟨⟨v1, c1, hf _ _ h1⟩, v2, c2, hf _ _ h2⟩
  | prior i x s => obtain ⟨v', c', hm⟩ := h; exact ⟨v', c', hf _ _ hm⟩
  | point i v f => trivial
  | obs s p o =>
    obtain ⟨h1, v', c', hm⟩ := h
    refine ⟨?_, v', c', hf _ _ hm⟩
    obtain ⟨a, ha, e⟩ := List.mem_flatMap.1 h1
    exact List.mem_flatMap.2 ⟨a, hs ha, e⟩

theorem okAll_of_ok (pre cs : List (Call Id Cam Bias P V O)) (h : ∀ c ∈ cs, Ok pre c ∧ rigEntry c = none) : OkAll pre cs := by
  suffices ∀ (cs pre' : List (Call Id Cam Bias P V O)), pre ⊆ pre' → (∀ c ∈ cs, Ok pre c ∧ rigEntry c = none) → OkAll pre' cs from
    this cs pre (fun _ h => h) h
  intro cs
  induction cs with
  | nil => intro _ _ _; trivial
  | cons c cs ih =>
    intro pre' hs h
    exact ⟨ok_mono hs (h c (by simp)).2 (h c (by simp)).1,
      ih _ (fun x hx => List.mem_append_left _ (hs hx)) (fun c' hc' => h c' (List.mem_cons_of_mem _ hc'))⟩

theorem okAll_flatMap {X : Type} (f : X → List (Call Id Cam Bias P V O)) : ∀ (l : List X) (pre : List (Call Id Cam Bias P V O)),
    (∀ pre', pre ⊆ pre' → ∀ x ∈ l, OkAll pre' (f x)) → OkAll pre (l.flatMap f) := by
  intro l
  induction l with
  | nil => intro _ _; trivial
  | cons x l ih =>
    intro pre h
    rw [List.flatMap_cons, okAll_append]
    exact ⟨h pre (fun _ h => h) x (by simp),
      ih _ (fun pre' hs y hy => h pre' (fun z hz => hs (List.mem_append_left _ hz)) y (List.mem_cons_of_mem _ hy))⟩

/-- A call in a sequence that is fine. -/
theorem ok_of_okAll {pre cs : List (Call Id Cam Bias P V O)} (h : OkAll pre cs) {c : Call Id Cam Bias P V O} (hc : c ∈ cs)
    (hr : rigEntry c = none) : Ok (pre ++ cs) c := by
  induction cs generalizing pre with
  | nil => exact absurd hc (by simp)
  | cons d cs ih =>
    rcases List.mem_cons.1 hc with rfl | hc
    · exact ok_mono (by simp) hr h.1
    · have := ih h.2 hc
      simpa using this

end Verif.BundleProblem
