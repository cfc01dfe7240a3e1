import Verif.Model.SfmMap

/-!
# Invariants of the reconstruction map
-/
set_option linter.unusedSectionVars false
namespace Verif

variable {Id A X K B P : Type} [DecidableEq Id]

namespace Dict
variable {V : Type}

theorem has_set (m : Dict Id V) (k k' : Id) (v : V) :
    (get? (set m k v) k').isSome = (decide (k = k') || (get? m k').isSome) := by
  rw [get?_set]; by_cases h : k = k' <;> simp [h]

theorem has_insertNew (m : Dict Id V) (k k' : Id) (v : V) :
    (get? (insertNew m k v) k').isSome = (decide (k = k') || (get? m k').isSome) := by
  unfold insertNew
  by_cases h : has m k = true
  · rw [if_pos h]
    by_cases hk : k = k'
    · subst hk; simpa [has] using h
    · simp [hk]
  · rw [if_neg h, has_set]

/-- `insertNew` when the key is absent. -/
theorem get?_insertNew_none {m : Dict Id V} {k : Id} (h : get? m k = none) (k' : Id) (v : V) :
    get? (insertNew m k v) k' = if k = k' then some v else get? m k' := by
  rw [get?_insertNew]; simp [has, h]

/-- `insertNew` when the key is present. -/
theorem insertNew_some {m : Dict Id V} {k : Id} {w : V} (h : get? m k = some w) (v : V) :
    insertNew m k v = m := by
  simp [insertNew, has, h]

end Dict

/-- The per-shot invariant: the feature index and the observation table of a shot agree. -/
structure ShotSt.Ok (st : ShotSt Id A) : Prop where
  wfObs : st.lmObs.Wf
  wfId : st.lmId.Wf
  agree : ∀ f l, st.lmId.get? f = some l ↔ ∃ o, st.lmObs.get? l = some o ∧ o.feat = f

theorem ShotSt.ok_empty (c i rc : Id) : (⟨c, i, rc, [], []⟩ : ShotSt Id A).Ok :=
  ⟨Dict.wf_nil, Dict.wf_nil, by simp⟩

/-- The state of a shot after losing landmark `l` seen as feature `f`. -/
def ShotSt.drop (st : ShotSt Id A) (l : Id) (f : Int) : ShotSt Id A :=
  { st with lmId := st.lmId.erase f, lmObs := st.lmObs.erase l }

theorem ShotSt.removeFeature_eq {st : ShotSt Id A} {f : Int} {l : Id}
    (h : st.lmId.get? f = some l) : st.removeFeature f = some (st.drop l f) := by
  simp [removeFeature, h, drop]

theorem ShotSt.Ok.drop {st : ShotSt Id A} (h : st.Ok) {f : Int} {l : Id}
    (hf : st.lmId.get? f = some l) : (st.drop l f).Ok := by
  refine ⟨Dict.wf_erase h.wfObs _, Dict.wf_erase h.wfId _, ?_⟩
  intro f' l'
  simp only [ShotSt.drop, Dict.get?_erase]
  obtain ⟨o, ho, hof⟩ := (h.agree f l).1 hf
  by_cases h1 : f = f'
  · subst h1
    simp only [if_true, reduceCtorEq, false_iff]
    rintro ⟨o', ho', hf'⟩
    split at ho'
    · cases ho'
    · rename_i hne
      have := (h.agree f l').2 ⟨o', ho', hf'⟩
      rw [hf] at this; cases this; exact hne rfl
  · simp only [h1, if_false]
    by_cases h2 : l = l'
    · subst h2
      simp only [if_true, reduceCtorEq, false_and, exists_false, iff_false]
      intro hx
      obtain ⟨o', ho', hf'⟩ := (h.agree f' l).1 hx
      rw [ho] at ho'; cases ho'
      exact h1 (hof.symm.trans hf')
    · simp only [h2, if_false]; exact h.agree f' l'

theorem ShotSt.Ok.create {st : ShotSt Id A} (h : st.Ok) {l : Id} {o : Ob A}
    (h1 : ∀ l', st.lmId.get? o.feat = some l' → l' = l)
    (h2 : ∀ o', st.lmObs.get? l = some o' → o'.feat = o.feat) :
    (st.createObservation l o).Ok := by
  cases hl : st.lmObs.get? l with
  | some o' =>
    have hf := h2 o' hl
    have : st.lmId.get? o.feat = some l := (h.agree _ _).2 ⟨o', hl, hf⟩
    have he : st.createObservation l o = st := by
      unfold ShotSt.createObservation
      rw [Dict.insertNew_some hl]
      have : st.lmId.insertNew o.feat l = st.lmId := by simp [Dict.insertNew, Dict.has, this]
      rw [this]
    rw [he]; exact h
  | none =>
    have hnone : st.lmId.get? o.feat = none := by
      cases hx : st.lmId.get? o.feat with
      | none => rfl
      | some l' =>
        have := h1 l' hx; subst this
        obtain ⟨o', ho', _⟩ := (h.agree _ _).1 hx
        rw [hl] at ho'; cases ho'
    refine ⟨Dict.wf_insertNew h.wfObs _ _, Dict.wf_insertNew h.wfId _ _, ?_⟩
    intro f l'
    simp only [ShotSt.createObservation, Dict.get?_insertNew_none hl]
    have hid : (st.lmId.insertNew o.feat l).get? f =
        if o.feat = f then some l else st.lmId.get? f := by
      rw [Dict.get?_insertNew]; simp [Dict.has, hnone]
    rw [hid]
    by_cases hf : o.feat = f
    · subst hf
      simp only [if_true, Option.some.injEq]
      constructor
      · rintro rfl; exact ⟨o, by simp, rfl⟩
      · rintro ⟨o', ho', hf'⟩
        split at ho'
        · assumption
        · have := (h.agree o.feat l').2 ⟨o', ho', hf'⟩
          rw [hnone] at this; cases this
    · simp only [hf, if_false]
      by_cases hll : l = l'
      · subst hll
        simp only [if_true, Option.some.injEq]
        constructor
        · intro hx
          obtain ⟨o', ho', _⟩ := (h.agree _ _).1 hx
          rw [hl] at ho'; cases ho'
        · rintro ⟨o', rfl, hf'⟩; exact absurd hf' hf
      · simp only [hll, if_false]; exact h.agree f l'

namespace SMap

/-- The invariant of the map. -/
structure Inv (m : SMap Id A X K B P) : Prop where
  wfCam : m.cameras.Wf
  wfBias : m.bias.Wf
  wfShots : m.shots.Wf
  wfLms : m.landmarks.Wf
  wfRc : m.rigCameras.Wf
  wfInst : m.rigInstances.Wf
  shotOk : ∀ s st, m.shots.get? s = some st → st.Ok
  lmWf : ∀ l lm, m.landmarks.get? l = some lm → lm.obs.Wf
  sym : ∀ s l f, m.landmarkObservation l s = some f ↔
    ∃ o, m.shotObservation s l = some o ∧ o.feat = f
  instWf : ∀ i inst, m.rigInstances.get? i = some inst → inst.shots.Wf
  instInj : ∀ i inst, m.rigInstances.get? i = some inst → inst.shots.vals.Nodup
  rig : ∀ s i rc, m.instanceShot i s = some rc ↔
    ∃ st, m.shots.get? s = some st ∧ st.rigInstance = i ∧ st.rigCamera = rc
  shotCam : ∀ s st, m.shots.get? s = some st → (m.cameras.get? st.camera).isSome
  shotRc : ∀ s st, m.shots.get? s = some st → (m.rigCameras.get? st.rigCamera).isSome

theorem inv_empty : Inv (empty : SMap Id A X K B P) := by
  constructor <;> simp [empty, Dict.wf_nil, landmarkObservation, shotObservation, instanceShot]

/-- Removing a landmark's observations from the shots. -/
theorem detachLandmark_spec (l : Id) (obs : List (Id × Int)) (hn : (obs.map Prod.fst).Nodup)
    (shots : Dict Id (ShotSt Id A)) (hw : shots.Wf)
    (h : ∀ s f, (s, f) ∈ obs → ∃ st, shots.get? s = some st ∧ st.lmId.get? f = some l) :
    ∃ shots', detachLandmark shots obs = (shots', none) ∧ shots'.Wf ∧
      ∀ s, shots'.get? s = match Dict.get? obs s with
        | none => shots.get? s
        | some f => (shots.get? s).map (·.drop l f) := by
  induction obs generalizing shots with
  | nil => exact ⟨shots, rfl, hw, by simp⟩
  | cons p obs ih =>
    obtain ⟨s, f⟩ := p
    obtain ⟨st, hs, hf⟩ := h s f (by simp)
    simp only [List.map_cons, List.nodup_cons] at hn
    obtain ⟨shots', h1, h2, h3⟩ := ih hn.2 (shots.set s (st.drop l f)) (Dict.wf_set hw _ _) (by
      intro s' f' hm
      have : s ≠ s' := by
        rintro rfl; exact hn.1 (List.mem_map.2 ⟨_, hm, rfl⟩)
      rw [Dict.get?_set_ne _ _ this]
      exact h s' f' (List.mem_cons_of_mem _ hm))
    refine ⟨shots', by simp [detachLandmark, hs, ShotSt.removeFeature_eq hf, h1], h2, ?_⟩
    intro s'
    rw [h3]
    by_cases hs' : s = s'
    · subst hs'
      have : Dict.get? obs s = none := (Dict.get?_eq_none_iff _ _).2 hn.1
      simp [this, Dict.get?, hs]
    · simp [Dict.get?, hs', Dict.get?_set]

/-- Removing a shot from its landmarks. -/
theorem detachShot_spec (s : Id) (ls : List Id) (hn : ls.Nodup) (lms : Dict Id (LmSt Id X))
    (hw : lms.Wf) (h : ∀ l ∈ ls, (lms.get? l).isSome) :
    ∃ lms', detachShot s lms ls = (lms', none) ∧ lms'.Wf ∧
      ∀ l, lms'.get? l = if l ∈ ls then (lms.get? l).map fun lm => { lm with obs := lm.obs.erase s }
        else lms.get? l := by
  induction ls generalizing lms with
  | nil => exact ⟨lms, rfl, hw, by simp⟩
  | cons l ls ih =>
    simp only [List.nodup_cons] at hn
    obtain ⟨lm, hlm⟩ := Option.isSome_iff_exists.1 (h l (by simp))
    obtain ⟨lms', h1, h2, h3⟩ := ih hn.2 (lms.set l { lm with obs := lm.obs.erase s })
      (Dict.wf_set hw _ _) (by
        intro l' hl'
        rw [Dict.has_set]; simp [h l' (List.mem_cons_of_mem _ hl')])
    refine ⟨lms', by simp [detachShot, hlm, h1], h2, ?_⟩
    intro l'
    rw [h3]
    by_cases hl : l = l'
    · subst hl; simp [hn.1, hlm]
    · simp [Dict.get?_set, hl, Ne.symm hl]

/-! ### Exact effect of the removals -/

theorem Inv.lm_feature {m : SMap Id A X K B P} (h : Inv m) {l : Id} {lm : LmSt Id X}
    (hl : m.landmarks.get? l = some lm) {s : Id} {f : Int} (hm : lm.obs.get? s = some f) :
    ∃ st, m.shots.get? s = some st ∧ st.lmId.get? f = some l := by
  obtain ⟨o, ho, hf⟩ := (h.sym s l f).1 (by simp [landmarkObservation, hl, hm])
  unfold shotObservation at ho
  cases hs : m.shots.get? s with
  | none => simp [hs] at ho
  | some st =>
    simp only [hs, Option.bind_some] at ho
    exact ⟨st, rfl, ((h.shotOk s st hs).agree f l).2 ⟨o, ho, hf⟩⟩

/-- Exact effect of `RemoveLandmark` on a consistent map. -/
theorem removeLandmark_spec {m : SMap Id A X K B P} (h : Inv m) {l : Id} {lm : LmSt Id X}
    (hl : m.landmarks.get? l = some lm) :
    ∃ sh, detachLandmark m.shots lm.obs = (sh, none) ∧ sh.Wf ∧
      ∀ s, sh.get? s = match lm.obs.get? s with
        | none => m.shots.get? s
        | some f => (m.shots.get? s).map (·.drop l f) :=
  detachLandmark_spec l lm.obs (h.lmWf l lm hl) m.shots h.wfShots
    (fun s f hm => h.lm_feature hl (Dict.get?_of_mem (h.lmWf l lm hl) hm))

/-- Observations after the landmark `l` is detached. -/
theorem shotObservation_detach {m : SMap Id A X K B P} (h : Inv m) {l : Id} {lm : LmSt Id X}
    (hl : m.landmarks.get? l = some lm) {sh : Dict Id (ShotSt Id A)}
    (hsh : ∀ s, sh.get? s = match lm.obs.get? s with
        | none => m.shots.get? s
        | some f => (m.shots.get? s).map (·.drop l f)) (s l' : Id) :
    (sh.get? s).bind (·.lmObs.get? l') = if l = l' then none else m.shotObservation s l' := by
  rw [hsh]
  unfold shotObservation
  cases ho : lm.obs.get? s with
  | none =>
    by_cases hll : l = l'
    · subst hll
      simp only [if_true]
      cases hx : (m.shots.get? s).bind (·.lmObs.get? l) with
      | none => rfl
      | some o =>
        have := (h.sym s l o.feat).2 ⟨o, hx, rfl⟩
        simp [landmarkObservation, hl, ho] at this
    · simp [hll]
  | some f =>
    cases hs : m.shots.get? s with
    | none => simp
    | some st =>
      simp only [Option.map_some, Option.bind_some, ShotSt.drop, Dict.get?_erase]

theorem inv_removeLandmark_aux {m : SMap Id A X K B P} (h : Inv m) {l : Id} {lm : LmSt Id X}
    (hl : m.landmarks.get? l = some lm) {sh : Dict Id (ShotSt Id A)} (hw : sh.Wf)
    (hsh : ∀ s, sh.get? s = match lm.obs.get? s with
        | none => m.shots.get? s
        | some f => (m.shots.get? s).map (·.drop l f)) :
    Inv { m with shots := sh, landmarks := m.landmarks.erase l } := by
  have hst : ∀ s st, sh.get? s = some st → ∃ st0, m.shots.get? s = some st0 ∧ st.Ok ∧
      st.camera = st0.camera ∧ st.rigInstance = st0.rigInstance ∧ st.rigCamera = st0.rigCamera := by
    intro s st hs
    rw [hsh] at hs
    cases ho : lm.obs.get? s with
    | none => rw [ho] at hs; exact ⟨st, hs, h.shotOk s st hs, rfl, rfl, rfl⟩
    | some f =>
      rw [ho] at hs
      obtain ⟨st0, hs0, hf⟩ := h.lm_feature hl ho
      simp only [hs0, Option.map_some, Option.some.injEq] at hs
      subst hs
      exact ⟨st0, hs0, (h.shotOk s st0 hs0).drop hf, rfl, rfl, rfl⟩
  have hst' : ∀ s st0, m.shots.get? s = some st0 → ∃ st, sh.get? s = some st ∧
      st.rigInstance = st0.rigInstance ∧ st.rigCamera = st0.rigCamera := by
    intro s st0 hs
    rw [hsh]
    cases ho : lm.obs.get? s with
    | none => exact ⟨st0, hs, rfl, rfl⟩
    | some f => exact ⟨st0.drop l f, by simp [hs], rfl, rfl⟩
  constructor
  · exact h.wfCam
  · exact h.wfBias
  · exact hw
  · exact Dict.wf_erase h.wfLms _
  · exact h.wfRc
  · exact h.wfInst
  · intro s st hs; exact (hst s st hs).choose_spec.2.1
  · intro l' lm' hl'
    simp only [Dict.get?_erase] at hl'
    split at hl'
    · cases hl'
    · exact h.lmWf _ _ hl'
  · intro s l' f
    show Option.bind ((m.landmarks.erase l).get? l') _ = _ ↔ ∃ o, (sh.get? s).bind _ = some o ∧ _
    rw [shotObservation_detach h hl hsh, Dict.get?_erase]
    by_cases hll : l = l'
    · simp [hll]
    · simp only [hll, if_false]; exact h.sym s l' f
  · exact h.instWf
  · exact h.instInj
  · intro s i rc
    show m.instanceShot i s = some rc ↔ _
    rw [h.rig s i rc]
    constructor
    · rintro ⟨st0, hs0, h1, h2⟩
      obtain ⟨st, hs, h3, h4⟩ := hst' s st0 hs0
      exact ⟨st, hs, h3.trans h1, h4.trans h2⟩
    · rintro ⟨st, hs, h1, h2⟩
      obtain ⟨st0, hs0, _, _, h3, h4⟩ := hst s st hs
      exact ⟨st0, hs0, h3.symm.trans h1, h4.symm.trans h2⟩
  · intro s st hs
    obtain ⟨st0, hs0, _, hc, _, _⟩ := hst s st hs
    rw [hc]; exact h.shotCam s st0 hs0
  · intro s st hs
    obtain ⟨st0, hs0, _, _, _, hc⟩ := hst s st hs
    rw [hc]; exact h.shotRc s st0 hs0

/-- Exact effect of `RemoveShot` on a consistent map. -/
theorem removeShot_spec {m : SMap Id A X K B P} (h : Inv m) {s : Id} {st : ShotSt Id A}
    (hs : m.shots.get? s = some st) :
    ∃ inst lms, m.rigInstances.get? st.rigInstance = some inst ∧
      inst.shots.get? s = some st.rigCamera ∧ lms.Wf ∧
      m.removeShot s = ({ m with
        rigInstances := m.rigInstances.set st.rigInstance { inst with shots := inst.shots.erase s }
        landmarks := lms
        shots := m.shots.erase s }, none) ∧
      ∀ l, lms.get? l = (m.landmarks.get? l).map fun lm => { lm with obs := lm.obs.erase s } := by
  have hr := (h.rig s st.rigInstance st.rigCamera).2 ⟨st, hs, rfl, rfl⟩
  unfold instanceShot at hr
  cases hi : m.rigInstances.get? st.rigInstance with
  | none => simp [hi] at hr
  | some inst =>
    simp only [hi, Option.bind_some] at hr
    have hex : ∀ l ∈ st.lmObs.keys, (m.landmarks.get? l).isSome := by
      intro l hl
      obtain ⟨o, ho⟩ := Option.isSome_iff_exists.1 ((Dict.mem_keys_iff _ _).1 hl)
      have := (h.sym s l o.feat).2 ⟨o, by simp [shotObservation, hs, ho], rfl⟩
      unfold landmarkObservation at this
      cases hx : m.landmarks.get? l with
      | none => simp [hx] at this
      | some _ => rfl
    obtain ⟨lms, h1, h2, h3⟩ := detachShot_spec s st.lmObs.keys (h.shotOk s st hs).wfObs
      m.landmarks h.wfLms hex
    refine ⟨inst, lms, rfl, hr, h2, by simp [removeShot, hs, hi, hr, h1], ?_⟩
    intro l
    rw [h3]
    split
    · rfl
    · rename_i hn
      cases hx : m.landmarks.get? l with
      | none => rfl
      | some lm =>
        have : s ∉ lm.obs.keys := by
          intro hk
          obtain ⟨f, hf⟩ := Option.isSome_iff_exists.1 ((Dict.mem_keys_iff _ _).1 hk)
          obtain ⟨o, ho, _⟩ := (h.sym s l f).1 (by simp [landmarkObservation, hx, hf])
          simp only [shotObservation, hs, Option.bind_some] at ho
          exact hn ((Dict.mem_keys_iff _ _).2 (by simp [ho]))
        have he : ∀ (d : Dict Id Int), s ∉ d.keys → d.erase s = d := by
          intro d hd
          induction d with
          | nil => rfl
          | cons p d ih =>
            obtain ⟨a, b⟩ := p
            simp only [Dict.keys_cons, List.mem_cons, not_or] at hd
            simp [Dict.erase, Ne.symm hd.1, ih hd.2]
        simp [he _ this]

theorem inv_removeShot {m : SMap Id A X K B P} (h : Inv m) (s : Id) : Inv (m.removeShot s).1 := by
  cases hs : m.shots.get? s with
  | none => simp [removeShot, hs]; exact h
  | some st =>
    obtain ⟨inst, lms, hi, hr, hw, he, hl⟩ := removeShot_spec h hs
    rw [he]
    have hshots : ∀ s', (m.shots.erase s).get? s' = if s = s' then none else m.shots.get? s' :=
      fun s' => Dict.get?_erase _ _ _
    constructor
    · exact h.wfCam
    · exact h.wfBias
    · exact Dict.wf_erase h.wfShots _
    · exact hw
    · exact h.wfRc
    · exact Dict.wf_set h.wfInst _ _
    · intro s' st' hs'
      simp only [hshots] at hs'
      split at hs'
      · cases hs'
      · exact h.shotOk _ _ hs'
    · intro l lm hlm
      simp only [hl] at hlm
      cases hx : m.landmarks.get? l with
      | none => simp [hx] at hlm
      | some lm0 =>
        simp only [hx, Option.map_some, Option.some.injEq] at hlm
        subst hlm
        exact Dict.wf_erase (h.lmWf l lm0 hx) _
    · intro s' l f
      have h0 := h.sym s' l f
      simp only [landmarkObservation, shotObservation, hl, hshots] at h0 ⊢
      by_cases hss : s = s'
      · subst hss
        cases hx : m.landmarks.get? l <;> simp [Dict.get?_erase]
      · simp only [hss, if_false]
        rw [← h0]
        cases hx : m.landmarks.get? l <;> simp [Dict.get?_erase, hss]
    · intro i inst' hi'
      simp only [Dict.get?_set] at hi'
      split at hi'
      · cases hi'; exact Dict.wf_erase (h.instWf _ _ hi) _
      · exact h.instWf _ _ hi'
    · intro i inst' hi'
      simp only [Dict.get?_set] at hi'
      split at hi'
      · cases hi'
        exact (h.instInj _ _ hi).sublist ((Dict.erase_sublist _ _).map _)
      · exact h.instInj _ _ hi'
    · intro s' i rc
      have h0 := h.rig s' i rc
      simp only [instanceShot, Dict.get?_set, hshots] at h0 ⊢
      by_cases hss : s = s'
      · subst hss
        simp only [if_true, reduceCtorEq, false_and, exists_false, iff_false]
        intro hx
        split at hx
        · simp [Dict.get?_erase] at hx
        · rename_i hne
          obtain ⟨st', hst', h1, _⟩ := h0.1 hx
          rw [hs] at hst'; cases hst'; exact hne h1
      · simp only [hss, if_false]
        rw [← h0]
        split
        · rename_i hii; subst hii; simp [hi, Dict.get?_erase, hss]
        · rfl
    · intro s' st' hs'
      simp only [hshots] at hs'
      split at hs'
      · cases hs'
      · exact h.shotCam _ _ hs'
    · intro s' st' hs'
      simp only [hshots] at hs'
      split at hs'
      · cases hs'
      · exact h.shotRc _ _ hs'

theorem inv_removeLandmark {m : SMap Id A X K B P} (h : Inv m) (l : Id) :
    Inv (m.removeLandmark l).1 := by
  cases hl : m.landmarks.get? l with
  | none => simp [removeLandmark, hl]; exact h
  | some lm =>
    obtain ⟨sh, h1, h2, h3⟩ := removeLandmark_spec h hl
    simp only [removeLandmark, hl, h1]
    exact inv_removeLandmark_aux h hl h2 h3

/-! ### Creations -/

theorem inv_createCamera {m : SMap Id A X K B P} (h : Inv m) (b0 : B) (c : Id) (k : K) :
    Inv (m.createCamera b0 c k) := by
  refine { h with wfCam := Dict.wf_insertNew h.wfCam _ _, wfBias := Dict.wf_insertNew h.wfBias _ _,
                  shotCam := ?_ }
  intro s st hs
  have := h.shotCam s st hs
  show ((m.cameras.insertNew c k).get? st.camera).isSome
  rw [Dict.get?_insertNew]
  split
  · rename_i hc; subst hc; split <;> simp_all
  · exact this

theorem inv_setBias {m : SMap Id A X K B P} (h : Inv m) (c : Id) (b : B) :
    Inv (m.setBias c b).1 := by
  unfold setBias
  split
  · exact h
  · exact { h with wfBias := Dict.wf_set h.wfBias _ _ }

theorem inv_createRigCamera {m : SMap Id A X K B P} (h : Inv m) (rc : Id) (p : P) :
    Inv (m.createRigCamera rc p).1 := by
  unfold createRigCamera
  split
  · exact h
  · refine { h with wfRc := Dict.wf_set h.wfRc _ _, shotRc := ?_ }
    intro s st hs
    show ((m.rigCameras.set rc p).get? st.rigCamera).isSome
    rw [Dict.has_set]; simp [h.shotRc s st hs]

theorem inv_createRigInstance [One P] {m : SMap Id A X K B P} (h : Inv m) (i : Id) :
    Inv (m.createRigInstance i).1 := by
  unfold createRigInstance
  split
  · exact h
  · rename_i hi
    refine { h with wfInst := Dict.wf_set h.wfInst _ _, instWf := ?_, instInj := ?_, rig := ?_ }
    · intro j inst hj
      simp only [Dict.get?_set] at hj
      split at hj
      · cases hj; exact Dict.wf_nil
      · exact h.instWf _ _ hj
    · intro j inst hj
      simp only [Dict.get?_set] at hj
      split at hj
      · cases hj; exact List.nodup_nil
      · exact h.instInj _ _ hj
    · intro s j rc
      have h0 := h.rig s j rc
      simp only [instanceShot, Dict.get?_set] at h0 ⊢
      rw [← h0]
      by_cases hij : i = j
      · subst hij; simp [hi]
      · simp [hij]

theorem inv_removeRigInstance {m : SMap Id A X K B P} (h : Inv m) (i : Id)
    (he : ∀ inst, m.rigInstances.get? i = some inst → inst.shots = []) :
    Inv (m.removeRigInstance i).1 := by
  unfold removeRigInstance
  split
  · exact h
  · rename_i inst hi
    have he := he inst hi
    refine { h with wfInst := Dict.wf_erase h.wfInst _, instWf := ?_, instInj := ?_, rig := ?_ }
    · intro j inst hj
      simp only [Dict.get?_erase] at hj
      split at hj
      · cases hj
      · exact h.instWf _ _ hj
    · intro j inst hj
      simp only [Dict.get?_erase] at hj
      split at hj
      · cases hj
      · exact h.instInj _ _ hj
    · intro s j rc
      have h0 := h.rig s j rc
      simp only [instanceShot, Dict.get?_erase] at h0 ⊢
      rw [← h0]
      by_cases hij : i = j
      · subst hij; simp [hi, he]
      · simp [hij]

theorem createShot_ok [Mul P] [_root_.Inv P] {m : SMap Id A X K B P} {s c rc i : Id} {p : Option P}
    {k : K} {inst : InstSt Id P} {rp : P} (hs : m.shots.get? s = none)
    (hc : m.cameras.get? c = some k) (hi : m.rigInstances.get? i = some inst)
    (hrc : m.rigCameras.get? rc = some rp) (hv : rc ∉ inst.shots.vals) :
    m.createShot s c rc i p = ({ m with
      shots := m.shots.set s ⟨c, i, rc, [], []⟩
      rigInstances := m.rigInstances.set i
        ⟨joinPose rp inst.pose p, inst.shots.set s rc⟩ }, none) := by
  simp only [createShot, hs, hc, hi, hrc, hv, if_false]

/-- What a failing `createShot` looks like. -/
theorem createShot_fail [Mul P] [_root_.Inv P] (m : SMap Id A X K B P) (s c rc i : Id)
    (p : Option P) :
    (∃ e, m.createShot s c rc i p = (m, some e)) ∨
    (∃ k inst rp, m.shots.get? s = none ∧ m.cameras.get? c = some k ∧
      m.rigInstances.get? i = some inst ∧ m.rigCameras.get? rc = some rp ∧
      rc ∉ inst.shots.vals) := by
  cases hs : m.shots.get? s with
  | some _ => left; exact ⟨.exists_, by simp only [createShot, hs]⟩
  | none =>
    cases hc : m.cameras.get? c with
    | none => left; exact ⟨.unknownCamera, by simp only [createShot, hs, hc]⟩
    | some k =>
      cases hi : m.rigInstances.get? i with
      | none => left; exact ⟨.unknownRigInstance, by simp only [createShot, hs, hc, hi]⟩
      | some inst =>
        cases hrc : m.rigCameras.get? rc with
        | none => left; exact ⟨.unknownRigCamera, by simp only [createShot, hs, hc, hi, hrc]⟩
        | some rp =>
          by_cases hv : rc ∈ inst.shots.vals
          · left; exact ⟨.rigCameraTaken, by simp only [createShot, hs, hc, hi, hrc, hv, if_true]⟩
          · right; exact ⟨k, inst, rp, rfl, rfl, rfl, rfl, hv⟩

theorem vals_set_nodup {d : Dict Id Id} (hn : d.vals.Nodup) {s rc : Id} (hs : s ∉ d.keys)
    (hv : rc ∉ d.vals) : (d.set s rc).vals.Nodup := by
  have : d.set s rc = d ++ [(s, rc)] := by
    induction d with
    | nil => rfl
    | cons p d ih =>
      obtain ⟨a, b⟩ := p
      simp only [Dict.keys_cons, List.mem_cons, not_or] at hs
      have hn' : Dict.vals d |>.Nodup := (List.nodup_cons.1 hn).2
      have hv' : rc ∉ Dict.vals d := fun h => hv (List.mem_cons_of_mem _ h)
      simp [Dict.set, Ne.symm hs.1, ih hn' hs.2 hv']
  rw [this]
  simp only [Dict.vals, List.map_append, List.map_cons, List.map_nil] at hn hv ⊢
  rw [List.nodup_append]
  refine ⟨hn, by simp, ?_⟩
  intro a ha b hb
  simp at hb; subst hb
  rintro rfl; exact hv ha

theorem Inv.not_in_instance {m : SMap Id A X K B P} (h : Inv m) {s i : Id} {inst : InstSt Id P}
    (hs : m.shots.get? s = none) (hi : m.rigInstances.get? i = some inst) :
    s ∉ inst.shots.keys := by
  intro hk
  obtain ⟨rc, hrc⟩ := Option.isSome_iff_exists.1 ((Dict.mem_keys_iff _ _).1 hk)
  obtain ⟨st, hst, _⟩ := (h.rig s i rc).1 (by simp [instanceShot, hi, hrc])
  rw [hs] at hst; cases hst

theorem inv_createShot [Mul P] [_root_.Inv P] {m : SMap Id A X K B P} (h : Inv m)
    (s c rc i : Id) (p : Option P) : Inv (m.createShot s c rc i p).1 := by
  rcases createShot_fail m s c rc i p with ⟨e, he⟩ | ⟨k, inst, rp, hs, hc, hi, hrc, hv⟩
  · rw [he]; exact h
  · rw [createShot_ok hs hc hi hrc hv]
    have hsk := h.not_in_instance hs hi
    refine { h with
      wfShots := Dict.wf_set h.wfShots _ _, wfInst := Dict.wf_set h.wfInst _ _, shotOk := ?_,
      sym := ?_, instWf := ?_, instInj := ?_, rig := ?_, shotCam := ?_, shotRc := ?_ }
    · intro s' st hs'
      simp only [Dict.get?_set] at hs'
      split at hs'
      · cases hs'; exact ShotSt.ok_empty _ _ _
      · exact h.shotOk _ _ hs'
    · intro s' l f
      have h0 := h.sym s' l f
      simp only [landmarkObservation, shotObservation, Dict.get?_set] at h0 ⊢
      rw [h0]
      by_cases hss : s = s'
      · subst hss; simp [hs]
      · simp [hss]
    · intro j inst' hj
      simp only [Dict.get?_set] at hj
      split at hj
      · cases hj; exact Dict.wf_set (h.instWf _ _ hi) _ _
      · exact h.instWf _ _ hj
    · intro j inst' hj
      simp only [Dict.get?_set] at hj
      split at hj
      · cases hj; exact vals_set_nodup (h.instInj _ _ hi) hsk hv
      · exact h.instInj _ _ hj
    · intro s' j rc'
      have h0 := h.rig s' j rc'
      simp only [instanceShot, Dict.get?_set] at h0 ⊢
      by_cases hss : s = s'
      · subst hss
        simp only [if_true, Option.some.injEq, exists_eq_left']
        by_cases hij : i = j
        · subst hij; simp
        · simp only [hij, if_false, false_and, iff_false]
          intro hx
          obtain ⟨st, hst, _⟩ := h0.1 hx
          rw [hs] at hst; cases hst
      · simp only [hss, if_false]
        rw [← h0]
        by_cases hij : i = j
        · subst hij; simp [hi, Dict.get?_set, hss]
        · simp [hij]
    · intro s' st hs'
      simp only [Dict.get?_set] at hs'
      split at hs'
      · cases hs'; simp [hc]
      · exact h.shotCam _ _ hs'
    · intro s' st hs'
      simp only [Dict.get?_set] at hs'
      split at hs'
      · cases hs'; simp [hrc]
      · exact h.shotRc _ _ hs'

theorem inv_createLandmark {m : SMap Id A X K B P} (h : Inv m) (l : Id) (x : X) :
    Inv (m.createLandmark l x).1 := by
  unfold createLandmark
  split
  · exact h
  · rename_i hl
    refine { h with wfLms := Dict.wf_set h.wfLms _ _, lmWf := ?_, sym := ?_ }
    · intro l' lm hl'
      simp only [Dict.get?_set] at hl'
      split at hl'
      · cases hl'; exact Dict.wf_nil
      · exact h.lmWf _ _ hl'
    · intro s l' f
      have h0 := h.sym s l' f
      simp only [landmarkObservation, shotObservation, Dict.get?_set] at h0 ⊢
      rw [← h0]
      by_cases hll : l = l'
      · subst hll; simp [hl]
      · simp [hll]

/-- When adding an observation keeps the map consistent: the feature is free or already belongs
to this landmark, and the landmark is not yet seen in this shot as another feature. -/
def FreeFor (m : SMap Id A X K B P) (s l : Id) (o : Ob A) : Prop :=
  (∀ l', m.featureLandmark s o.feat = some l' → l' = l) ∧
  (∀ o', m.shotObservation s l = some o' → o'.feat = o.feat)

theorem inv_addObservation {m : SMap Id A X K B P} (h : Inv m) (s l : Id) (o : Ob A)
    (hf : FreeFor m s l o) : Inv (m.addObservation s l o).1 := by
  unfold addObservation
  split
  · exact h
  · rename_i st hs
    split
    · exact h
    · rename_i lm hl
      have hok := h.shotOk s st hs
      have h1 : ∀ l', st.lmId.get? o.feat = some l' → l' = l := by
        intro l' hl'; exact hf.1 l' (by simp [featureLandmark, hs, hl'])
      have h2 : ∀ o', st.lmObs.get? l = some o' → o'.feat = o.feat := by
        intro o' ho'; exact hf.2 o' (by simp [shotObservation, hs, ho'])
      have hok' := hok.create h1 h2
      refine { h with wfLms := Dict.wf_set h.wfLms _ _, wfShots := Dict.wf_set h.wfShots _ _,
                      shotOk := ?_, lmWf := ?_, sym := ?_, rig := ?_, shotCam := ?_, shotRc := ?_ }
      · intro s' st' hs'
        simp only [Dict.get?_set] at hs'
        split at hs'
        · cases hs'; exact hok'
        · exact h.shotOk _ _ hs'
      · intro l' lm' hl'
        simp only [Dict.get?_set] at hl'
        split at hl'
        · cases hl'; exact Dict.wf_insertNew (h.lmWf l lm hl) _ _
        · exact h.lmWf _ _ hl'
      · intro s' l' f
        have h0 := h.sym s' l' f
        simp only [landmarkObservation, shotObservation, Dict.get?_set] at h0 ⊢
        by_cases hll : l = l'
        · subst hll
          simp only [if_true, Option.bind_some]
          simp only [hl, Option.bind_some] at h0
          by_cases hss : s = s'
          · subst hss
            simp only [if_true, Option.bind_some, ShotSt.createObservation]
            simp only [hs, Option.bind_some] at h0
            cases hx : st.lmObs.get? l with
            | some o' =>
              have hy : lm.obs.get? s = some o'.feat := by
                have := h.sym s l o'.feat
                simp only [landmarkObservation, shotObservation, hl, hs, Option.bind_some] at this
                exact this.2 ⟨o', hx, rfl⟩
              rw [Dict.insertNew_some hx, Dict.insertNew_some hy]; exact h0
            | none =>
              have hy : lm.obs.get? s = none := by
                cases hy : lm.obs.get? s with
                | none => rfl
                | some f' =>
                  have := h.sym s l f'
                  simp only [landmarkObservation, shotObservation, hl, hs, Option.bind_some] at this
                  obtain ⟨o', ho', _⟩ := this.1 hy
                  rw [hx] at ho'; cases ho'
              rw [Dict.get?_insertNew_none hx, Dict.get?_insertNew_none hy]
              simp
          · simp only [hss, if_false]
            rw [← h0, Dict.get?_insertNew]
            simp [hss]
        · simp only [hll, if_false]
          rw [h0]
          by_cases hss : s = s'
          · subst hss
            simp only [if_true, Option.bind_some, ShotSt.createObservation, hs]
            rw [Dict.get?_insertNew]
            simp [hll]
          · simp [hss]
      · intro s' i rc
        show m.instanceShot i s' = some rc ↔ _
        rw [h.rig s' i rc]
        simp only [Dict.get?_set]
        by_cases hss : s = s'
        · subst hss
          simp [ShotSt.createObservation, hs]
        · simp [hss]
      · intro s' st' hs'
        simp only [Dict.get?_set] at hs'
        split at hs'
        · cases hs'; exact h.shotCam s st hs
        · exact h.shotCam _ _ hs'
      · intro s' st' hs'
        simp only [Dict.get?_set] at hs'
        split at hs'
        · cases hs'; exact h.shotRc s st hs
        · exact h.shotRc _ _ hs'

theorem inv_removeObservation {m : SMap Id A X K B P} (h : Inv m) (s l : Id) :
    Inv (m.removeObservation s l).1 := by
  unfold removeObservation
  split
  · exact h
  · rename_i st hs
    split
    · exact h
    · rename_i lm hl
      split
      · exact h
      · rename_i f hf
        obtain ⟨st2, hs2, hfl⟩ := h.lm_feature hl hf
        rw [hs] at hs2; cases hs2
        rw [ShotSt.removeFeature_eq hfl]
        have hok := (h.shotOk s st hs).drop hfl
        refine { h with wfLms := Dict.wf_set h.wfLms _ _, wfShots := Dict.wf_set h.wfShots _ _,
                        shotOk := ?_, lmWf := ?_, sym := ?_, rig := ?_, shotCam := ?_,
                        shotRc := ?_ }
        · intro s' st' hs'
          simp only [Dict.get?_set] at hs'
          split at hs'
          · cases hs'; exact hok
          · exact h.shotOk _ _ hs'
        · intro l' lm' hl'
          simp only [Dict.get?_set] at hl'
          split at hl'
          · cases hl'; exact Dict.wf_erase (h.lmWf l lm hl) _
          · exact h.lmWf _ _ hl'
        · intro s' l' f'
          have h0 := h.sym s' l' f'
          simp only [landmarkObservation, shotObservation, Dict.get?_set] at h0 ⊢
          by_cases hll : l = l'
          · subst hll
            simp only [hl, Option.bind_some] at h0
            by_cases hss : s = s'
            · subst hss
              simp [ShotSt.drop, Dict.get?_erase]
            · simp only [hss, if_true, if_false, Option.bind_some]
              rw [← h0, Dict.get?_erase]; simp [hss]
          · simp only [hll, if_false]
            rw [h0]
            by_cases hss : s = s'
            · subst hss; simp [ShotSt.drop, hs, Dict.get?_erase, hll]
            · simp [hss]
        · intro s' i rc
          show m.instanceShot i s' = some rc ↔ _
          rw [h.rig s' i rc]
          simp only [Dict.get?_set]
          by_cases hss : s = s'
          · subst hss; simp [ShotSt.drop, hs]
          · simp [hss]
        · intro s' st' hs'
          simp only [Dict.get?_set] at hs'
          split at hs'
          · cases hs'; exact h.shotCam s st hs
          · exact h.shotCam _ _ hs'
        · intro s' st' hs'
          simp only [Dict.get?_set] at hs'
          split at hs'
          · cases hs'; exact h.shotRc s st hs
          · exact h.shotRc _ _ hs'

/-! ### Poses -/

theorem inv_setInstPose {m : SMap Id A X K B P} (h : Inv m) {i : Id} {inst : InstSt Id P}
    (hi : m.rigInstances.get? i = some inst) (p : P) :
    Inv { m with rigInstances := m.rigInstances.set i { inst with pose := p } } := by
  refine { h with wfInst := Dict.wf_set h.wfInst _ _, instWf := ?_, instInj := ?_, rig := ?_ }
  · intro j inst' hj
    simp only [Dict.get?_set] at hj
    split at hj
    · cases hj; exact h.instWf i inst hi
    · exact h.instWf _ _ hj
  · intro j inst' hj
    simp only [Dict.get?_set] at hj
    split at hj
    · cases hj; exact h.instInj i inst hi
    · exact h.instInj _ _ hj
  · intro s j rc
    have h0 := h.rig s j rc
    simp only [instanceShot, Dict.get?_set] at h0 ⊢
    rw [← h0]
    by_cases hij : i = j
    · subst hij; simp [hi]
    · simp [hij]

theorem inv_updateInstancePose [Mul P] [_root_.Inv P] {m : SMap Id A X K B P} (h : Inv m)
    (i s : Id) (p : P) : Inv (m.updateInstancePoseWithShot i s p).1 := by
  unfold updateInstancePoseWithShot
  split
  · exact h
  · rename_i inst hi
    split
    · exact h
    · split
      · exact h
      · exact inv_setInstPose h hi _

theorem inv_setShotPose [One P] [DecidableEq P] {m : SMap Id A X K B P} (h : Inv m)
    (s : Id) (p : P) : Inv (m.setShotPose s p).1 := by
  unfold setShotPose
  split
  · exact h
  · split
    · rename_i hi _
      split
      · exact inv_setInstPose h hi _
      · exact h
    · exact h

/-! ### Cleaning -/

open Classical in
/-- Exact effect of the cleaning loop. -/
theorem cleanLoop_spec (n : Nat) (todo : List (Id × LmSt Id X)) (m : SMap Id A X K B P)
    (h : Inv m) (hn : (todo.map Prod.fst).Nodup)
    (ht : ∀ l lm, (l, lm) ∈ todo → m.landmarks.get? l = some lm) :
    ∃ m', cleanLoop n m todo = (m', none) ∧ Inv m' ∧
      m'.cameras = m.cameras ∧ m'.bias = m.bias ∧ m'.rigCameras = m.rigCameras ∧
      m'.rigInstances = m.rigInstances ∧ m'.shots.keys = m.shots.keys ∧
      (∀ s, (m'.shots.get? s).map (fun st => (st.camera, st.rigInstance, st.rigCamera)) =
        (m.shots.get? s).map (fun st => (st.camera, st.rigInstance, st.rigCamera))) ∧
      (∀ l, m'.landmarks.get? l = if (∃ lm, (l, lm) ∈ todo ∧ lm.obs.length < n) then none
        else m.landmarks.get? l) ∧
      (∀ s l, m'.shotObservation s l = if (∃ lm, (l, lm) ∈ todo ∧ lm.obs.length < n) then none
        else m.shotObservation s l) := by
  classical
  induction todo generalizing m with
  | nil => exact ⟨m, rfl, h, rfl, rfl, rfl, rfl, rfl, by simp, by simp, by simp⟩
  | cons p todo ih =>
    obtain ⟨l, lm⟩ := p
    simp only [List.map_cons, List.nodup_cons] at hn
    have hl := ht l lm (by simp)
    have hne : ∀ l' lm', (l', lm') ∈ todo → l ≠ l' := by
      rintro l' lm' hm rfl; exact hn.1 (List.mem_map.2 ⟨_, hm, rfl⟩)
    by_cases hc : lm.obs.length < n
    · obtain ⟨sh, h1, h2, h3⟩ := removeLandmark_spec h hl
      have hinv := inv_removeLandmark_aux h hl h2 h3
      have hkeys : sh.keys = m.shots.keys := by
        have hd : ∀ (obs : List (Id × Int)) (a b : Dict Id (ShotSt Id A)) e,
            detachLandmark a obs = (b, e) → b.keys = a.keys := by
          intro obs
          induction obs with
          | nil => intro a b e he; cases he; rfl
          | cons q obs ih2 =>
            obtain ⟨s, f⟩ := q
            intro a b e he
            unfold detachLandmark at he
            split at he
            · cases he; rfl
            · rename_i st hst
              split at he
              · cases he; rfl
              · rw [ih2 _ _ _ he, Dict.keys_set]
                rw [if_pos ((Dict.mem_keys_iff _ _).2 (by simp [hst]))]
        exact hd _ _ _ _ h1
      obtain ⟨m', e1, e2, e3, e4, e5, e6, e7, e8, e9, e10⟩ :=
        ih { m with shots := sh, landmarks := m.landmarks.erase l } hinv hn.2 (by
          intro l' lm' hm
          show (m.landmarks.erase l).get? l' = _
          rw [Dict.get?_erase, if_neg (hne l' lm' hm)]
          exact ht l' lm' (List.mem_cons_of_mem _ hm))
      refine ⟨m', by simp [cleanLoop, hc, h1, e1], e2, e3, e4, e5, e6, e7.trans hkeys, ?_, ?_, ?_⟩
      · intro s
        rw [e8]
        show (sh.get? s).map _ = _
        rw [h3]
        cases lm.obs.get? s with
        | none => rfl
        | some f => cases m.shots.get? s <;> rfl
      · intro l'
        rw [e9]
        show (if _ then none else (m.landmarks.erase l).get? l') = _
        rw [Dict.get?_erase]
        by_cases hll : l = l'
        · subst hll
          simp only [if_true, ite_self]
          rw [if_pos ⟨lm, by simp, hc⟩]
        · have : (∃ lm', (l', lm') ∈ (l, lm) :: todo ∧ lm'.obs.length < n) ↔
              ∃ lm', (l', lm') ∈ todo ∧ lm'.obs.length < n := by
            simp [Ne.symm hll]
          simp only [hll, if_false, this]
      · intro s l'
        rw [e10]
        show (if _ then none else (sh.get? s).bind _) = _
        rw [shotObservation_detach h hl h3]
        by_cases hll : l = l'
        · subst hll
          simp only [if_true, ite_self]
          rw [if_pos ⟨lm, by simp, hc⟩]
        · have : (∃ lm', (l', lm') ∈ (l, lm) :: todo ∧ lm'.obs.length < n) ↔
              ∃ lm', (l', lm') ∈ todo ∧ lm'.obs.length < n := by
            simp [Ne.symm hll]
          simp only [hll, if_false, this]
    · obtain ⟨m', e1, e2, e3, e4, e5, e6, e7, e8, e9, e10⟩ := ih m h hn.2
        (fun l' lm' hm => ht l' lm' (List.mem_cons_of_mem _ hm))
      have hiff : ∀ l', (∃ lm', (l', lm') ∈ (l, lm) :: todo ∧ lm'.obs.length < n) ↔
          ∃ lm', (l', lm') ∈ todo ∧ lm'.obs.length < n := by
        intro l'
        constructor
        · rintro ⟨lm', hm, hlt⟩
          rcases List.mem_cons.1 hm with he | hm
          · cases he; exact absurd hlt hc
          · exact ⟨lm', hm, hlt⟩
        · rintro ⟨lm', hm, hlt⟩; exact ⟨lm', List.mem_cons_of_mem _ hm, hlt⟩
      refine ⟨m', by simp [cleanLoop, hc, e1], e2, e3, e4, e5, e6, e7, e8, ?_, ?_⟩
      · intro l'; rw [e9]; simp only [hiff]
      · intro s l'; rw [e10]; simp only [hiff]

theorem inv_setLandmarkEmpty {m : SMap Id A X K B P} (h : Inv m) {l : Id} {lm : LmSt Id X}
    (hl : m.landmarks.get? l = some lm) {sh : Dict Id (ShotSt Id A)} (hw : sh.Wf)
    (hsh : ∀ s, sh.get? s = match lm.obs.get? s with
        | none => m.shots.get? s
        | some f => (m.shots.get? s).map (·.drop l f)) :
    Inv { m with shots := sh, landmarks := m.landmarks.set l { lm with obs := [] } } := by
  have h0 := inv_removeLandmark_aux h hl hw hsh
  refine { h0 with wfLms := Dict.wf_set h.wfLms _ _, lmWf := ?_, sym := ?_ }
  · intro l' lm' hl'
    simp only [Dict.get?_set] at hl'
    split at hl'
    · cases hl'; exact Dict.wf_nil
    · exact h.lmWf _ _ hl'
  · intro s l' f
    show Option.bind ((m.landmarks.set l _).get? l') _ = _ ↔ ∃ o, (sh.get? s).bind _ = some o ∧ _
    rw [shotObservation_detach h hl hsh, Dict.get?_set]
    by_cases hll : l = l'
    · simp [hll]
    · simp only [hll, if_false]; exact h.sym s l' f

/-- Exact effect of the clearing loop. -/
theorem clearLoop_spec (todo : List (Id × LmSt Id X)) (m : SMap Id A X K B P)
    (h : Inv m) (hn : (todo.map Prod.fst).Nodup)
    (ht : ∀ l lm, (l, lm) ∈ todo → m.landmarks.get? l = some lm) :
    ∃ m', clearLoop m todo = (m', none) ∧ Inv m' ∧
      m'.cameras = m.cameras ∧ m'.bias = m.bias ∧ m'.rigCameras = m.rigCameras ∧
      m'.rigInstances = m.rigInstances ∧
      (∀ s, (m'.shots.get? s).map (fun st => (st.camera, st.rigInstance, st.rigCamera)) =
        (m.shots.get? s).map (fun st => (st.camera, st.rigInstance, st.rigCamera))) ∧
      (∀ s l, m'.shotObservation s l = if l ∈ todo.map Prod.fst then none
        else m.shotObservation s l) := by
  classical
  induction todo generalizing m with
  | nil => exact ⟨m, rfl, h, rfl, rfl, rfl, rfl, by simp, by simp⟩
  | cons p todo ih =>
    obtain ⟨l, lm⟩ := p
    simp only [List.map_cons, List.nodup_cons] at hn
    have hl := ht l lm (by simp)
    have hne : ∀ l' lm', (l', lm') ∈ todo → l ≠ l' := by
      rintro l' lm' hm rfl; exact hn.1 (List.mem_map.2 ⟨_, hm, rfl⟩)
    obtain ⟨sh, h1, h2, h3⟩ := removeLandmark_spec h hl
    obtain ⟨m', e1, e2, e3, e4, e5, e6, e8, e10⟩ :=
      ih { m with shots := sh, landmarks := m.landmarks.set l { lm with obs := [] } }
        (inv_setLandmarkEmpty h hl h2 h3) hn.2 (by
          intro l' lm' hm
          show (m.landmarks.set l _).get? l' = _
          rw [Dict.get?_set, if_neg (hne l' lm' hm)]
          exact ht l' lm' (List.mem_cons_of_mem _ hm))
    refine ⟨m', by simp [clearLoop, h1, e1], e2, e3, e4, e5, e6, ?_, ?_⟩
    · intro s
      rw [e8]
      show (sh.get? s).map _ = _
      rw [h3]
      cases lm.obs.get? s with
      | none => rfl
      | some f => cases m.shots.get? s <;> rfl
    · intro s l'
      rw [e10]
      show (if _ then none else (sh.get? s).bind _) = _
      rw [shotObservation_detach h hl h3]
      by_cases hll : l = l'
      · subst hll; simp
      · simp [hll, Ne.symm hll]

theorem Inv.landmarks_mem {m : SMap Id A X K B P} (h : Inv m) :
    ∀ l lm, (l, lm) ∈ m.landmarks → m.landmarks.get? l = some lm :=
  fun _ _ hm => Dict.get?_of_mem h.wfLms hm

theorem clear_spec {m : SMap Id A X K B P} (h : Inv m) :
    ∃ m', m.clear = (m', none) ∧ Inv m' ∧ m'.landmarks = [] ∧
      m'.cameras = m.cameras ∧ m'.bias = m.bias ∧ m'.rigCameras = m.rigCameras ∧
      m'.rigInstances = m.rigInstances ∧
      (∀ s, (m'.shots.get? s).map (fun st => (st.camera, st.rigInstance, st.rigCamera)) =
        (m.shots.get? s).map (fun st => (st.camera, st.rigInstance, st.rigCamera))) ∧
      ∀ s l, m'.shotObservation s l = none := by
  obtain ⟨m', e1, e2, e3, e4, e5, e6, e8, e10⟩ :=
    clearLoop_spec m.landmarks m h h.wfLms h.landmarks_mem
  have hno : ∀ s l, m'.shotObservation s l = none := by
    intro s l
    rw [e10]
    split
    · rfl
    · rename_i hn
      cases hx : m.shotObservation s l with
      | none => rfl
      | some o =>
        have := (h.sym s l o.feat).2 ⟨o, hx, rfl⟩
        unfold landmarkObservation at this
        cases hy : m.landmarks.get? l with
        | none => simp [hy] at this
        | some lm => exact absurd ((Dict.mem_keys_iff _ _).2 (by simp [hy])) hn
  refine ⟨{ m' with landmarks := [] }, by simp [clear, e1], ?_, rfl, e3, e4, e5, e6, e8, hno⟩
  refine { e2 with wfLms := Dict.wf_nil, lmWf := by simp, sym := ?_ }
  intro s l f
  have := hno s l
  simp only [landmarkObservation, Dict.get?_nil, Option.bind_none, reduceCtorEq, false_iff]
  rintro ⟨o, ho, _⟩
  change m'.shotObservation s l = some o at ho
  rw [this] at ho
  cases ho

end SMap
end Verif
