import Verif.Lemmas.SfmMap
import Mathlib.Data.List.Induction
import Mathlib.Tactic.Group
import Mathlib.Algebra.Group.Basic
import Mathlib.Algebra.Group.Int.Defs
import Mathlib.Algebra.Group.TypeTags.Basic

/-!
# C14–C20: the reconstruction map

A history is a list of calls, `run` the state it leads to. `Disciplined` says that a feature of a
shot is given to at most one landmark at a time (and a landmark is not re-added to a shot with
another feature), and that only empty rig instances are removed. Without it the properties are
false: `C14_clash`, `C18_remove_used_instance`.
-/
set_option linter.unusedSectionVars false
set_option linter.unusedSimpArgs false
namespace Verif.SMap
variable {Id A X K B P : Type} [DecidableEq Id] [Group P] [DecidableEq P]

/-! ## Specification -/

/-- The caller's obligation for one call, in terms of the map's own queries. -/
def Allowed (m : SMap Id A X K B P) : Op Id A X K B P → Prop
  | .addObservation s l o =>
    (∀ l', m.featureLandmark s o.feat = some l' → l' = l) ∧
    (∀ o', m.shotObservation s l = some o' → o'.feat = o.feat)
  | .removeRigInstance i => ∀ s, m.instanceShot i s = none
  | _ => True

/-- Every call of the history is allowed in the state in which it is made. -/
def Disciplined (b0 : B) (ops : List (Op Id A X K B P)) : Prop :=
  ∀ pre op post, ops = pre ++ op :: post → Allowed (run b0 pre) op

/-! ## The invariant holds in every state a disciplined history reaches -/

theorem inv_step {m : SMap Id A X K B P} (h : Inv m) (b0 : B) (op : Op Id A X K B P)
    (ha : Allowed m op) : Inv (m.step b0 op).1 := by
  cases op with
  | createCamera c k => exact inv_createCamera h b0 c k
  | setBias c b => exact inv_setBias h c b
  | createRigCamera rc p => exact inv_createRigCamera h rc p
  | createRigInstance i => exact inv_createRigInstance h i
  | removeRigInstance i =>
    refine inv_removeRigInstance h i ?_
    intro inst hi
    cases hx : inst.shots with
    | nil => rfl
    | cons p t =>
      have := ha p.1
      simp [instanceShot, hi, hx, Dict.get?] at this
  | createShot s c rc i p => exact inv_createShot h s c rc i p
  | removeShot s => exact inv_removeShot h s
  | createLandmark l x => exact inv_createLandmark h l x
  | removeLandmark l => exact inv_removeLandmark h l
  | addObservation s l o => exact inv_addObservation h s l o ha
  | removeObservation s l => exact inv_removeObservation h s l
  | cleanBelow n =>
    obtain ⟨m', e1, e2, _⟩ := cleanLoop_spec n m.landmarks m h h.wfLms h.landmarks_mem
    simp only [step, cleanBelow, e1]; exact e2
  | clear =>
    obtain ⟨m', e1, e2, _⟩ := clear_spec h
    simp only [step, e1]; exact e2
  | updateInstancePose i s p => exact inv_updateInstancePose h i s p
  | setShotPose s p => exact inv_setShotPose h s p

theorem run_snoc (b0 : B) (ops : List (Op Id A X K B P)) (op : Op Id A X K B P) :
    run b0 (ops ++ [op]) = ((run b0 ops).step b0 op).1 := by
  simp [run, List.foldl_append]

theorem inv_run (b0 : B) (ops : List (Op Id A X K B P)) (hd : Disciplined b0 ops) :
    Inv (run b0 ops) := by
  induction ops using List.reverseRecOn with
  | nil => exact inv_empty
  | append_singleton ops op ih =>
    rw [run_snoc]
    apply inv_step
    · apply ih
      intro pre o post he
      exact hd pre o (post ++ [op]) (by simp [he])
    · exact hd ops op [] rfl

/-- A disciplined history with a two-shot rig, a single shot, shared landmarks and removals. -/
def sampleOps : List (Op Nat Nat Nat Nat Nat (Multiplicative Int)) :=
  [.createCamera 1 0, .createRigCamera 10 (.ofAdd 3), .createRigCamera 11 (.ofAdd 5),
   .createRigInstance 20, .createShot 100 1 10 20 (some (.ofAdd 7)), .createShot 101 1 11 20 none,
   .createRigInstance 21, .createShot 102 1 10 21 (some (.ofAdd 1)),
   .createLandmark 200 0, .createLandmark 201 0, .createLandmark 202 0,
   .addObservation 100 200 ⟨5, 0⟩, .addObservation 101 200 ⟨5, 0⟩, .addObservation 102 200 ⟨6, 0⟩,
   .addObservation 100 201 ⟨7, 0⟩, .addObservation 101 201 ⟨8, 0⟩, .addObservation 100 202 ⟨9, 0⟩,
   .removeObservation 101 201, .addObservation 101 202 ⟨8, 1⟩]

/-- Boolean version of `Allowed`, to check sample histories by evaluation. -/
def allowedB (m : SMap Id A X K B P) : Op Id A X K B P → Bool
  | .addObservation s l o =>
    ((m.featureLandmark s o.feat).all (· = l)) &&
    ((m.shotObservation s l).all (·.feat = o.feat))
  | .removeRigInstance i => (m.rigInstances.get? i).all (·.shots.isEmpty)
  | _ => true

theorem allowedB_sound {m : SMap Id A X K B P} {op : Op Id A X K B P} (h : allowedB m op = true) :
    Allowed m op := by
  cases op <;> simp only [Allowed, allowedB, Bool.and_eq_true, Option.all_eq_true_iff_get] at *
  · rename_i i
    intro s
    unfold instanceShot
    cases hi : m.rigInstances.get? i with
    | none => rfl
    | some inst =>
      have := h (by simp [hi])
      simp only [hi, Option.get_some, List.isEmpty_iff] at this
      simp [this]
  · rename_i s l o
    refine ⟨?_, ?_⟩
    · intro l' hl'
      have := h.1 (by simp [hl'])
      simpa [hl'] using this
    · intro o' ho'
      have := h.2 (by simp [ho'])
      simpa [ho'] using this

/-- Boolean version of `Disciplined`. -/
def disciplinedB (b0 : B) : SMap Id A X K B P → List (Op Id A X K B P) → Bool
  | _, [] => true
  | m, op :: ops => allowedB m op && disciplinedB b0 (m.step b0 op).1 ops

theorem disciplinedB_sound_aux (b0 : B) (ops done : List (Op Id A X K B P))
    (hd : Disciplined b0 done) (h : disciplinedB b0 (run b0 done) ops = true) :
    Disciplined b0 (done ++ ops) := by
  induction ops generalizing done with
  | nil => simpa using hd
  | cons op ops ih =>
    simp only [disciplinedB, Bool.and_eq_true] at h
    have : done ++ op :: ops = (done ++ [op]) ++ ops := by simp
    rw [this]
    apply ih
    · intro pre o post he
      rcases List.append_eq_append_iff.1 he with ⟨c, h1, h2⟩ | ⟨c, h1, h2⟩
      · cases c with
        | nil => simp at h1 h2; rw [h1, ← h2.1]; exact allowedB_sound h.1
        | cons d c => simp at h2
      · cases c with
        | nil => simp at h1 h2; rw [← h1, h2.1]; exact allowedB_sound h.1
        | cons d c =>
          have h3 : d = o := (List.cons.inj h2).1.symm
          exact hd pre o c (by rw [h1, h3])
    · rw [run_snoc]; exact h.2

theorem disciplinedB_sound (b0 : B) (ops : List (Op Id A X K B P))
    (h : disciplinedB b0 (empty : SMap Id A X K B P) ops = true) : Disciplined b0 ops := by
  have := disciplinedB_sound_aux b0 ops [] (by intro pre op post he; simp at he) h
  simpa using this

theorem sample_disciplined : Disciplined 0 sampleOps := disciplinedB_sound 0 _ (by decide)

/-! ## C14 -/

/-- The three views of the observations agree: shot -> landmark, landmark -> shot and
feature -> landmark. -/
theorem C14_symmetric (b0 : B) (ops : List (Op Id A X K B P)) (hd : Disciplined b0 ops) :
    (∀ s l o, (run b0 ops).shotObservation s l = some o →
      (run b0 ops).landmarkObservation l s = some o.feat) ∧
    (∀ s l f, (run b0 ops).landmarkObservation l s = some f →
      ∃ o, (run b0 ops).shotObservation s l = some o ∧ o.feat = f) ∧
    (∀ s l f, (run b0 ops).featureLandmark s f = some l ↔
      ∃ o, (run b0 ops).shotObservation s l = some o ∧ o.feat = f) := by
  have h := inv_run b0 ops hd
  refine ⟨fun s l o ho => (h.sym s l o.feat).2 ⟨o, ho, rfl⟩, fun s l f hf => (h.sym s l f).1 hf, ?_⟩
  intro s l f
  unfold featureLandmark shotObservation
  cases hs : (run b0 ops).shots.get? s with
  | none => simp
  | some st => exact (h.shotOk s st hs).agree f l

/-- `add_observation` on existing objects records exactly that observation, unless the pair is
already there (then nothing changes); every other pair is untouched. -/
theorem C14_add (b0 : B) (ops : List (Op Id A X K B P))
    (s l : Id) (o : Ob A) :
    ((run b0 ops).step b0 (.addObservation s l o)).2 = none →
    ∀ s' l', ((run b0 ops).step b0 (.addObservation s l o)).1.shotObservation s' l' =
      if s = s' ∧ l = l' then some (((run b0 ops).shotObservation s l).getD o)
      else (run b0 ops).shotObservation s' l' := by
  generalize run b0 ops = m
  intro hok s' l'
  simp only [step, addObservation] at hok ⊢
  split at hok
  · cases hok
  · rename_i st hs
    split at hok
    · cases hok
    · rename_i lm hl
      simp only [hs, hl, shotObservation, Dict.get?_set]
      by_cases hss : s = s'
      · subst hss
        simp only [if_true, Option.bind_some, ShotSt.createObservation, Dict.get?_insertNew,
          true_and, hs]
        by_cases hll : l = l'
        · subst hll
          cases hx : st.lmObs.get? l <;> simp [Dict.has, hx]
        · simp [hll]
      · simp [hss]

/-- `remove_observation` deletes exactly that pair. -/
theorem C14_remove (b0 : B) (ops : List (Op Id A X K B P)) (hd : Disciplined b0 ops) (s l : Id) :
    (((run b0 ops).step b0 (.removeObservation s l)).2 = none ↔
      ((run b0 ops).shotObservation s l).isSome) ∧
    ∀ s' l', ((run b0 ops).step b0 (.removeObservation s l)).1.shotObservation s' l' =
      if s = s' ∧ l = l' then none else (run b0 ops).shotObservation s' l' := by
  have h := inv_run b0 ops hd
  generalize run b0 ops = m at *
  have hnone : ∀ f, m.landmarkObservation l s = some f ↔
    ∃ o, m.shotObservation s l = some o ∧ o.feat = f := h.sym s l
  by_cases hx : ∃ o, m.shotObservation s l = some o
  · obtain ⟨o, ho⟩ := hx
    have hlf := (hnone o.feat).2 ⟨o, ho, rfl⟩
    have ho' := ho
    unfold landmarkObservation at hlf
    unfold shotObservation at ho'
    cases hs : m.shots.get? s with
    | none => simp [hs] at ho'
    | some st =>
      cases hl : m.landmarks.get? l with
      | none => simp [hl] at hlf
      | some lm =>
        simp only [hl, Option.bind_some] at hlf
        obtain ⟨st2, hs2, hf⟩ := h.lm_feature hl hlf
        rw [hs] at hs2; cases hs2
        simp only [step, removeObservation, hs, hl, hlf, ShotSt.removeFeature_eq hf, ho,
          Option.isSome_some, true_and]
        intro s' l'
        simp only [shotObservation, Dict.get?_set]
        by_cases hss : s = s'
        · subst hss; simp [ShotSt.drop, Dict.get?_erase, hs]
        · simp [hss]
  · have hne : m.shotObservation s l = none := by
      cases hy : m.shotObservation s l with
      | none => rfl
      | some o => exact absurd ⟨o, hy⟩ hx
    have hno : m.landmarkObservation l s = none := by
      cases hy : m.landmarkObservation l s with
      | none => rfl
      | some f => obtain ⟨o, ho, _⟩ := (hnone f).1 hy; exact absurd ⟨o, ho⟩ hx
    have hstep : ∃ e, m.step b0 (.removeObservation s l) = (m, some e) := by
      simp only [step, removeObservation]
      cases hs : m.shots.get? s with
      | none => exact ⟨_, rfl⟩
      | some st =>
        cases hl : m.landmarks.get? l with
        | none => exact ⟨_, rfl⟩
        | some lm =>
          simp only [landmarkObservation, hl, Option.bind_some] at hno
          simp only [hno]; exact ⟨_, rfl⟩
    obtain ⟨e, he⟩ := hstep
    rw [he]
    refine ⟨by simp [hne], ?_⟩
    intro s' l'
    by_cases hc : s = s' ∧ l = l'
    · obtain ⟨rfl, rfl⟩ := hc; simp [hne]
    · simp [hc]

/-- Two landmarks given the same feature of a shot. -/
def clashOps : List (Op Nat Nat Nat Nat Nat (Multiplicative Int)) :=
  [.createCamera 1 0, .createRigCamera 10 1, .createRigInstance 20, .createShot 100 1 10 20 none,
   .createLandmark 200 0, .createLandmark 201 0,
   .addObservation 100 200 ⟨5, 0⟩, .addObservation 100 201 ⟨5, 0⟩]

/-- The discipline is necessary: when one feature is given to two landmarks, removing the second
landmark detaches the first one from the shot and leaves the removed one listed. -/
theorem C14_clash :
    ¬ Disciplined 0 clashOps ∧
    ((run 0 (clashOps ++ [.removeLandmark 201])).shotObservation 100 201).isSome ∧
    (run 0 (clashOps ++ [.removeLandmark 201])).landmarks.get? 201 = none ∧
    (run 0 (clashOps ++ [.removeLandmark 201])).shotObservation 100 200 = none ∧
    (run 0 (clashOps ++ [.removeLandmark 201])).landmarkObservation 200 100 = some 5 := by
  refine ⟨?_, by decide, by decide, by decide, by decide⟩
  intro hd
  have := (hd (clashOps.take 7) (.addObservation 100 201 ⟨5, 0⟩) [] rfl).1 200 (by decide)
  cases this

example : Disciplined 0 sampleOps ∧
    (run 0 sampleOps).shotObservation 101 202 = some ⟨8, 1⟩ ∧
    (run 0 sampleOps).landmarkObservation 202 101 = some 8 ∧
    (run 0 sampleOps).featureLandmark 101 8 = some 202 ∧
    (run 0 sampleOps).shotObservation 101 201 = none := ⟨sample_disciplined, by decide⟩

/-! ## C15 -/

/-- `remove_shot` succeeds exactly on existing shots; afterwards no landmark and no rig instance
mentions the shot and everything else is as before. -/
theorem C15_removeShot (b0 : B) (ops : List (Op Id A X K B P)) (hd : Disciplined b0 ops) (s : Id) :
    (((run b0 ops).step b0 (.removeShot s)).2 = none ↔ ((run b0 ops).shots.get? s).isSome) ∧
    (((run b0 ops).step b0 (.removeShot s)).2 = none →
      let m := run b0 ops
      let m' := (m.step b0 (.removeShot s)).1
      m'.cameras = m.cameras ∧ m'.bias = m.bias ∧ m'.rigCameras = m.rigCameras ∧
      (∀ s', m'.shots.get? s' = if s' = s then none else m.shots.get? s') ∧
      (∀ l, (m'.landmarks.get? l).map LmSt.pos = (m.landmarks.get? l).map LmSt.pos) ∧
      (∀ l s', m'.landmarkObservation l s' =
        if s' = s then none else m.landmarkObservation l s') ∧
      (∀ i, (m'.rigInstances.get? i).map InstSt.pose = (m.rigInstances.get? i).map InstSt.pose) ∧
      (∀ i s', m'.instanceShot i s' = if s' = s then none else m.instanceShot i s')) := by
  have h := inv_run b0 ops hd
  generalize run b0 ops = m at *
  cases hs : m.shots.get? s with
  | none => simp [step, removeShot, hs]
  | some st =>
    obtain ⟨inst, lms, hi, hr, hw, he, hl⟩ := removeShot_spec h hs
    simp only [step, he, Option.isSome_some, true_and, true_implies, iff_true]
    refine ⟨?_, ?_, ?_, ?_, ?_⟩
    · intro s'; rw [Dict.get?_erase]; simp [eq_comm]
    · intro l
      rw [hl]; cases m.landmarks.get? l <;> simp
    · intro l s'
      simp only [landmarkObservation, hl]
      cases m.landmarks.get? l <;> simp [Dict.get?_erase, eq_comm]
    · intro i
      rw [Dict.get?_set]
      split
      · rename_i hij; subst hij; simp [hi]
      · rfl
    · intro i s'
      have h0 := h.rig s' i
      simp only [instanceShot, Dict.get?_set] at h0 ⊢
      by_cases hij : st.rigInstance = i
      · subst hij
        simp [hi, Dict.get?_erase, eq_comm]
      · simp only [hij, if_false]
        by_cases hss : s' = s
        · subst hss
          simp only [if_true]
          cases hx : (m.rigInstances.get? i).bind (·.shots.get? s') with
          | none => rfl
          | some rc =>
            obtain ⟨st', hst', h1, _⟩ := (h0 rc).1 hx
            rw [hs] at hst'; cases hst'; exact absurd h1 hij
        · simp [hss]

/-- `remove_landmark` succeeds exactly on existing landmarks; afterwards no shot mentions the
landmark and everything else is as before. -/
theorem C15_removeLandmark (b0 : B) (ops : List (Op Id A X K B P)) (hd : Disciplined b0 ops)
    (l : Id) :
    (((run b0 ops).step b0 (.removeLandmark l)).2 = none ↔
      ((run b0 ops).landmarks.get? l).isSome) ∧
    (((run b0 ops).step b0 (.removeLandmark l)).2 = none →
      let m := run b0 ops
      let m' := (m.step b0 (.removeLandmark l)).1
      m'.cameras = m.cameras ∧ m'.bias = m.bias ∧ m'.rigCameras = m.rigCameras ∧
      m'.rigInstances = m.rigInstances ∧
      (∀ l', m'.landmarks.get? l' = if l' = l then none else m.landmarks.get? l') ∧
      (∀ s, (m'.shots.get? s).map (fun st => (st.camera, st.rigInstance, st.rigCamera)) =
        (m.shots.get? s).map (fun st => (st.camera, st.rigInstance, st.rigCamera))) ∧
      (∀ s l', m'.shotObservation s l' = if l' = l then none else m.shotObservation s l') ∧
      (∀ s f, m'.featureLandmark s f = if m.featureLandmark s f = some l then none
        else m.featureLandmark s f)) := by
  have h := inv_run b0 ops hd
  generalize run b0 ops = m at *
  cases hl : m.landmarks.get? l with
  | none => simp [step, removeLandmark, hl]
  | some lm =>
    obtain ⟨sh, h1, h2, h3⟩ := removeLandmark_spec h hl
    have hinv := inv_removeLandmark_aux h hl h2 h3
    simp only [step, removeLandmark, hl, h1, Option.isSome_some, true_and, true_implies, iff_true]
    have hobs : ∀ s l', (sh.get? s).bind (·.lmObs.get? l') =
        if l' = l then none else m.shotObservation s l' := by
      intro s l'; rw [shotObservation_detach h hl h3]; simp [eq_comm]
    refine ⟨?_, ?_, hobs, ?_⟩
    · intro l'; rw [Dict.get?_erase]; simp [eq_comm]
    · intro s
      rw [h3]
      cases lm.obs.get? s with
      | none => rfl
      | some f => cases m.shots.get? s <;> rfl
    · intro s f
      apply Option.ext
      intro l'
      have e1 : ∀ (mm : SMap Id A X K B P), Inv mm → (mm.featureLandmark s f = some l' ↔
          ∃ o, mm.shotObservation s l' = some o ∧ o.feat = f) := by
        intro mm hmm
        unfold featureLandmark shotObservation
        cases hs : mm.shots.get? s with
        | none => simp
        | some st => exact (hmm.shotOk s st hs).agree f l'
      rw [e1 _ hinv]
      show (∃ o, (sh.get? s).bind _ = some o ∧ _) ↔ _
      rw [hobs]
      by_cases hll : l' = l
      · subst hll
        simp only [if_true, reduceCtorEq, false_and, exists_false, false_iff]
        split
        · simp
        · rename_i hne; exact hne
      · simp only [hll, if_false]
        rw [← e1 m h]
        by_cases hx : m.featureLandmark s f = some l
        · simp [hx, Ne.symm hll]
        · simp [hx]

example : ((run 0 sampleOps).step 0 (.removeShot 100)).2 = none ∧
    ((run 0 sampleOps).step 0 (.removeShot 100)).1.landmarkObservation 200 100 = none ∧
    ((run 0 sampleOps).step 0 (.removeShot 100)).1.landmarkObservation 200 101 = some 5 ∧
    ((run 0 sampleOps).step 0 (.removeLandmark 200)).2 = none ∧
    ((run 0 sampleOps).step 0 (.removeLandmark 200)).1.shotObservation 100 201 = some ⟨7, 0⟩ := by
  decide

/-! ## C16 -/

/-- In every state of a disciplined history a call that raises leaves the whole map unchanged. -/
theorem C16_unchanged (b0 : B) (ops : List (Op Id A X K B P)) (hd : Disciplined b0 ops)
    (op : Op Id A X K B P) (e : MErr) (he : ((run b0 ops).step b0 op).2 = some e) :
    ((run b0 ops).step b0 op).1 = run b0 ops := by
  have h := inv_run b0 ops hd
  generalize run b0 ops = m at *
  cases op with
  | createCamera c k => cases he
  | setBias c b =>
    simp only [step, setBias] at he ⊢; split at he
    · rename_i hx; simp [hx]
    · cases he
  | createRigCamera rc p =>
    simp only [step, createRigCamera] at he ⊢; split at he
    · rename_i hx; simp [hx]
    · cases he
  | createRigInstance i =>
    simp only [step, createRigInstance] at he ⊢; split at he
    · rename_i hx; simp [hx]
    · cases he
  | removeRigInstance i =>
    simp only [step, removeRigInstance] at he ⊢; split at he
    · rename_i hx; simp [hx]
    · cases he
  | createShot s c rc i p =>
    simp only [step] at he ⊢
    rcases createShot_fail m s c rc i p with ⟨e', he'⟩ | ⟨k, inst, rp, hs, hc, hi, hrc, hv⟩
    · rw [he']
    · rw [createShot_ok hs hc hi hrc hv] at he; cases he
  | removeShot s =>
    simp only [step] at he ⊢
    cases hs : m.shots.get? s with
    | none => simp [removeShot, hs]
    | some st =>
      obtain ⟨inst, lms, _, _, _, h4, _⟩ := removeShot_spec h hs
      rw [h4] at he; cases he
  | createLandmark l x =>
    simp only [step, createLandmark] at he ⊢; split at he
    · rename_i hx; simp [hx]
    · cases he
  | removeLandmark l =>
    simp only [step, removeLandmark] at he ⊢
    cases hl : m.landmarks.get? l with
    | none => rfl
    | some lm =>
      obtain ⟨sh, h1, _⟩ := removeLandmark_spec h hl
      simp [hl, h1] at he
  | addObservation s l o =>
    simp only [step, addObservation] at he ⊢
    cases hs : m.shots.get? s with
    | none => rfl
    | some st =>
      cases hl : m.landmarks.get? l with
      | none => rfl
      | some lm => simp [hs, hl] at he
  | removeObservation s l =>
    simp only [step, removeObservation] at he ⊢
    cases hs : m.shots.get? s with
    | none => rfl
    | some st =>
      cases hl : m.landmarks.get? l with
      | none => rfl
      | some lm =>
        cases hf : lm.obs.get? s with
        | none => simp [hf]
        | some f =>
          cases hr : st.removeFeature f with
          | none => simp [hf, hr]
          | some st' => simp [hs, hl, hf, hr] at he
  | cleanBelow n =>
    obtain ⟨m', e1, _⟩ := cleanLoop_spec n m.landmarks m h h.wfLms h.landmarks_mem
    simp [step, cleanBelow, e1] at he
  | clear =>
    obtain ⟨m', e1, _⟩ := clear_spec h
    simp [step, e1] at he
  | updateInstancePose i s p =>
    simp only [step, updateInstancePoseWithShot] at he ⊢
    cases hi : m.rigInstances.get? i with
    | none => rfl
    | some inst =>
      cases hs : inst.shots.get? s with
      | none => simp [hs]
      | some rc =>
        cases hrc : m.rigCameras.get? rc with
        | none => simp [hs, hrc]
        | some rp => simp [hi, hs, hrc] at he
  | setShotPose s p =>
    simp only [step, setShotPose] at he ⊢
    split at he
    · rename_i hx; simp [hx]
    · rename_i st hs
      split at he
      · rename_i inst rp hi hrc
        split at he
        · cases he
        · rename_i hc; simp [hs, hi, hrc, hc]
      · simp only [hs]

/-- Exactly when the creating calls raise. -/
theorem C16_create_raises (b0 : B) (ops : List (Op Id A X K B P)) :
    let m := run b0 ops
    (∀ c k, (m.step b0 (.createCamera c k)).2 = none) ∧
    (∀ rc p, (m.step b0 (.createRigCamera rc p)).2 = none ↔ m.rigCameras.get? rc = none) ∧
    (∀ i, (m.step b0 (.createRigInstance i)).2 = none ↔ m.rigInstances.get? i = none) ∧
    (∀ l x, (m.step b0 (.createLandmark l x)).2 = none ↔ m.landmarks.get? l = none) ∧
    (∀ s c rc i p, (m.step b0 (.createShot s c rc i p)).2 = none ↔
      m.shots.get? s = none ∧ (m.cameras.get? c).isSome ∧ (m.rigCameras.get? rc).isSome ∧
      (m.rigInstances.get? i).isSome ∧ ¬ ∃ inst, m.rigInstances.get? i = some inst ∧
        ∃ s', (s', rc) ∈ inst.shots) ∧
    (∀ s l o, (m.step b0 (.addObservation s l o)).2 = none ↔
      (m.shots.get? s).isSome ∧ (m.landmarks.get? l).isSome) := by
  intro m
  refine ⟨fun c k => rfl, ?_, ?_, ?_, ?_, ?_⟩
  · intro rc p; simp only [step, createRigCamera]; cases m.rigCameras.get? rc <;> simp
  · intro i; simp only [step, createRigInstance]; cases m.rigInstances.get? i <;> simp
  · intro l x; simp only [step, createLandmark]; cases m.landmarks.get? l <;> simp
  · intro s c rc i p
    simp only [step]
    have hvals : ∀ (d : Dict Id Id), rc ∈ d.vals ↔ ∃ s', (s', rc) ∈ d := by
      intro d
      simp only [Dict.vals, List.mem_map]
      constructor
      · rintro ⟨⟨a, b⟩, hm, rfl⟩; exact ⟨a, hm⟩
      · rintro ⟨a, hm⟩; exact ⟨_, hm, rfl⟩
    cases hs : m.shots.get? s <;> cases hc : m.cameras.get? c <;>
      cases hi : m.rigInstances.get? i <;> cases hrc : m.rigCameras.get? rc <;>
      simp [createShot, hs, hc, hi, hrc]
    rename_i inst rp
    by_cases hv : rc ∈ inst.shots.vals
    · simp [hv]; exact (hvals _).1 hv
    · simp [hv]
      intro x hx; exact hv ((hvals _).2 ⟨x, hx⟩)
  · intro s l o
    simp only [step, addObservation]
    cases m.shots.get? s <;> cases m.landmarks.get? l <;> simp

example : ((run 0 sampleOps).step 0 (.createShot 103 1 10 20 none)).2 = some .rigCameraTaken ∧
    ((run 0 sampleOps).step 0 (.createShot 100 1 10 20 none)).2 = some .exists_ ∧
    ((run 0 sampleOps).step 0 (.createShot 103 1 10 22 none)).2 = some .unknownRigInstance := by
  decide

/-! ## C17 -/

open Classical in
/-- `clean_landmarks_below_min_observations(n)` never fails, removes exactly the landmarks seen by
fewer than `n` shots, from the landmarks and from the shots, and changes nothing else. -/
theorem C17_clean (b0 : B) (ops : List (Op Id A X K B P)) (hd : Disciplined b0 ops) (n : Nat) :
    let m := run b0 ops
    let m' := (m.step b0 (.cleanBelow n)).1
    let few := fun l => ∃ lm, m.landmarks.get? l = some lm ∧ lm.obs.length < n
    (m.step b0 (.cleanBelow n)).2 = none ∧
    (∀ l, m'.landmarks.get? l = if few l then none else m.landmarks.get? l) ∧
    (∀ s l, m'.shotObservation s l = if few l then none else m.shotObservation s l) ∧
    (∀ s, (m'.shots.get? s).map (fun st => (st.camera, st.rigInstance, st.rigCamera)) =
        (m.shots.get? s).map (fun st => (st.camera, st.rigInstance, st.rigCamera))) ∧
    m'.cameras = m.cameras ∧ m'.bias = m.bias ∧ m'.rigCameras = m.rigCameras ∧
    m'.rigInstances = m.rigInstances := by
  intro m m' few
  have h := inv_run b0 ops hd
  obtain ⟨m2, e1, e2, e3, e4, e5, e6, e7, e8, e9, e10⟩ :=
    cleanLoop_spec n m.landmarks m h h.wfLms h.landmarks_mem
  have hm' : m' = m2 := by simp only [m', step, cleanBelow, e1]
  have hfew : ∀ l, (∃ lm, (l, lm) ∈ m.landmarks ∧ lm.obs.length < n) ↔ few l := by
    intro l
    constructor
    · rintro ⟨lm, h1, h2⟩; exact ⟨lm, h.landmarks_mem l lm h1, h2⟩
    · rintro ⟨lm, h1, h2⟩; exact ⟨lm, Dict.mem_of_get? h1, h2⟩
  rw [hm']
  refine ⟨by simp only [step, cleanBelow, e1], ?_, ?_, e8, e3, e4, e5, e6⟩
  · intro l; rw [e9]; simp only [hfew]
  · intro s l; rw [e10]; simp only [hfew]

/-- The number of observations compared with `n` is the number of shots seeing the landmark. -/
theorem C17_count (b0 : B) (ops : List (Op Id A X K B P)) (hd : Disciplined b0 ops) (l : Id)
    (lm : LmSt Id X) (hl : (run b0 ops).landmarks.get? l = some lm) :
    (lm.obs.map Prod.fst).Nodup ∧
    ∀ s, s ∈ lm.obs.map Prod.fst ↔ ((run b0 ops).shotObservation s l).isSome := by
  have h := inv_run b0 ops hd
  refine ⟨h.lmWf l lm hl, ?_⟩
  intro s
  rw [show lm.obs.map Prod.fst = lm.obs.keys from rfl, Dict.mem_keys_iff]
  have := h.sym s l
  simp only [landmarkObservation, hl, Option.bind_some] at this
  constructor
  · intro hx
    obtain ⟨f, hf⟩ := Option.isSome_iff_exists.1 hx
    obtain ⟨o, ho, _⟩ := (this f).1 hf
    simp [ho]
  · intro hx
    obtain ⟨o, ho⟩ := Option.isSome_iff_exists.1 hx
    simp [(this o.feat).2 ⟨o, ho, rfl⟩]

/-- `clear_observations_and_landmarks` never fails and leaves no landmark and no observation. -/
theorem C17_clear (b0 : B) (ops : List (Op Id A X K B P)) (hd : Disciplined b0 ops) :
    let m := run b0 ops
    let m' := (m.step b0 .clear).1
    (m.step b0 .clear).2 = none ∧ m'.landmarks = [] ∧ (∀ s l, m'.shotObservation s l = none) ∧
    (∀ s, (m'.shots.get? s).map (fun st => (st.camera, st.rigInstance, st.rigCamera)) =
        (m.shots.get? s).map (fun st => (st.camera, st.rigInstance, st.rigCamera))) ∧
    m'.cameras = m.cameras ∧ m'.bias = m.bias ∧ m'.rigCameras = m.rigCameras ∧
    m'.rigInstances = m.rigInstances := by
  intro m m'
  have h := inv_run b0 ops hd
  obtain ⟨m2, e1, e2, e3, e4, e5, e6, e7, e8, e9⟩ := clear_spec h
  have hm' : m' = m2 := by
    show (m.clear).1 = m2
    rw [e1]
  rw [hm']
  exact ⟨by show (m.clear).2 = none; rw [e1], e3, e9, e8, e4, e5, e6, e7⟩

example : ((run 0 sampleOps).step 0 (.cleanBelow 2)).1.landmarks.keys = [200, 202] ∧
    ((run 0 sampleOps).step 0 (.cleanBelow 2)).1.shotObservation 100 201 = none := by decide

/-! ## C18 -/

/-- Every shot is listed by exactly one rig instance, the one it names, with the rig camera it
names; instances list only existing shots; an instance has at most one shot per rig camera. -/
theorem C18_rigs (b0 : B) (ops : List (Op Id A X K B P)) (hd : Disciplined b0 ops) :
    let m := run b0 ops
    (∀ s st, m.shots.get? s = some st →
      ∀ i rc, m.instanceShot i s = some rc ↔ i = st.rigInstance ∧ rc = st.rigCamera) ∧
    (∀ i s rc, m.instanceShot i s = some rc → (m.shots.get? s).isSome) ∧
    (∀ i s s' rc, m.instanceShot i s = some rc → m.instanceShot i s' = some rc → s = s') ∧
    (∀ s st, m.shots.get? s = some st → (m.cameras.get? st.camera).isSome ∧
      (m.rigCameras.get? st.rigCamera).isSome ∧ (m.rigInstances.get? st.rigInstance).isSome) := by
  intro m
  have h := inv_run b0 ops hd
  refine ⟨?_, ?_, ?_, ?_⟩
  · intro s st hs i rc
    rw [h.rig s i rc]
    constructor
    · rintro ⟨st', hs', h1, h2⟩
      rw [show (run b0 ops).shots.get? s = some st from hs] at hs'; cases hs'
      exact ⟨h1.symm, h2.symm⟩
    · rintro ⟨rfl, rfl⟩; exact ⟨st, hs, rfl, rfl⟩
  · intro i s rc hx
    obtain ⟨st, hs, _⟩ := (h.rig s i rc).1 hx
    show ((run b0 ops).shots.get? s).isSome
    simp [hs]
  · intro i s s' rc h1 h2
    unfold instanceShot at h1 h2
    cases hi : m.rigInstances.get? i with
    | none => simp [hi] at h1
    | some inst =>
      simp only [hi, Option.bind_some] at h1 h2
      have hn := h.instInj i inst hi
      have m1 := Dict.mem_of_get? h1
      have m2 := Dict.mem_of_get? h2
      have : ∀ (d : Dict Id Id), d.vals.Nodup → (s, rc) ∈ d → (s', rc) ∈ d → s = s' := by
        intro d
        induction d with
        | nil => intro _ h; cases h
        | cons p d ih =>
          intro hn ha hb
          have hn' := List.nodup_cons.1 hn
          rcases List.mem_cons.1 ha with ha | ha <;> rcases List.mem_cons.1 hb with hb | hb
          · rw [← ha] at hb; exact (Prod.mk.inj hb).1.symm
          · exact absurd (List.mem_map.2 ⟨(s', rc), hb, by rw [← ha]⟩) hn'.1
          · exact absurd (List.mem_map.2 ⟨(s, rc), ha, by rw [← hb]⟩) hn'.1
          · exact ih hn'.2 ha hb
      exact this _ hn m1 m2
  · intro s st hs
    refine ⟨h.shotCam s st hs, h.shotRc s st hs, ?_⟩
    have := (h.rig s st.rigInstance st.rigCamera).2 ⟨st, hs, rfl, rfl⟩
    unfold instanceShot at this
    show ((run b0 ops).rigInstances.get? st.rigInstance).isSome
    cases hi : (run b0 ops).rigInstances.get? st.rigInstance with
    | none => simp [hi] at this
    | some _ => rfl

/-- Removing a rig instance that still has shots leaves shots naming a missing instance. -/
theorem C18_remove_used_instance :
    let m := run 0 (sampleOps ++ [.removeRigInstance 20])
    ((run 0 sampleOps).step 0 (.removeRigInstance 20)).2 = none ∧
    (m.shots.get? 100).map ShotSt.rigInstance = some 20 ∧ m.rigInstances.get? 20 = none ∧
    (m.step 0 (.removeShot 100)).2 = some .undefined := by decide

example : (run 0 sampleOps).instanceShot 20 100 = some 10 ∧
    (run 0 sampleOps).instanceShot 20 101 = some 11 ∧
    (run 0 sampleOps).instanceShot 21 102 = some 10 := by decide

/-! ## C19 -/

/-- Creating a shot with a pose and reading its pose back gives that pose. -/
theorem C19_create_pose (b0 : B) (ops : List (Op Id A X K B P)) (s c rc i : Id) (p : P)
    (hok : ((run b0 ops).step b0 (.createShot s c rc i (some p))).2 = none) :
    ((run b0 ops).step b0 (.createShot s c rc i (some p))).1.shotPose s = .ok p := by
  generalize run b0 ops = m at *
  simp only [step] at hok ⊢
  rcases createShot_fail m s c rc i (some p) with ⟨e', he'⟩ | ⟨k, inst, rp, hs, hc, hi, hrc, hv⟩
  · rw [he'] at hok; cases hok
  · rw [createShot_ok hs hc hi hrc hv]
    simp [shotPose, hrc, joinPose]

/-- The pose of every shot of a disciplined history is defined: it is the pose of its rig camera
composed with the pose of its instance. -/
theorem C19_pose (b0 : B) (ops : List (Op Id A X K B P)) (hd : Disciplined b0 ops) (s : Id)
    (st : ShotSt Id A) (hs : (run b0 ops).shots.get? s = some st) :
    ∃ inst rp, (run b0 ops).rigInstances.get? st.rigInstance = some inst ∧
      (run b0 ops).rigCameras.get? st.rigCamera = some rp ∧
      (run b0 ops).shotPose s = .ok (rp * inst.pose) := by
  have hr := (C18_rigs b0 ops hd).2.2.2 s st hs
  obtain ⟨inst, hi⟩ := Option.isSome_iff_exists.1 hr.2.2
  obtain ⟨rp, hrp⟩ := Option.isSome_iff_exists.1 hr.2.1
  exact ⟨inst, rp, hi, hrp, by simp [shotPose, hs, hi, hrp]⟩

/-- Moving an instance through one of its shots: that shot gets the requested pose, the pose of
every shot of the instance relative to it is unchanged, and shots of other instances do not
move. -/
theorem C19_move (b0 : B) (ops : List (Op Id A X K B P)) (hd : Disciplined b0 ops) (i s : Id)
    (p : P) (hok : ((run b0 ops).step b0 (.updateInstancePose i s p)).2 = none) :
    let m := run b0 ops
    let m' := (m.step b0 (.updateInstancePose i s p)).1
    m'.shotPose s = .ok p ∧
    (∀ s' rc', m.instanceShot i s' = some rc' → ∃ q q' q0,
      m.shotPose s' = .ok q ∧ m'.shotPose s' = .ok q' ∧ m.shotPose s = .ok q0 ∧
      q' * p⁻¹ = q * q0⁻¹) ∧
    (∀ s', m.instanceShot i s' = none → m'.shotPose s' = m.shotPose s') := by
  intro m m'
  have h := inv_run b0 ops hd
  have hm : m = run b0 ops := rfl
  simp only [step, updateInstancePoseWithShot] at hok
  cases hi : m.rigInstances.get? i with
  | none => simp [hm ▸ hi] at hok
  | some inst =>
    cases hs : inst.shots.get? s with
    | none => simp [hm ▸ hi, hs] at hok
    | some rc =>
      cases hrc : m.rigCameras.get? rc with
      | none => simp [hm ▸ hi, hs, hm ▸ hrc] at hok
      | some rp =>
        have hm' : m' = { m with
            rigInstances := m.rigInstances.set i ({ inst with pose := rp⁻¹ * p }) } := by
          simp only [m', step, updateInstancePoseWithShot, hi, hs, hrc]
        have pose_of : ∀ s' rc', m.instanceShot i s' = some rc' → ∃ rp',
            m.rigCameras.get? rc' = some rp' ∧ m.shotPose s' = .ok (rp' * inst.pose) ∧
            m'.shotPose s' = .ok (rp' * (rp⁻¹ * p)) := by
          intro s' rc' hx
          obtain ⟨st, hst, h1, h2⟩ := (h.rig s' i rc').1 hx
          obtain ⟨rp', hrp'⟩ := Option.isSome_iff_exists.1 (h.shotRc s' st hst)
          rw [h2] at hrp'
          have hst : m.shots.get? s' = some st := hst
          have hrp' : m.rigCameras.get? rc' = some rp' := hrp'
          refine ⟨rp', hrp', ?_, ?_⟩
          · simp [shotPose, hst, h1, h2, hi, hrp']
          · rw [hm']; simp [shotPose, hst, h1, h2, hrp']
        have hsi : m.instanceShot i s = some rc := by simp [instanceShot, hi, hs]
        obtain ⟨rp0, hrp0, hp0, hp0'⟩ := pose_of s rc hsi
        rw [hrc] at hrp0; cases hrp0
        refine ⟨by rw [hp0']; simp, ?_, ?_⟩
        · intro s' rc' hx
          obtain ⟨rp', hrp', hq, hq'⟩ := pose_of s' rc' hx
          exact ⟨_, _, _, hq, hq', hp0, by group⟩
        · intro s' hx
          rw [hm']
          unfold shotPose
          cases hst : m.shots.get? s' with
          | none => simp
          | some st =>
            have : i ≠ st.rigInstance := by
              rintro rfl
              have := (h.rig s' st.rigInstance st.rigCamera).2 ⟨st, hst, rfl, rfl⟩
              rw [show (run b0 ops).instanceShot st.rigInstance s' = none from hx] at this
              cases this
            simp [Dict.get?_set, this]

/-- `shot.pose = p` is accepted exactly for a shot alone in its instance with an identity rig
camera, and then the pose reads back as `p`. -/
theorem C19_setPose (b0 : B) (ops : List (Op Id A X K B P)) (hd : Disciplined b0 ops) (s : Id)
    (p : P) :
    let m := run b0 ops
    ((m.step b0 (.setShotPose s p)).2 = none ↔
      ∃ st, m.shots.get? s = some st ∧ m.rigCameras.get? st.rigCamera = some 1 ∧
        ∀ s', (m.instanceShot st.rigInstance s').isSome → s' = s) ∧
    ((m.step b0 (.setShotPose s p)).2 = none →
      (m.step b0 (.setShotPose s p)).1.shotPose s = .ok p) := by
  intro m
  have h := inv_run b0 ops hd
  simp only [step, setShotPose]
  cases hs : m.shots.get? s with
  | none => simp
  | some st =>
    obtain ⟨inst, rp, hi, hrp, _⟩ := C19_pose b0 ops hd s st hs
    have hi : m.rigInstances.get? st.rigInstance = some inst := hi
    have hrp : m.rigCameras.get? st.rigCamera = some rp := hrp
    have hin : inst.shots.get? s = some st.rigCamera := by
      have := (h.rig s st.rigInstance st.rigCamera).2 ⟨st, hs, rfl, rfl⟩
      unfold instanceShot at this
      rw [show (run b0 ops).rigInstances.get? st.rigInstance = some inst from hi] at this
      simpa using this
    have hlen : inst.shots.length = 1 ↔ ∀ s', (inst.shots.get? s').isSome → s' = s := by
      have hw := h.instWf _ _ hi
      constructor
      · intro h1 s' hs'
        match hx : inst.shots, h1 with
        | [q], _ =>
          obtain ⟨a, b⟩ := q
          simp only [hx, Dict.get?] at hin hs'
          by_cases h2 : a = s
          · by_cases h3 : a = s'
            · rw [← h3, h2]
            · simp [h3] at hs'
          · simp [h2] at hin
      · intro hall
        match hx : inst.shots with
        | [] => simp [hx] at hin
        | [q] => rfl
        | q1 :: q2 :: t =>
          exfalso
          rw [hx] at hw hall
          have e1 := hall q1.1 ((Dict.mem_keys_iff _ _).1 (by simp))
          have e2 := hall q2.1 ((Dict.mem_keys_iff _ _).1 (by simp))
          simp only [Dict.Wf, Dict.keys_cons, List.nodup_cons, List.mem_cons, not_or] at hw
          exact hw.1.1 (e1.trans e2.symm)
    have hinst : ∀ s', m.instanceShot st.rigInstance s' = inst.shots.get? s' := by
      intro s'; simp [instanceShot, hi]
    simp only [hi, hrp, Option.some.injEq, exists_eq_left', hinst, ← hlen]
    by_cases hc : rp = 1 ∧ inst.shots.length = 1
    · simp [hc, shotPose, hs, hrp]
    · simp [hc]

example : (run 0 sampleOps).shotPose 100 = .ok (.ofAdd 7) ∧
    (run 0 sampleOps).shotPose 101 = .ok (.ofAdd 9) ∧
    ((run 0 sampleOps).step 0 (.updateInstancePose 20 101 (.ofAdd 20))).2 = none ∧
    ((run 0 sampleOps).step 0 (.updateInstancePose 20 101 (.ofAdd 20))).1.shotPose 100 =
      .ok (.ofAdd 18) := by decide

/-! ## C20 -/

theorem cameras_cleanLoop (n : Nat) (todo : List (Id × LmSt Id X)) (m : SMap Id A X K B P) :
    (cleanLoop n m todo).1.cameras = m.cameras ∧ (cleanLoop n m todo).1.bias = m.bias := by
  induction todo generalizing m with
  | nil => exact ⟨rfl, rfl⟩
  | cons p todo ih =>
    obtain ⟨l, lm⟩ := p
    unfold cleanLoop
    split
    · split
      · exact ⟨rfl, rfl⟩
      · exact ih _
    · exact ih m

theorem cameras_clearLoop (todo : List (Id × LmSt Id X)) (m : SMap Id A X K B P) :
    (clearLoop m todo).1.cameras = m.cameras ∧ (clearLoop m todo).1.bias = m.bias := by
  induction todo generalizing m with
  | nil => exact ⟨rfl, rfl⟩
  | cons p todo ih =>
    obtain ⟨l, lm⟩ := p
    unfold clearLoop
    split
    · exact ⟨rfl, rfl⟩
    · exact ih _

/-- Is it one of the two calls that concern cameras and biases? -/
def isCameraOp : Op Id A X K B P → Bool
  | .createCamera _ _ => true
  | .setBias _ _ => true
  | _ => false

theorem cameras_step (b0 : B) (m : SMap Id A X K B P) (op : Op Id A X K B P)
    (h : isCameraOp op = false) :
    (m.step b0 op).1.cameras = m.cameras ∧ (m.step b0 op).1.bias = m.bias := by
  cases op with
  | createCamera c k => cases h
  | setBias c b => cases h
  | createRigCamera rc p => simp only [step, createRigCamera]; split <;> exact ⟨rfl, rfl⟩
  | createRigInstance i => simp only [step, createRigInstance]; split <;> exact ⟨rfl, rfl⟩
  | removeRigInstance i => simp only [step, removeRigInstance]; split <;> exact ⟨rfl, rfl⟩
  | createShot s c rc i p =>
    simp only [step]
    rcases createShot_fail m s c rc i p with ⟨e', he'⟩ | ⟨k, inst, rp, hs, hc, hi, hrc, hv⟩
    · rw [he']; exact ⟨rfl, rfl⟩
    · rw [createShot_ok hs hc hi hrc hv]; exact ⟨rfl, rfl⟩
  | removeShot s =>
    simp only [step, removeShot]
    split
    · exact ⟨rfl, rfl⟩
    · split
      · exact ⟨rfl, rfl⟩
      · split
        · exact ⟨rfl, rfl⟩
        · split <;> exact ⟨rfl, rfl⟩
  | createLandmark l x => simp only [step, createLandmark]; split <;> exact ⟨rfl, rfl⟩
  | removeLandmark l =>
    simp only [step, removeLandmark]
    split
    · exact ⟨rfl, rfl⟩
    · split <;> exact ⟨rfl, rfl⟩
  | addObservation s l o =>
    simp only [step, addObservation]
    split
    · exact ⟨rfl, rfl⟩
    · split <;> exact ⟨rfl, rfl⟩
  | removeObservation s l =>
    simp only [step, removeObservation]
    split
    · exact ⟨rfl, rfl⟩
    · split
      · exact ⟨rfl, rfl⟩
      · split
        · exact ⟨rfl, rfl⟩
        · split <;> exact ⟨rfl, rfl⟩
  | cleanBelow n => exact cameras_cleanLoop n _ m
  | clear =>
    have := cameras_clearLoop m.landmarks m
    simp only [step, clear]
    split
    · rename_i he; rw [he] at this; exact this
    · rename_i he; rw [he] at this; exact this
  | updateInstancePose i s p =>
    simp only [step, updateInstancePoseWithShot]
    split
    · exact ⟨rfl, rfl⟩
    · split
      · exact ⟨rfl, rfl⟩
      · split <;> exact ⟨rfl, rfl⟩
  | setShotPose s p =>
    simp only [step, setShotPose]
    split
    · exact ⟨rfl, rfl⟩
    · split
      · split <;> exact ⟨rfl, rfl⟩
      · exact ⟨rfl, rfl⟩

/-- After any history at all (disciplined or not) a bias exists exactly for the existing
cameras. -/
theorem C20_bias (b0 : B) (ops : List (Op Id A X K B P)) (c : Id) :
    ((run b0 ops).bias.get? c).isSome = ((run b0 ops).cameras.get? c).isSome := by
  induction ops using List.reverseRecOn with
  | nil => rfl
  | append_singleton ops op ih =>
    rw [run_snoc]
    by_cases hc : isCameraOp op = false
    · rw [(cameras_step b0 _ op hc).1, (cameras_step b0 _ op hc).2]; exact ih
    · cases op with
      | createCamera c' k =>
        simp only [step, createCamera, Dict.has_insertNew, ih]
      | setBias c' b =>
        simp only [step, setBias]
        split
        · exact ih
        · rename_i b' hb
          simp only [Dict.has_set, ← ih]
          by_cases hcc : c' = c
          · subst hcc; simp [hb]
          · simp [hcc]
      | _ => simp [isCameraOp] at hc

/-- `set_bias` raises exactly for unknown cameras; otherwise it sets that bias only. -/
theorem C20_setBias (b0 : B) (ops : List (Op Id A X K B P)) (c : Id) (b : B) :
    (((run b0 ops).step b0 (.setBias c b)).2 = none ↔ ((run b0 ops).cameras.get? c).isSome) ∧
    (((run b0 ops).step b0 (.setBias c b)).2 = none →
      ∀ c', ((run b0 ops).step b0 (.setBias c b)).1.bias.get? c' =
        if c' = c then some b else (run b0 ops).bias.get? c') := by
  have := C20_bias b0 ops c
  rw [← this]
  simp only [step, setBias]
  cases hb : (run b0 ops).bias.get? c with
  | none => simp
  | some b' => simp [Dict.get?_set, eq_comm]

/-- Creating a camera that exists keeps its parameters and its bias; a new camera starts with the
identity bias. -/
theorem C20_createCamera (b0 : B) (ops : List (Op Id A X K B P)) (c : Id) (k : K) :
    let m := run b0 ops
    let m' := (m.step b0 (.createCamera c k)).1
    (∀ c', m'.cameras.get? c' = if c' = c then some ((m.cameras.get? c).getD k)
      else m.cameras.get? c') ∧
    (∀ c', m'.bias.get? c' = if c' = c then some ((m.bias.get? c).getD b0)
      else m.bias.get? c') := by
  intro m m'
  constructor
  · intro c'
    show (m.cameras.insertNew c k).get? c' = _
    rw [Dict.get?_insertNew]
    by_cases h : c = c'
    · subst h; cases hx : m.cameras.get? c <;> simp [Dict.has, hx]
    · simp [h, Ne.symm h]
  · intro c'
    show (m.bias.insertNew c b0).get? c' = _
    rw [Dict.get?_insertNew]
    by_cases h : c = c'
    · subst h; cases hx : m.bias.get? c <;> simp [Dict.has, hx]
    · simp [h, Ne.symm h]

example : ((run 0 sampleOps).step 0 (.setBias 1 9)).2 = none ∧
    ((run 0 sampleOps).step 0 (.setBias 2 9)).2 = some .unknownCamera := by decide

end Verif.SMap
