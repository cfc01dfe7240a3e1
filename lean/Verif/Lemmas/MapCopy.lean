import Verif.Spec.MapCopy
import Mathlib.Tactic.SplitIfs
import Mathlib.Tactic.ByContra
import Mathlib.Tactic.Tauto

/-! # Lemmas about copies of a map -/
namespace Verif.MapCopy
set_option linter.unusedSectionVars false
set_option linter.unusedSimpArgs false

variable {Id A X C K B P D M R : Type} [DecidableEq Id]

theorem set_fresh {V : Type} (m : Dict Id V) (k : Id) (v : V) (h : k ∉ m.keys) :
    m.set k v = m ++ [(k, v)] := by
  induction m with
  | nil => rfl
  | cons a m ih =>
    obtain ⟨a, w⟩ := a
    simp only [Dict.keys_cons, List.mem_cons, not_or] at h
    have : ¬ a = k := fun e => h.1 e.symm
    simp only [Dict.set, this, if_false, List.cons_append]
    rw [ih h.2]

/-- The shot as it arrives in the copy: without mesh and observations. -/
def strip (df : Defaults B C D M R) (sh : FShot Id A D M) : FShot Id A D M :=
  { sh with mesh := df.mesh, lmObs := [], lmId := [] }

theorem table_setTable (m : FMap Id A X C K B P D M R) (b b' : Bool) (t : Dict Id (FShot Id A D M)) :
    table (setTable m b t) b' = if b' = b then t else table m b' := by
  cases b <;> cases b' <;> simp [table, setTable]

@[simp] theorem setTable_cameras (m : FMap Id A X C K B P D M R) (b : Bool) (t) :
    (setTable m b t).cameras = m.cameras := by cases b <;> rfl
@[simp] theorem setTable_bias (m : FMap Id A X C K B P D M R) (b : Bool) (t) :
    (setTable m b t).bias = m.bias := by cases b <;> rfl
@[simp] theorem setTable_rigCameras (m : FMap Id A X C K B P D M R) (b : Bool) (t) :
    (setTable m b t).rigCameras = m.rigCameras := by cases b <;> rfl
@[simp] theorem setTable_rigInstances (m : FMap Id A X C K B P D M R) (b : Bool) (t) :
    (setTable m b t).rigInstances = m.rigInstances := by cases b <;> rfl
@[simp] theorem setTable_landmarks (m : FMap Id A X C K B P D M R) (b : Bool) (t) :
    (setTable m b t).landmarks = m.landmarks := by cases b <;> rfl
@[simp] theorem setTable_reference (m : FMap Id A X C K B P D M R) (b : Bool) (t) :
    (setTable m b t).reference = m.reference := by cases b <;> rfl

theorem has_iff {V : Type} (m : Dict Id V) (k : Id) : m.has k = true ↔ ∃ v, m.get? k = some v := by
  unfold Dict.has; exact Option.isSome_iff_exists

theorem has_false_iff {V : Type} (m : Dict Id V) (k : Id) : m.has k = false ↔ m.get? k = none := by
  unfold Dict.has; cases m.get? k <;> simp

/-- The parts of `m` that the loops over shots do not touch. -/
structure Frame (df : Defaults B C D M R) (src m : FMap Id A X C K B P D M R) : Prop where
  cams : ∀ c, m.cameras.get? c = src.cameras.get? c
  bias : ∀ c, m.bias.get? c = (src.cameras.get? c).map fun _ => df.bias
  landmarks : m.landmarks = []
  reference : m.reference = src.reference

/-- Rig camera `rc` is used by a member of a copied instance. -/
def UsedBy (src : FMap Id A X C K B P D M R) (done : Id → Prop) (rc : Id) : Prop :=
  ∃ i x s e, done i ∧ src.rigInstances.get? i = some x ∧ x.members.get? s = some e ∧
    e.rigCamera = rc

/-- Exactly the rig instances in `done` have been copied. -/
structure Inv (df : Defaults B C D M R) (src : FMap Id A X C K B P D M R) (done : Id → Prop)
    (m : FMap Id A X C K B P D M R) : Prop where
  frame : Frame df src m
  rcs : ∀ rc p, m.rigCameras.get? rc = some p ↔ src.rigCameras.get? rc = some p ∧
    UsedBy src done rc
  insts : ∀ i x, m.rigInstances.get? i = some x ↔ done i ∧ src.rigInstances.get? i = some x
  tables : ∀ b s x, (table m b).get? s = some x ↔ ∃ sh, (table src b).get? s = some sh ∧
    done sh.inst ∧ x = strip df sh

theorem Inv.congr {df : Defaults B C D M R} {src m : FMap Id A X C K B P D M R}
    {done done' : Id → Prop} (h : Inv df src done m) (e : ∀ i, done i ↔ done' i) :
    Inv df src done' m := by
  have : done = done' := funext fun i => propext (e i)
  exact this ▸ h

/-- Within instance `i`, the members in `pre` have been copied. -/
structure Mid [One P] (df : Defaults B C D M R) (src : FMap Id A X C K B P D M R) (done : Id → Prop)
    (i : Id) (pose : P) (pre : Dict Id (Member Id)) (m : FMap Id A X C K B P D M R) : Prop where
  frame : Frame df src m
  rcs : ∀ rc p, m.rigCameras.get? rc = some p ↔ src.rigCameras.get? rc = some p ∧
    (UsedBy src done rc ∨ ∃ s e, (s, e) ∈ pre ∧ e.rigCamera = rc)
  insts : ∀ j, j ≠ i → ∀ x, m.rigInstances.get? j = some x ↔
    done j ∧ src.rigInstances.get? j = some x
  here : ∃ p, m.rigInstances.get? i = some ⟨p, pre⟩ ∧ (pre ≠ [] → p = pose)
  tables : ∀ b s x, (table m b).get? s = some x ↔ ∃ sh, (table src b).get? s = some sh ∧
    (done sh.inst ∨ (sh.inst = i ∧ s ∈ pre.keys)) ∧ x = strip df sh

theorem needRigCamera_spec (m : FMap Id A X C K B P D M R) (rc : Id) (p : P)
    (h : ∀ q, m.rigCameras.get? rc = some q → q = p) :
    ∃ t, needRigCamera m rc p = some { m with rigCameras := t } ∧
      ∀ rc', t.get? rc' = if rc' = rc then some p else m.rigCameras.get? rc' := by
  unfold needRigCamera createRigCamera
  by_cases hh : m.rigCameras.has rc = true
  · rw [if_pos hh]
    obtain ⟨q, hq⟩ := (has_iff _ _).1 hh
    refine ⟨m.rigCameras, rfl, fun rc' => ?_⟩
    by_cases e : rc' = rc
    · rw [if_pos e, e, hq, h q hq]
    · rw [if_neg e]
  · simp only [hh, if_neg, Bool.false_eq_true, if_false]
    refine ⟨_, rfl, fun rc' => ?_⟩
    rw [Dict.get?_set]
    by_cases e : rc' = rc
    · simp [e]
    · simp [e, Ne.symm e]

theorem needShot_spec [Group P] (df : Defaults B C D M R) (m : FMap Id A X C K B P D M R)
    (b : Bool) (s i : Id) (sh : FShot Id A D M) (pose : P) (inst : FInst Id P) (rp : P)
    (h1 : (table m b).get? s = none) (h2 : (m.cameras.get? sh.camera).isSome)
    (h3 : m.rigInstances.get? i = some inst) (h4 : m.rigCameras.get? sh.rigCamera = some rp)
    (h5 : ∀ e ∈ inst.members, e.2.rigCamera ≠ sh.rigCamera) (hi : sh.inst = i) :
    ∃ m', needShot df m b s i sh pose = some m' ∧ m'.cameras = m.cameras ∧ m'.bias = m.bias ∧
      m'.landmarks = m.landmarks ∧ m'.reference = m.reference ∧ m'.rigCameras = m.rigCameras ∧
      m'.rigInstances = m.rigInstances.set i ⟨rp⁻¹ * pose, inst.members.set s ⟨b, sh.rigCamera⟩⟩ ∧
      ∀ b' s', (table m' b').get? s' =
        if b' = b ∧ s' = s then some (strip df sh) else (table m b').get? s' := by
  obtain ⟨k, hk⟩ := Option.isSome_iff_exists.1 h2
  have hany : (inst.members.any fun e => decide (e.2.rigCamera = sh.rigCamera)) = false := by
    rw [List.any_eq_false]; intro e he; simpa using h5 e he
  unfold needShot
  rw [if_neg (by simp [(has_false_iff _ _).2 h1])]
  unfold createShot
  rw [if_neg (by simp [(has_false_iff _ _).2 h1]), hk, h3, h4]
  simp only [hany, Bool.false_eq_true, if_false, Option.bind_some]
  unfold assignShot
  rw [table_setTable, if_pos rfl, Dict.get?_set_self]
  refine ⟨_, rfl, by simp, by simp, by simp, by simp, by simp, by simp, fun b' s' => ?_⟩
  simp only [table_setTable]
  by_cases hb : b' = b
  · subst hb
    simp only [if_true, true_and, Dict.get?_set]
    by_cases hs : s' = s
    · subst hs; simp [strip, hi]
    · simp [hs, Ne.symm hs]
  · simp only [hb, if_false, false_and]
    cases b <;> cases b' <;> simp_all [table]

theorem foldlM_inv {α β : Type} (f : β → α → Option β) (L : List α) (Q : List α → β → Prop)
    (step : ∀ pre a post b, L = pre ++ a :: post → Q pre b → ∃ b', f b a = some b' ∧ Q (pre ++ [a]) b')
    (b : β) (h : Q [] b) : ∃ b', L.foldlM f b = some b' ∧ Q L b' := by
  suffices H : ∀ post pre b, L = pre ++ post → Q pre b → ∃ b', post.foldlM f b = some b' ∧ Q L b' from
    H L [] b rfl h
  intro post
  induction post with
  | nil => intro pre b e q; exact ⟨b, rfl, by simpa [e] using q⟩
  | cons a post ih =>
    intro pre b e q
    obtain ⟨b1, h1, q1⟩ := step pre a post b e q
    obtain ⟨b2, h2, q2⟩ := ih (pre ++ [a]) b1 (by simp [e]) q1
    exact ⟨b2, by simp [List.foldlM_cons, h1, h2], q2⟩

theorem keys_append {V : Type} (a b : Dict Id V) : Dict.keys (a ++ b) = a.keys ++ b.keys := by
  simp [Dict.keys]

theorem copyMember_spec [Group P] {df : Defaults B C D M R} {src m : FMap Id A X C K B P D M R}
    (hc : Consistent src) {done : Id → Prop} {i : Id} {inst : FInst Id P}
    (hi : src.rigInstances.get? i = some inst) (hd : ¬ done i) {pano : Bool}
    (hp : ∀ s e, inst.members.get? s = some e → e.pano = pano)
    (pre : List (Id × Member Id)) (a : Id × Member Id) (post : List (Id × Member Id))
    (hl : inst.members = pre ++ a :: post)
    (h : Mid df src done i inst.pose pre m) :
    ∃ m', copyMember df src pano i m a = some m' ∧ Mid df src done i inst.pose (pre ++ [a]) m' := by
  obtain ⟨s, e⟩ := a
  have wf := hc.wfMembers i inst hi
  have hmem : inst.members.get? s = some e := Dict.get?_of_mem wf (by rw [hl]; simp)
  have he : e.pano = pano := hp s e hmem
  have hnd : s ∉ Dict.keys pre := by
    intro hs
    have := wf
    rw [hl] at this
    unfold Dict.Wf at this
    rw [keys_append] at this
    exact (List.nodup_append.1 this).2.2 _ hs _ (by simp) rfl
  obtain ⟨sh, hsh, shi, shr⟩ := hc.member i inst s e hi hmem
  obtain ⟨k, hk⟩ := Option.isSome_iff_exists.1 (hc.camera _ _ _ hsh)
  obtain ⟨rp, hrp⟩ := Option.isSome_iff_exists.1 (hc.rigCamera _ _ _ hsh)
  have hpose : poseOf src sh = some (rp * inst.pose) := by
    unfold poseOf; rw [shi, hi, hrp]
  unfold copyMember
  simp only [hsh, hk, hrp, hpose]
  have hcam : needCamera df m sh.camera k = m := by
    unfold needCamera
    rw [if_pos ((has_iff _ _).2 ⟨k, by rw [h.frame.cams, hk]⟩)]
  rw [hcam]
  obtain ⟨t, ht, htg⟩ := needRigCamera_spec m sh.rigCamera rp
    (fun q hq => by
      have := ((h.rcs _ _).1 hq).1
      rw [hrp] at this; exact (Option.some.inj this).symm)
  rw [ht, Option.bind_some]
  obtain ⟨p0, hp0, hp0'⟩ := h.here
  obtain ⟨m', h1, c1, c2, c3, c4, c5, c6, c7⟩ :=
    needShot_spec df { m with rigCameras := t } pano s i sh (rp * inst.pose) ⟨p0, pre⟩ rp
      (by
        by_contra hne
        obtain ⟨x, hx⟩ := Option.ne_none_iff_exists'.1 hne
        have hx' : (table m pano).get? s = some x := by
          rw [← hx]; cases pano <;> rfl
        obtain ⟨sh', hs', hd', _⟩ := (h.tables _ _ _).1 hx'
        rw [← he, hsh] at hs'
        obtain rfl := Option.some.inj hs'
        rcases hd' with hd' | hd'
        · exact hd (shi ▸ hd')
        · exact hnd hd'.2)
      (by show (m.cameras.get? sh.camera).isSome; rw [h.frame.cams, hk]; rfl)
      hp0
      (by show t.get? sh.rigCamera = _; rw [htg]; simp)
      (by
        rintro ⟨s', e'⟩ hm hr
        have hm' : inst.members.get? s' = some e' :=
          Dict.get?_of_mem wf (by rw [hl]; exact List.mem_append_left _ hm)
        have := hc.once i inst s' e' s e hi hm' hmem (by rw [hr, shr])
        exact hnd (this ▸ List.mem_map.2 ⟨_, hm, rfl⟩))
      shi
  refine ⟨m', h1, ⟨⟨?_, ?_, ?_, ?_⟩, ?_, ?_, ?_, ?_⟩⟩
  · intro c; rw [c1]; exact h.frame.cams c
  · intro c; rw [c2]; exact h.frame.bias c
  · rw [c3]; exact h.frame.landmarks
  · rw [c4]; exact h.frame.reference
  · intro rc p
    rw [c5]
    show t.get? rc = some p ↔ _
    rw [htg]
    by_cases hr : rc = sh.rigCamera
    · rw [if_pos hr, hr, hrp]
      constructor
      · intro hh
        exact ⟨hh, Or.inr ⟨s, e, by simp, shr.symm⟩⟩
      · exact fun hh => hh.1
    · rw [if_neg hr, h.rcs]
      constructor
      · rintro ⟨a, b | ⟨s', e', hm, hh⟩⟩
        · exact ⟨a, Or.inl b⟩
        · exact ⟨a, Or.inr ⟨s', e', by simp [hm], hh⟩⟩
      · rintro ⟨a, b | ⟨s', e', hm, hh⟩⟩
        · exact ⟨a, Or.inl b⟩
        · refine ⟨a, Or.inr ⟨s', e', ?_, hh⟩⟩
          rcases List.mem_append.1 hm with hm | hm
          · exact hm
          · simp only [List.mem_singleton, Prod.mk.injEq] at hm
            exact absurd (by rw [← hh, hm.2, shr]) hr
  · intro j hj x
    rw [c6, Dict.get?_set_ne _ _ (Ne.symm hj)]
    exact h.insts j hj x
  · refine ⟨inst.pose, ?_, fun _ => rfl⟩
    rw [c6, Dict.get?_set_self, set_fresh _ _ _ hnd, inv_mul_cancel_left, shr, ← he]
  · intro b s' x
    rw [c7]
    have htab : table { m with rigCameras := t } b = table m b := by cases b <;> rfl
    rw [htab, keys_append]
    by_cases hb : b = pano ∧ s' = s
    · rw [if_pos hb]
      obtain ⟨rfl, rfl⟩ := hb
      constructor
      · intro hx
        exact ⟨sh, he ▸ hsh, Or.inr ⟨shi, by simp⟩, (Option.some.inj hx).symm⟩
      · rintro ⟨sh', hs', _, rfl⟩
        rw [← he, hsh] at hs'
        rw [Option.some.inj hs']
    · rw [if_neg hb, h.tables]
      constructor
      · rintro ⟨sh', a, b' | ⟨b1, b2⟩, c⟩
        · exact ⟨sh', a, Or.inl b', c⟩
        · exact ⟨sh', a, Or.inr ⟨b1, by simp [b2]⟩, c⟩
      · rintro ⟨sh', a, b' | ⟨b1, b2⟩, c⟩
        · exact ⟨sh', a, Or.inl b', c⟩
        · refine ⟨sh', a, Or.inr ⟨b1, ?_⟩, c⟩
          rcases List.mem_append.1 b2 with b2 | b2
          · exact b2
          · exfalso
            simp only [Dict.keys, List.map_cons, List.map_nil, List.mem_singleton] at b2
            subst b2
            obtain ⟨i', hi', hmm⟩ := hc.inst b s' sh' a
            rw [b1, hi] at hi'
            obtain rfl := Option.some.inj hi'
            rw [hmem] at hmm
            exact hb ⟨by rw [← he, Option.some.inj hmm], rfl⟩

theorem updateShotWithRig_spec [Group P] {df : Defaults B C D M R}
    {src m : FMap Id A X C K B P D M R} (hc : Consistent src) (hu : Unmixed src) {done : Id → Prop}
    {pano : Bool} {s : Id} {sh : FShot Id A D M} (hs : (table src pano).get? s = some sh)
    (hd : ¬ done sh.inst) (h : Inv df src done m) :
    ∃ m', updateShotWithRig df src m pano s sh = some m' ∧
      Inv df src (fun i => done i ∨ i = sh.inst) m' := by
  obtain ⟨inst, hi, hmem⟩ := hc.inst _ _ _ hs
  obtain ⟨rp, hrp⟩ := Option.isSome_iff_exists.1 (hc.rigCamera _ _ _ hs)
  have hpose : poseOf src sh = some (rp * inst.pose) := by
    unfold poseOf; rw [hi, hrp]
  have hp : ∀ s' e, inst.members.get? s' = some e → e.pano = pano := fun s' e he =>
    hu _ _ s' e s ⟨pano, sh.rigCamera⟩ hi he hmem
  have hno : m.rigInstances.get? sh.inst = none := by
    by_contra hne
    obtain ⟨x, hx⟩ := Option.ne_none_iff_exists'.1 hne
    exact hd ((h.insts _ _).1 hx).1
  unfold updateShotWithRig
  simp only [hi, hpose]
  unfold needInstance createInstance
  simp only [(has_false_iff _ _).2 hno, Bool.false_eq_true, if_false, Option.bind_some]
  have hmid : Mid df src done sh.inst inst.pose []
      { m with rigInstances := m.rigInstances.set sh.inst ⟨1, []⟩ } := by
    refine ⟨⟨h.frame.cams, h.frame.bias, h.frame.landmarks, h.frame.reference⟩, ?_, ?_, ?_, ?_⟩
    · intro rc p
      show m.rigCameras.get? rc = some p ↔ _
      rw [h.rcs]; simp
    · intro j hj x
      show (m.rigInstances.set sh.inst ⟨1, []⟩).get? j = _ ↔ _
      rw [Dict.get?_set_ne _ _ (Ne.symm hj)]
      exact h.insts j x
    · exact ⟨1, Dict.get?_set_self _ _ _, fun h => absurd rfl h⟩
    · intro b s' x
      have : table { m with rigInstances := m.rigInstances.set sh.inst ⟨1, []⟩ } b = table m b := by
        cases b <;> rfl
      rw [this, h.tables]; simp
  obtain ⟨m2, h2, q2⟩ := foldlM_inv (copyMember df src pano sh.inst) inst.members
    (fun pre m => Mid df src done sh.inst inst.pose pre m)
    (fun pre a post b hl hq => copyMember_spec hc hi hd hp pre a post hl hq) _ hmid
  rw [h2, Option.bind_some]
  obtain ⟨p0, hp0, hp0'⟩ := q2.here
  have hne : inst.members ≠ [] := by
    intro e; rw [e] at hmem; simp at hmem
  have hrp2 : m2.rigCameras.get? sh.rigCamera = some rp :=
    (q2.rcs _ _).2 ⟨hrp, Or.inr ⟨s, _, Dict.mem_of_get? hmem, rfl⟩⟩
  unfold updateInstancePose
  simp only [hp0, hmem, hrp2, inv_mul_cancel_left]
  refine ⟨_, rfl, ⟨⟨q2.frame.cams, q2.frame.bias, q2.frame.landmarks, q2.frame.reference⟩, ?_, ?_, ?_⟩⟩
  · intro rc p
    show m2.rigCameras.get? rc = some p ↔ _
    rw [q2.rcs]
    refine and_congr_right fun _ => ?_
    constructor
    · rintro (⟨i, x, s', e, hh⟩ | ⟨s', e, hm, hr⟩)
      · exact ⟨i, x, s', e, Or.inl hh.1, hh.2⟩
      · exact ⟨sh.inst, inst, s', e, Or.inr rfl, hi,
          Dict.get?_of_mem (hc.wfMembers _ _ hi) hm, hr⟩
    · rintro ⟨i, x, s', e, hi' | hi', hx, hm, hr⟩
      · exact Or.inl ⟨i, x, s', e, hi', hx, hm, hr⟩
      · subst hi'
        rw [hi] at hx
        obtain rfl := Option.some.inj hx
        exact Or.inr ⟨s', e, Dict.mem_of_get? hm, hr⟩
  · intro j x
    show (m2.rigInstances.set sh.inst ⟨inst.pose, inst.members⟩).get? j = some x ↔ _
    by_cases hj : j = sh.inst
    · subst hj
      rw [Dict.get?_set_self, hi]
      constructor
      · intro hh; exact ⟨Or.inr rfl, hh⟩
      · intro hh; exact hh.2
    · rw [Dict.get?_set_ne _ _ (Ne.symm hj), q2.insts j hj]
      constructor
      · rintro ⟨a, b⟩; exact ⟨Or.inl a, b⟩
      · rintro ⟨a | a, b⟩
        · exact ⟨a, b⟩
        · exact absurd a hj
  · intro b s' x
    have : table { m2 with rigInstances := m2.rigInstances.set sh.inst ⟨inst.pose, inst.members⟩ } b
        = table m2 b := by cases b <;> rfl
    rw [this, q2.tables]
    constructor
    · rintro ⟨sh', a, b' | b', c⟩
      · exact ⟨sh', a, Or.inl b', c⟩
      · exact ⟨sh', a, Or.inr b'.1, c⟩
    · rintro ⟨sh', a, b' | b', c⟩
      · exact ⟨sh', a, Or.inl b', c⟩
      · refine ⟨sh', a, Or.inr ⟨b', ?_⟩, c⟩
        obtain ⟨i', hi', hm'⟩ := hc.inst _ _ _ a
        rw [b', hi] at hi'
        obtain rfl := Option.some.inj hi'
        exact List.mem_map.2 ⟨_, Dict.mem_of_get? hm', rfl⟩

theorem wf_table {m : FMap Id A X C K B P D M R} (hc : Consistent m) (b : Bool) :
    (table m b).Wf := by
  cases b
  · exact hc.wfShots
  · exact hc.wfPano

/-- The loop over shots, or over pano shots. -/
theorem copyShots_spec [Group P] {df : Defaults B C D M R} {src : FMap Id A X C K B P D M R}
    (hc : Consistent src) (hu : Unmixed src) (pano : Bool) {done : Id → Prop}
    {m : FMap Id A X C K B P D M R} (h : Inv df src done m) :
    ∃ m', (table src pano).foldlM (copyShot df src pano) m = some m' ∧
      Inv df src (fun i => done i ∨ ∃ e ∈ table src pano, e.2.inst = i) m' := by
  refine foldlM_inv (copyShot df src pano) (table src pano)
    (fun pre m => Inv df src (fun i => done i ∨ ∃ e ∈ pre, e.2.inst = i) m) ?_ m
    (h.congr fun i => by simp)
  rintro pre ⟨s, sh⟩ post b hl q
  have hs : (table src pano).get? s = some sh :=
    Dict.get?_of_mem (wf_table hc pano) (by rw [hl]; simp)
  unfold copyShot
  by_cases hh : (table b pano).has s = true
  · simp only [hh, if_true]
    obtain ⟨x, hx⟩ := (has_iff _ _).1 hh
    obtain ⟨sh', h1, h2, _⟩ := (q.tables _ _ _).1 hx
    rw [hs] at h1
    obtain rfl := Option.some.inj h1
    refine ⟨b, rfl, q.congr fun i => ?_⟩
    constructor
    · rintro (a | ⟨e, he, a⟩)
      · exact Or.inl a
      · exact Or.inr ⟨e, by simp [he], a⟩
    · rintro (a | ⟨e, he, a⟩)
      · exact Or.inl a
      · rcases List.mem_append.1 he with he | he
        · exact Or.inr ⟨e, he, a⟩
        · simp only [List.mem_singleton] at he
          subst he; exact a ▸ h2
  · simp only [hh, Bool.false_eq_true, if_false]
    obtain ⟨m', h1, h2⟩ := updateShotWithRig_spec hc hu hs (fun hd => hh ((has_iff _ _).2
      ⟨_, (q.tables _ _ _).2 ⟨sh, hs, hd, rfl⟩⟩)) q
    refine ⟨m', h1, h2.congr fun i => ?_⟩
    constructor
    · rintro ((a | ⟨e, he, a⟩) | a)
      · exact Or.inl a
      · exact Or.inr ⟨e, by simp [he], a⟩
      · exact Or.inr ⟨(s, sh), by simp, a.symm⟩
    · rintro (a | ⟨e, he, a⟩)
      · exact Or.inl (Or.inl a)
      · rcases List.mem_append.1 he with he | he
        · exact Or.inl (Or.inr ⟨e, he, a⟩)
        · simp only [List.mem_singleton] at he
          subst he; exact Or.inr a.symm

theorem createCameras_spec (df : Defaults B C D M R) (L : Dict Id K)
    (m : FMap Id A X C K B P D M R) (hb : ∀ c, m.bias.get? c = (m.cameras.get? c).map fun _ => df.bias) :
    let r := L.foldl (fun m e => createCamera df m e.1 e.2) m
    (∀ c, r.cameras.get? c = (m.cameras.get? c).or (L.get? c)) ∧
    (∀ c, r.bias.get? c = (r.cameras.get? c).map fun _ => df.bias) ∧
    r.rigCameras = m.rigCameras ∧ r.rigInstances = m.rigInstances ∧ r.shots = m.shots ∧
    r.pano = m.pano ∧ r.landmarks = m.landmarks ∧ r.reference = m.reference := by
  induction L generalizing m with
  | nil => exact ⟨fun c => by simp, hb, rfl, rfl, rfl, rfl, rfl, rfl⟩
  | cons a L ih =>
    obtain ⟨k, v⟩ := a
    have hb' : ∀ c, (createCamera df m k v).bias.get? c =
        ((createCamera df m k v).cameras.get? c).map fun _ => df.bias := by
      intro c
      unfold createCamera
      simp only [Dict.get?_insertNew]
      have hk := hb k
      have hcc := hb c
      by_cases h : k = c
      · subst h
        cases hm : m.cameras.get? k <;> simp_all [Dict.has]
      · simp_all
    obtain ⟨h1, h2, h3, h4, h5, h6, h7, h8⟩ := ih (createCamera df m k v) hb'
    refine ⟨fun c => ?_, h2, h3, h4, h5, h6, h7, h8⟩
    rw [List.foldl_cons, h1]
    unfold createCamera
    simp only [Dict.get?_insertNew, Dict.get?]
    by_cases h : k = c
    · subst h
      cases hm : m.cameras.get? k <;> simp_all [Dict.has]
    · simp_all

/-- The loop over landmarks. -/
theorem copyLandmarks_spec (df : Defaults B C D M R) (L : Dict Id (FLm Id X C)) (hw : L.Wf)
    (m : FMap Id A X C K B P D M R) (hm : m.landmarks = []) :
    L.foldlM (copyLandmark df) m =
      some { m with landmarks := L.mapVals fun _ v => ⟨v.pos, df.color, []⟩ } := by
  have key : ∃ m', L.foldlM (copyLandmark df) m = some m' ∧
      m' = { m with landmarks := Dict.mapVals (fun _ v => ⟨v.pos, df.color, []⟩) L } := by
    refine foldlM_inv (copyLandmark df) L (fun pre x =>
      x = { m with landmarks := Dict.mapVals (fun _ v => ⟨v.pos, df.color, []⟩) pre }) ?_ m
      (by cases m; simp_all [Dict.mapVals])
    rintro pre ⟨l, v⟩ post b hl rfl
    have hnd : l ∉ Dict.keys pre := by
      intro hs
      unfold Dict.Wf at hw
      rw [hl, keys_append] at hw
      exact (List.nodup_append.1 hw).2.2 _ hs _ (by simp) rfl
    have hnd' : l ∉ Dict.keys (Dict.mapVals (fun _ v => (⟨v.pos, df.color, []⟩ : FLm Id X C)) pre) := by
      rwa [Dict.keys_mapVals]
    have hhas : Dict.has (Dict.mapVals (fun _ v => (⟨v.pos, df.color, []⟩ : FLm Id X C)) pre) l
        = false := (has_false_iff _ _).2 ((Dict.get?_eq_none_iff _ _).2 hnd')
    refine ⟨_, ?_, rfl⟩
    unfold copyLandmark
    simp only [hhas, Bool.false_eq_true, if_false]
    rw [set_fresh _ _ _ hnd']
    simp [Dict.mapVals]
  obtain ⟨m', h1, h2⟩ := key
  rw [h1, h2]

/-- The observations in `Done` have been copied. -/
structure ObsInv (df : Defaults B C D M R) (src base : FMap Id A X C K B P D M R)
    (Done : Id → Id → Prop) (m : FMap Id A X C K B P D M R) : Prop where
  cameras : m.cameras = base.cameras
  bias : m.bias = base.bias
  rigCameras : m.rigCameras = base.rigCameras
  rigInstances : m.rigInstances = base.rigInstances
  pano : m.pano = base.pano
  reference : m.reference = base.reference
  shotIds : ∀ s, (m.shots.get? s).isSome ↔ (src.shots.get? s).isSome
  shots : ∀ s x sh, m.shots.get? s = some x → src.shots.get? s = some sh →
    x.camera = sh.camera ∧ x.inst = sh.inst ∧ x.rigCamera = sh.rigCamera ∧ x.attrs = sh.attrs ∧
    x.mesh = df.mesh ∧ (∀ l o, x.lmObs.get? l = some o ↔ Done s l ∧ sh.lmObs.get? l = some o) ∧
    ∀ f l, x.lmId.get? f = some l ↔ Done s l ∧ ∃ o, sh.lmObs.get? l = some o ∧ o.feat = f
  lmIds : ∀ l, (m.landmarks.get? l).isSome ↔ (src.landmarks.get? l).isSome
  lms : ∀ l y lm, m.landmarks.get? l = some y → src.landmarks.get? l = some lm →
    y.pos = lm.pos ∧ y.color = df.color ∧ ∀ s f, y.obs.get? s = some f ↔
      Done s l ∧ ∃ sh o, src.shots.get? s = some sh ∧ sh.lmObs.get? l = some o ∧ o.feat = f

theorem ObsInv.congr {df : Defaults B C D M R} {src base m : FMap Id A X C K B P D M R}
    {D1 D2 : Id → Id → Prop} (h : ObsInv df src base D1 m) (e : ∀ s l, D1 s l ↔ D2 s l) :
    ObsInv df src base D2 m := by
  have : D1 = D2 := funext fun i => funext fun j => propext (e i j)
  exact this ▸ h

theorem addObs_spec {df : Defaults B C D M R} {src base m : FMap Id A X C K B P D M R}
    (hc : Consistent src) {Done : Id → Id → Prop} (h : ObsInv df src base Done m)
    {s l : Id} {sh : FShot Id A D M} {o : Ob A} (hs : src.shots.get? s = some sh)
    (ho : sh.lmObs.get? l = some o) (hnew : ¬ Done s l) :
    ∃ m', addObservation m s l o = some m' ∧
      ObsInv df src base (fun a b => Done a b ∨ (a = s ∧ b = l)) m' := by
  obtain ⟨x, hx⟩ := Option.isSome_iff_exists.1 ((h.shotIds s).2 (by simp [hs]))
  obtain ⟨y, hy⟩ := Option.isSome_iff_exists.1 ((h.lmIds l).2 (hc.observed s sh l o hs ho))
  obtain ⟨lm, hlm⟩ := Option.isSome_iff_exists.1 (hc.observed s sh l o hs ho)
  obtain ⟨a1, a2, a3, a4, a5, a6, a7⟩ := h.shots s x sh hx hs
  obtain ⟨b1, b2, b3⟩ := h.lms l y lm hy hlm
  have hxl : x.lmObs.get? l = none := by
    by_contra hne
    obtain ⟨o', ho'⟩ := Option.ne_none_iff_exists'.1 hne
    exact hnew ((a6 _ _).1 ho').1
  have hxf : x.lmId.get? o.feat = none := by
    by_contra hne
    obtain ⟨l', hl'⟩ := Option.ne_none_iff_exists'.1 hne
    obtain ⟨hd, o', ho', hf⟩ := (a7 _ _).1 hl'
    have e1 := (hc.features s sh o.feat l' hs).2 ⟨o', ho', hf⟩
    have e2 := (hc.features s sh o.feat l hs).2 ⟨o, ho, rfl⟩
    rw [e1] at e2
    exact hnew (Option.some.inj e2 ▸ hd)
  have hxl' : x.lmObs.has l = false := (has_false_iff _ _).2 hxl
  have hxf' : x.lmId.has o.feat = false := (by unfold Dict.has; rw [hxf]; rfl)
  have hys : y.obs.get? s = none := by
    by_contra hne
    obtain ⟨o', ho'⟩ := Option.ne_none_iff_exists'.1 hne
    exact hnew ((b3 _ _).1 ho').1
  unfold addObservation
  simp only [hx, hy]
  refine ⟨_, rfl, ⟨h.cameras, h.bias, h.rigCameras, h.rigInstances, h.pano, h.reference, ?_, ?_, ?_, ?_⟩⟩
  · intro s'
    by_cases e : s = s'
    · subst e; simp [hs]
    · show ((m.shots.set s _).get? s').isSome ↔ _
      rw [Dict.get?_set_ne _ _ e]; exact h.shotIds s'
  · intro s' x' sh' hx' hs'
    change (m.shots.set s _).get? s' = _ at hx'
    by_cases e : s = s'
    · subst e
      rw [Dict.get?_set_self] at hx'
      rw [hs] at hs'
      obtain rfl := Option.some.inj hs'
      obtain rfl := Option.some.inj hx'
      refine ⟨a1, a2, a3, a4, a5, ?_, ?_⟩
      · intro l' o'
        show (x.lmObs.insertNew l o).get? l' = _ ↔ _
        rw [Dict.get?_insertNew]
        by_cases e : l = l'
        · subst e; simp [hxl, hxl', ho]
        · have e' : ¬ l' = l := fun q => e q.symm
          simp [e, e', a6]
      · intro f l'
        show (x.lmId.insertNew o.feat l).get? f = _ ↔ _
        rw [Dict.get?_insertNew]
        by_cases e : o.feat = f
        · subst e
          simp only [hxf, hxf', true_and, if_true]
          have e2 := (hc.features s sh o.feat l hs).2 ⟨o, ho, rfl⟩
          constructor
          · intro hh
            have : l = l' := by simpa using hh
            exact ⟨Or.inr this.symm, o, this ▸ ho, rfl⟩
          · rintro ⟨_, o', ho', hf⟩
            have e1 := (hc.features s sh o.feat l' hs).2 ⟨o', ho', hf⟩
            rw [e1] at e2
            simp [Option.some.inj e2]
        · simp only [e, false_and, if_false]
          rw [a7]
          constructor
          · rintro ⟨a, b⟩; exact ⟨Or.inl a, b⟩
          · rintro ⟨a | a, o', ho', hf⟩
            · exact ⟨a, o', ho', hf⟩
            · rw [a.2, ho] at ho'
              exact absurd (Option.some.inj ho' ▸ hf) e
    · rw [Dict.get?_set_ne _ _ e] at hx'
      obtain ⟨c1, c2, c3, c4, c5, c6, c7⟩ := h.shots s' x' sh' hx' hs'
      have e' : ¬ s' = s := fun q => e q.symm
      refine ⟨c1, c2, c3, c4, c5, ?_, ?_⟩
      · intro l' o'; rw [c6]; simp [e']
      · intro f l'; rw [c7]; simp [e']
  · intro l'
    by_cases e : l = l'
    · subst e; simp [hlm]
    · show ((m.landmarks.set l _).get? l').isSome ↔ _
      rw [Dict.get?_set_ne _ _ e]; exact h.lmIds l'
  · intro l' y' lm' hy' hlm'
    change (m.landmarks.set l _).get? l' = _ at hy'
    by_cases e : l = l'
    · subst e
      rw [Dict.get?_set_self] at hy'
      rw [hlm] at hlm'
      obtain rfl := Option.some.inj hlm'
      obtain rfl := Option.some.inj hy'
      refine ⟨b1, b2, ?_⟩
      intro s' f
      show (y.obs.insertNew s o.feat).get? s' = _ ↔ _
      rw [Dict.get?_insertNew]
      by_cases e : s = s'
      · subst e; simp [hys, (has_false_iff _ _).2 hys, hs, ho]
      · have e' : ¬ s' = s := fun q => e q.symm
        simp [e, e', b3]
    · rw [Dict.get?_set_ne _ _ e] at hy'
      obtain ⟨c1, c2, c3⟩ := h.lms l' y' lm' hy' hlm'
      have e' : ¬ l' = l := fun q => e q.symm
      refine ⟨c1, c2, ?_⟩
      intro s' f; rw [c3]; simp [e']

theorem notin_pre {V : Type} {L : Dict Id V} (hw : L.Wf) {pre post : List (Id × V)} {k : Id} {v : V}
    (hl : L = pre ++ (k, v) :: post) : ∀ e ∈ pre, e.1 ≠ k := by
  intro e he hk
  unfold Dict.Wf at hw
  rw [hl, keys_append] at hw
  exact (List.nodup_append.1 hw).2.2 e.1 (List.mem_map.2 ⟨e, he, rfl⟩) k (by simp) hk

theorem copyObservations_spec {df : Defaults B C D M R} {src base : FMap Id A X C K B P D M R}
    (hc : Consistent src) (h : ObsInv df src base (fun _ _ => False) base) :
    ∃ m', src.shots.foldlM copyShotObs base = some m' ∧ ObsInv df src base (fun _ _ => True) m' := by
  have outer : ∃ m', src.shots.foldlM copyShotObs base = some m' ∧ ObsInv df src base
      (fun s l => ∃ sh o, (s, sh) ∈ src.shots ∧ sh.lmObs.get? l = some o) m' := by
    refine foldlM_inv copyShotObs src.shots
      (fun pre m => ObsInv df src base
        (fun s l => ∃ sh o, (s, sh) ∈ pre ∧ sh.lmObs.get? l = some o) m) ?_ base
      (h.congr fun s l => by simp)
    rintro pre ⟨s, sh⟩ post b hl q
    have hs : src.shots.get? s = some sh := Dict.get?_of_mem hc.wfShots (by rw [hl]; simp)
    have hwo := hc.wfObs s sh hs
    have hpre := notin_pre hc.wfShots hl
    have inner : ∃ m', sh.lmObs.foldlM (copyObs s) b = some m' ∧ ObsInv df src base (fun a b =>
        (∃ sh o, (a, sh) ∈ pre ∧ sh.lmObs.get? b = some o) ∨ (a = s ∧ b ∈ Dict.keys sh.lmObs)) m' := by
      refine foldlM_inv (copyObs s) sh.lmObs
        (fun pre2 m => ObsInv df src base (fun a b =>
          (∃ sh o, (a, sh) ∈ pre ∧ sh.lmObs.get? b = some o) ∨ (a = s ∧ b ∈ Dict.keys pre2)) m) ?_ b
        (q.congr fun s l => by simp)
      rintro pre2 ⟨l, o⟩ post2 b2 hl2 q2
      have ho : sh.lmObs.get? l = some o := Dict.get?_of_mem hwo (by rw [hl2]; simp)
      have hpre2 := notin_pre hwo hl2
      obtain ⟨m', h1, h2⟩ := addObs_spec hc q2 hs ho (by
        rintro (⟨x, o, hx, _⟩ | ⟨_, hb⟩)
        · exact hpre _ hx rfl
        · obtain ⟨e, he, hk⟩ := List.mem_map.1 hb
          exact hpre2 e he hk)
      refine ⟨m', h1, h2.congr fun a b => ?_⟩
      rw [keys_append]
      simp only [Dict.keys, List.map_cons, List.map_nil, List.mem_append, List.mem_singleton]
      rw [or_assoc, ← and_or_left]
    obtain ⟨m', h1, h2⟩ := inner
    refine ⟨m', h1, h2.congr fun a b => ?_⟩
    constructor
    · rintro (⟨x, o, hx, ho⟩ | ⟨rfl, hb⟩)
      · exact ⟨x, o, by simp [hx], ho⟩
      · obtain ⟨o, ho⟩ := Option.isSome_iff_exists.1 ((Dict.mem_keys_iff _ _).1 hb)
        exact ⟨sh, o, by simp, ho⟩
    · rintro ⟨x, o, hx, ho⟩
      rcases List.mem_append.1 hx with hx | hx
      · exact Or.inl ⟨x, o, hx, ho⟩
      · simp only [List.mem_singleton, Prod.mk.injEq] at hx
        obtain ⟨rfl, rfl⟩ := hx
        exact Or.inr ⟨rfl, (Dict.mem_keys_iff _ _).2 (by simp [ho])⟩
  obtain ⟨m', h1, h2⟩ := outer
  refine ⟨m', h1, h2.cameras, h2.bias, h2.rigCameras, h2.rigInstances, h2.pano, h2.reference,
    h2.shotIds, ?_, h2.lmIds, ?_⟩
  · intro s x sh hx hs
    obtain ⟨c1, c2, c3, c4, c5, c6, c7⟩ := h2.shots s x sh hx hs
    refine ⟨c1, c2, c3, c4, c5, ?_, ?_⟩
    · intro l o; rw [c6]
      exact ⟨fun q => ⟨trivial, q.2⟩, fun q => ⟨⟨sh, o, Dict.mem_of_get? hs, q.2⟩, q.2⟩⟩
    · intro f l; rw [c7]
      refine ⟨fun q => ⟨trivial, q.2⟩, ?_⟩
      rintro ⟨_, o, ho, hf⟩
      exact ⟨⟨sh, o, Dict.mem_of_get? hs, ho⟩, o, ho, hf⟩
  · intro l y lm hy hl
    obtain ⟨c1, c2, c3⟩ := h2.lms l y lm hy hl
    refine ⟨c1, c2, ?_⟩
    intro s f; rw [c3]
    refine ⟨fun q => ⟨trivial, q.2⟩, ?_⟩
    rintro ⟨_, sh, o, hs, ho, hf⟩
    exact ⟨⟨sh, o, Dict.mem_of_get? hs, ho⟩, sh, o, hs, ho, hf⟩

theorem copyBiases_spec (L : Dict Id B) (m : FMap Id A X C K B P D M R)
    (h : ∀ e ∈ L, (m.bias.get? e.1).isSome) :
    ∃ t, L.foldlM copyBias m = some { m with bias := t } ∧
      (L.Wf → ∀ c, t.get? c = (L.get? c).or (m.bias.get? c)) := by
  induction L generalizing m with
  | nil => exact ⟨m.bias, rfl, fun _ c => by simp⟩
  | cons a L ih =>
    obtain ⟨k, v⟩ := a
    have hk : m.bias.has k = true := h (k, v) (by simp)
    have hstep : copyBias m (k, v) = some { m with bias := m.bias.set k v } := by
      unfold copyBias; simp [hk]
    obtain ⟨t, h1, h2⟩ := ih { m with bias := m.bias.set k v } (fun e he => by
      show ((m.bias.set k v).get? e.1).isSome
      rw [Dict.get?_set]
      split
      · rfl
      · exact h e (by simp [he]))
    refine ⟨t, by rw [List.foldlM_cons, hstep]; exact h1, fun hw c => ?_⟩
    have hw' : Dict.Wf L := (List.nodup_cons.1 hw).2
    have hkn : Dict.get? L k = none := (Dict.get?_eq_none_iff _ _).2 (List.nodup_cons.1 hw).1
    rw [h2 hw' c]
    show (Dict.get? L c).or ((m.bias.set k v).get? c) = _
    rw [Dict.get?_set]
    simp only [Dict.get?]
    by_cases e : k = c
    · subst e; simp [hkn]
    · simp [e]

/-- Instances with at least one shot or pano shot. -/
def Inhabited' (src : FMap Id A X C K B P D M R) (i : Id) : Prop :=
  (∃ e ∈ src.shots, e.2.inst = i) ∨ ∃ e ∈ src.pano, e.2.inst = i

/-- Everything about the copy. -/
theorem deepCopy_spec [Group P] {df : Defaults B C D M R} {src : FMap Id A X C K B P D M R}
    (hc : Consistent src) (hu : Unmixed src) (obs : Bool) :
    ∃ c base, deepCopy df src obs = some c ∧ Inv df src (Inhabited' src) { base with landmarks := [] } ∧
      (∀ k, c.bias.get? k = src.bias.get? k) ∧
      ObsInv df src base (fun _ _ => obs = true) { c with bias := base.bias } := by
  unfold deepCopy
  obtain ⟨a1, a2, a3, a4, a5, a6, a7, a8⟩ := createCameras_spec df src.cameras
    ({ empty df with reference := src.reference } : FMap Id A X C K B P D M R) (fun c => rfl)
  obtain ⟨m1, hm1⟩ : ∃ m1, m1 = src.cameras.foldl (fun m e => createCamera df m e.1 e.2)
    ({ empty df with reference := src.reference } : FMap Id A X C K B P D M R) := ⟨_, rfl⟩
  simp only [← hm1] at a1 a2 a3 a4 a5 a6 a7 a8 ⊢
  have hcam : ∀ c, m1.cameras.get? c = src.cameras.get? c := fun c => by rw [a1]; rfl
  have i1 : Inv df src (fun _ => False) m1 := by
    refine ⟨⟨hcam, fun c => by rw [a2, hcam], a7, a8⟩, ?_, ?_, ?_⟩
    · intro rc p; rw [a3]; simp [empty, UsedBy]
    · intro i x; rw [a4]; simp [empty]
    · intro b s x
      have : table m1 b = [] := by
        cases b
        · exact a5
        · exact a6
      rw [this]; simp
  obtain ⟨m2, h2, i2⟩ := copyShots_spec hc hu false i1
  obtain ⟨m3, h3, i3⟩ := copyShots_spec hc hu true i2
  have h2' : src.shots.foldlM (copyShot df src false) m1 = some m2 := h2
  have h3' : src.pano.foldlM (copyShot df src true) m2 = some m3 := h3
  have i4 : Inv df src (Inhabited' src) m3 := i3.congr fun i => by
    unfold Inhabited'
    simp only [false_or]
    exact Iff.rfl
  rw [h2', Option.bind_some, h3', Option.bind_some,
    copyLandmarks_spec df src.landmarks hc.wfLandmarks m3 i4.frame.landmarks, Option.bind_some]
  obtain ⟨lms, hlms⟩ : ∃ lms, lms = Dict.mapVals (fun _ v => (⟨v.pos, df.color, []⟩ : FLm Id X C))
    src.landmarks := ⟨_, rfl⟩
  rw [← hlms]
  obtain ⟨m4, hm4⟩ : ∃ m4, m4 = ({ m3 with landmarks := lms } : FMap Id A X C K B P D M R) :=
    ⟨_, rfl⟩
  rw [← hm4]
  have hl4 : ({ m4 with landmarks := [] } : FMap Id A X C K B P D M R) = m3 := by
    have := i4.frame.landmarks
    subst hm4; cases m3; simp_all
  have hin : ∀ b s sh, (table src b).get? s = some sh → Inhabited' src sh.inst := by
    intro b s sh h
    cases b
    · exact Or.inl ⟨_, Dict.mem_of_get? h, rfl⟩
    · exact Or.inr ⟨_, Dict.mem_of_get? h, rfl⟩
  have hshots : ∀ s x, m4.shots.get? s = some x ↔ ∃ sh, src.shots.get? s = some sh ∧ x = strip df sh := by
    intro s x
    have := i4.tables false s x
    rw [hm4]
    constructor
    · intro h
      obtain ⟨sh, b1, _, b2⟩ := this.1 h
      exact ⟨sh, b1, b2⟩
    · rintro ⟨sh, b1, b2⟩
      exact this.2 ⟨sh, b1, hin false s sh b1, b2⟩
  have o0 : ObsInv df src m4 (fun _ _ => False) m4 := by
    refine ⟨rfl, rfl, rfl, rfl, rfl, rfl, ?_, ?_, ?_, ?_⟩
    · intro s
      simp only [Option.isSome_iff_exists, hshots]
      constructor
      · rintro ⟨x, sh, h, _⟩; exact ⟨sh, h⟩
      · rintro ⟨sh, h⟩; exact ⟨_, sh, h, rfl⟩
    · intro s x sh hx hs
      obtain ⟨sh', h1, rfl⟩ := (hshots s x).1 hx
      rw [hs] at h1
      obtain rfl := Option.some.inj h1
      exact ⟨rfl, rfl, rfl, rfl, rfl, fun l o => by simp [strip], fun f l => by simp [strip]⟩
    · intro l
      rw [hm4]
      show (lms.get? l).isSome ↔ _
      rw [hlms, Dict.get?_mapVals]; simp
    · intro l y lm hy hl
      rw [hm4] at hy
      change lms.get? l = some y at hy
      rw [hlms, Dict.get?_mapVals, hl] at hy
      simp only [Option.map_some, Option.some.injEq] at hy
      subst hy
      exact ⟨rfl, rfl, fun s f => by simp⟩
  have o1 : ∃ m5, (if obs then src.shots.foldlM copyShotObs m4 else some m4) = some m5 ∧
      ObsInv df src m4 (fun _ _ => obs = true) m5 := by
    cases obs
    · exact ⟨m4, rfl, o0.congr fun _ _ => by simp⟩
    · obtain ⟨m5, e1, e2⟩ := copyObservations_spec hc o0
      exact ⟨m5, by simpa using e1, e2.congr fun _ _ => by simp⟩
  obtain ⟨m5, h5, o5⟩ := o1
  rw [h5, Option.bind_some]
  have hb5 : ∀ k, m5.bias.get? k = (src.cameras.get? k).map fun _ => df.bias := by
    intro k; rw [o5.bias, hm4]; exact i4.frame.bias k
  obtain ⟨t, h6, h7⟩ := copyBiases_spec src.bias m5 (fun e he => by
    rw [hb5, Option.isSome_map]
    exact (hc.biases e.1).1 (Dict.get?_isSome_of_mem (v := e.2) he))
  refine ⟨_, m4, h6, hl4 ▸ i4, ?_, ?_⟩
  · intro k
    show t.get? k = _
    rw [h7 hc.wfBias, hb5]
    have := hc.biases k
    cases h : src.bias.get? k with
    | some v => simp
    | none =>
      have hn : src.cameras.get? k = none := by
        cases h' : src.cameras.get? k with
        | none => rfl
        | some v => rw [h, h'] at this; simp at this
      simp [hn]
  · have : ({ ({ m5 with bias := t } : FMap Id A X C K B P D M R) with bias := m4.bias } :
        FMap Id A X C K B P D M R) = m5 := by
      rw [← o5.bias]
    show ObsInv df src m4 _ ({ ({ m5 with bias := t } : FMap Id A X C K B P D M R) with bias := m4.bias })
    rw [this]; exact o5

/-! ### A shot of another map -/

/-- What has been added to `dst` when the members in `got` have been copied. -/
structure AddMid (df : Defaults B C D M R) (att : Id → FShot Id A D M → D) (src dst : FMap Id A X C K B P D M R) (i : Id) (pose : P)
    (inst : FInst Id P) (got : Id → Prop) (m : FMap Id A X C K B P D M R) : Prop where
  cams : ∀ c, (dst.cameras.get? c).isSome → m.cameras.get? c = dst.cameras.get? c
  newCams : ∀ c, dst.cameras.get? c = none → m.cameras.get? c = none ∨
    m.cameras.get? c = src.cameras.get? c
  rcs : ∀ rc p, m.rigCameras.get? rc = some p ↔ dst.rigCameras.get? rc = some p ∨
    (src.rigCameras.get? rc = some p ∧ ∃ s e, got s ∧ inst.members.get? s = some e ∧ e.rigCamera = rc)
  insts : ∀ j, j ≠ i → m.rigInstances.get? j = dst.rigInstances.get? j
  here : ∃ x, m.rigInstances.get? i = some x ∧ x.pose = pose ∧ x.members.Wf ∧
    ∀ s e, x.members.get? s = some e ↔ got s ∧ inst.members.get? s = some e
  shots : ∀ s x, m.shots.get? s = some x ↔ dst.shots.get? s = some x ∨
    ∃ sh, got s ∧ (inst.members.get? s).isSome ∧ src.shots.get? s = some sh ∧
      x = { strip df sh with attrs := att s sh }
  camOf : ∀ s sh, got s → src.shots.get? s = some sh → (m.cameras.get? sh.camera).isSome
  pano : m.pano = dst.pano
  landmarks : m.landmarks = dst.landmarks
  reference : m.reference = dst.reference

theorem AddMid.congr {df : Defaults B C D M R} {src dst m : FMap Id A X C K B P D M R}
    {att : Id → FShot Id A D M → D} {i : Id} {pose : P} {inst : FInst Id P}
    {g g' : Id → Prop} (h : AddMid df att src dst i pose inst g m) (e : ∀ s, g s ↔ g' s) :
    AddMid df att src dst i pose inst g' m := by
  have : g = g' := funext fun i => propext (e i)
  exact this ▸ h

theorem needCamera_cams (df : Defaults B C D M R) (m : FMap Id A X C K B P D M R) (c : Id) (k : K)
    (c' : Id) : (needCamera df m c k).cameras.get? c' =
      if c = c' then some ((m.cameras.get? c).getD k) else m.cameras.get? c' := by
  unfold needCamera createCamera
  by_cases h : m.cameras.has c = true
  · rw [if_pos h]
    obtain ⟨v, hv⟩ := (has_iff _ _).1 h
    by_cases e : c = c'
    · subst e; simp [hv]
    · simp [e]
  · rw [if_neg h]
    have hn : m.cameras.get? c = none := by simpa [Dict.has] using h
    show (m.cameras.insertNew c k).get? c' = _
    rw [Dict.get?_insertNew, if_neg h]
    by_cases e : c = c'
    · subst e; simp [hn]
    · simp [e]

theorem needCamera_rest (df : Defaults B C D M R) (m : FMap Id A X C K B P D M R) (c : Id) (k : K) :
    (needCamera df m c k).rigCameras = m.rigCameras ∧
    (needCamera df m c k).rigInstances = m.rigInstances ∧
    (needCamera df m c k).shots = m.shots ∧ (needCamera df m c k).pano = m.pano ∧
    (needCamera df m c k).landmarks = m.landmarks ∧
    (needCamera df m c k).reference = m.reference := by
  unfold needCamera createCamera
  split <;> exact ⟨rfl, rfl, rfl, rfl, rfl, rfl⟩

/-- One new member. -/
theorem addMember_spec [Group P] {df : Defaults B C D M R} {src dst m : FMap Id A X C K B P D M R}
    (hc : Consistent src) {att : Id → FShot Id A D M → D} {i : Id} {inst : FInst Id P} (hi : src.rigInstances.get? i = some inst)
    (hrig : ∀ s e p q, inst.members.get? s = some e → dst.rigCameras.get? e.rigCamera = some p →
      src.rigCameras.get? e.rigCamera = some q → p = q)
    (hfree : ∀ s, (inst.members.get? s).isSome → dst.shots.get? s = none)
    (hp : ∀ s e, inst.members.get? s = some e → e.pano = false)
    {got : Id → Prop} (h : AddMid df att src dst i inst.pose inst got m) {s : Id} {e : Member Id}
    (hmem : inst.members.get? s = some e) (hnew : ¬ got s) (hat : ∀ sh, att s sh = sh.attrs) :
    ∃ m', copyMember df src false i m (s, e) = some m' ∧
      AddMid df att src dst i inst.pose inst (fun t => got t ∨ t = s) m' := by
  have he := hp s e hmem
  obtain ⟨sh, hsh, shi, shr⟩ := hc.member i inst s e hi hmem
  obtain ⟨k, hk⟩ := Option.isSome_iff_exists.1 (hc.camera _ _ _ hsh)
  obtain ⟨rp, hrp⟩ := Option.isSome_iff_exists.1 (hc.rigCamera _ _ _ hsh)
  have hpose : poseOf src sh = some (rp * inst.pose) := by
    unfold poseOf; rw [shi, hi, hrp]
  have hsh' : src.shots.get? s = some sh := by rw [he] at hsh; exact hsh
  unfold copyMember
  simp only [hsh, hk, hrp, hpose]
  obtain ⟨mc, hmc⟩ : ∃ mc, mc = needCamera df m sh.camera k := ⟨_, rfl⟩
  obtain ⟨n1, n2, n3, n4, n5, n6⟩ := needCamera_rest df m sh.camera k
  have ncam := needCamera_cams df m sh.camera k
  rw [← hmc] at n1 n2 n3 n4 n5 n6 ncam ⊢
  obtain ⟨t, ht, htg⟩ := needRigCamera_spec mc sh.rigCamera rp
    (fun q hq => by
      rw [n1] at hq
      rcases (h.rcs _ _).1 hq with hq | hq
      · exact hrig s e q rp hmem (shr ▸ hq) (shr ▸ hrp)
      · rw [hrp] at hq; exact (Option.some.inj hq.1).symm)
  rw [ht, Option.bind_some]
  obtain ⟨x0, hx0, hxp, hxw, hxm⟩ := h.here
  obtain ⟨m', h1, c1, c2, c3, c4, c5, c6, c7⟩ :=
    needShot_spec df { mc with rigCameras := t } false s i sh (rp * inst.pose) x0 rp
      (by
        show mc.shots.get? s = none
        rw [n3]
        by_contra hne
        obtain ⟨x, hx⟩ := Option.ne_none_iff_exists'.1 hne
        rcases (h.shots _ _).1 hx with hx | ⟨_, hg, _⟩
        · rw [hfree s (by simp [hmem])] at hx; simp at hx
        · exact hnew hg)
      (by show (mc.cameras.get? sh.camera).isSome; rw [ncam]; simp)
      (by show mc.rigInstances.get? i = _; rw [n2]; exact hx0)
      (by show t.get? sh.rigCamera = _; rw [htg]; simp)
      (by
        rintro ⟨s', e'⟩ hm hr
        obtain ⟨g, hm'⟩ := (hxm s' e').1 (Dict.get?_of_mem hxw hm)
        have := hc.once i inst s' e' s e hi hm' hmem (by rw [hr, shr])
        exact hnew (this ▸ g))
      shi
  have c7' : ∀ s', m'.shots.get? s' = if s' = s then some (strip df sh) else m.shots.get? s' := by
    intro s'
    have := c7 false s'
    simp only [true_and] at this
    rw [← n3]; exact this
  have hstrip : ({ strip df sh with attrs := att s sh } : FShot Id A D M) = strip df sh := by
    rw [hat]; rfl
  refine ⟨m', h1, ⟨?_, ?_, ?_, ?_, ?_, ?_, ?_, ?_, ?_, ?_⟩⟩
  · intro c hcc
    rw [c1]
    show mc.cameras.get? c = _
    rw [ncam]
    have := h.cams c hcc
    split
    · rename_i hq
      subst hq
      obtain ⟨v, hv⟩ := Option.isSome_iff_exists.1 hcc
      rw [this, hv]; rfl
    · exact this
  · intro c hcc
    rw [c1]
    show mc.cameras.get? c = _ ∨ mc.cameras.get? c = _
    rw [ncam]
    split
    · rename_i hq
      subst hq
      right
      rcases h.newCams _ hcc with hh | hh
      · rw [hh, hk]; rfl
      · rw [hh, hk]; rfl
    · exact h.newCams c hcc
  · intro rc p
    rw [c5]
    show t.get? rc = some p ↔ _
    rw [htg, n1]
    by_cases hr : rc = sh.rigCamera
    · rw [if_pos hr, hr]
      constructor
      · intro hh
        exact Or.inr ⟨hrp.trans hh, s, e, Or.inr rfl, hmem, shr.symm⟩
      · rintro (hh | hh)
        · rw [hrig s e p rp hmem (shr ▸ hh) (shr ▸ hrp)]
        · exact hrp.symm.trans hh.1
    · rw [if_neg hr, h.rcs]
      refine or_congr_right (and_congr_right fun _ => ?_)
      constructor
      · rintro ⟨s', e', g, hh⟩; exact ⟨s', e', Or.inl g, hh⟩
      · rintro ⟨s', e', g | g, hm', hh⟩
        · exact ⟨s', e', g, hm', hh⟩
        · rw [g, hmem] at hm'
          exact absurd (by rw [← hh, ← Option.some.inj hm', shr]) hr
  · intro j hj
    rw [c6, Dict.get?_set_ne _ _ (Ne.symm hj)]
    show mc.rigInstances.get? j = _
    rw [n2]; exact h.insts j hj
  · refine ⟨⟨inst.pose, x0.members.set s ⟨false, sh.rigCamera⟩⟩, ?_, rfl, Dict.wf_set hxw _ _, ?_⟩
    · rw [c6, Dict.get?_set_self, inv_mul_cancel_left]
    · intro s' e'
      show (x0.members.set s ⟨false, sh.rigCamera⟩).get? s' = _ ↔ _
      rw [Dict.get?_set]
      have hee : e = ⟨false, sh.rigCamera⟩ := by
        rcases e with ⟨p, r⟩
        simp only at he shr
        rw [he, shr]
      by_cases q : s = s'
      · subst q
        rw [if_pos rfl, hmem, hee]; simp
      · rw [if_neg q, hxm]
        have q' : ¬ s' = s := fun z => q z.symm
        simp [q']
  · intro s' x
    rw [c7']
    by_cases q : s' = s
    · subst q
      rw [if_pos rfl]
      constructor
      · intro hh; exact Or.inr ⟨sh, Or.inr rfl, by simp [hmem], hsh', (Option.some.inj hh).symm.trans hstrip.symm⟩
      · rintro (hh | ⟨sh', _, _, h3, rfl⟩)
        · rw [hfree s' (by simp [hmem])] at hh; simp at hh
        · rw [hsh'] at h3; rw [← Option.some.inj h3, hstrip]
    · rw [if_neg q, h.shots]
      simp [q]
  · intro s' sh' g hs'
    rw [c1]
    show (mc.cameras.get? sh'.camera).isSome
    rw [ncam]
    split
    · rfl
    · rename_i hq
      rcases g with g | g
      · exact h.camOf s' sh' g hs'
      · rw [g, hsh'] at hs'
        exact absurd (by rw [Option.some.inj hs']) hq
  · have := c7 true
    have e1 : m'.pano = mc.pano := by
      unfold needShot at h1
      rw [if_neg] at h1
      · obtain ⟨z, hz1, hz2⟩ := Option.bind_eq_some_iff.1 h1
        unfold createShot at hz1
        unfold assignShot at hz2
        split at hz1
        · simp at hz1
        · split at hz1
          · split at hz1
            · simp at hz1
            · simp only [Option.some.injEq] at hz1
              split at hz2
              · simp at hz2
              · simp only [Option.some.injEq] at hz2
                rw [← hz2, ← hz1]; rfl
          · simp at hz1
      · show ¬ mc.shots.has s = true
        intro hh
        obtain ⟨x, hx⟩ := (has_iff _ _).1 hh
        rw [n3] at hx
        rcases (h.shots _ _).1 hx with hx | ⟨_, hg, _⟩
        · rw [hfree s (by simp [hmem])] at hx; simp at hx
        · exact hnew hg
    rw [e1, n4]; exact h.pano
  · rw [c3]; show mc.landmarks = _; rw [n5]; exact h.landmarks
  · rw [c4]; show mc.reference = _; rw [n6]; exact h.reference

/-- A member that is there already. -/
theorem oldMember_spec [Group P] {df : Defaults B C D M R} {src dst m : FMap Id A X C K B P D M R}
    (hc : Consistent src) {att : Id → FShot Id A D M → D} {i : Id} {inst : FInst Id P} (hi : src.rigInstances.get? i = some inst)
    (hp : ∀ s e, inst.members.get? s = some e → e.pano = false)
    {got : Id → Prop} (h : AddMid df att src dst i inst.pose inst got m) {s : Id} {e : Member Id}
    (hmem : inst.members.get? s = some e) (hold : got s) :
    copyMember df src false i m (s, e) = some m := by
  have he := hp s e hmem
  obtain ⟨sh, hsh, shi, shr⟩ := hc.member i inst s e hi hmem
  obtain ⟨k, hk⟩ := Option.isSome_iff_exists.1 (hc.camera _ _ _ hsh)
  obtain ⟨rp, hrp⟩ := Option.isSome_iff_exists.1 (hc.rigCamera _ _ _ hsh)
  have hpose : poseOf src sh = some (rp * inst.pose) := by
    unfold poseOf; rw [shi, hi, hrp]
  have hsh' : src.shots.get? s = some sh := by rw [he] at hsh; exact hsh
  unfold copyMember
  simp only [hsh, hk, hrp, hpose]
  have hcam' : needCamera df m sh.camera k = m := by
    unfold needCamera
    rw [if_pos]
    exact h.camOf s sh hold hsh'
  rw [hcam']
  have hrc : m.rigCameras.has sh.rigCamera = true :=
    (has_iff _ _).2 ⟨rp, (h.rcs _ _).2 (Or.inr ⟨hrp, s, e, hold, hmem, shr.symm⟩)⟩
  have hst : m.shots.has s = true :=
    (has_iff _ _).2 ⟨_, (h.shots _ _).2 (Or.inr ⟨sh, hold, by simp [hmem], hsh', rfl⟩)⟩
  unfold needRigCamera needShot
  simp only [hrc, if_true, Option.bind_some]
  show (if m.shots.has s = true then _ else _) = _
  rw [if_pos hst]


/-- `createShot` alone. -/
theorem createShot_spec [Group P] (df : Defaults B C D M R) (m : FMap Id A X C K B P D M R)
    (s cam rc i : Id) (pose : P) (inst : FInst Id P) (rp : P)
    (h1 : m.shots.get? s = none) (h2 : (m.cameras.get? cam).isSome)
    (h3 : m.rigInstances.get? i = some inst) (h4 : m.rigCameras.get? rc = some rp)
    (h5 : inst.members = []) :
    createShot df m false s cam rc i pose = some { m with
      rigInstances := m.rigInstances.set i ⟨rp⁻¹ * pose, [(s, ⟨false, rc⟩)]⟩
      shots := m.shots.set s ⟨cam, i, rc, df.attrs, df.mesh, [], []⟩ } := by
  obtain ⟨k, hk⟩ := Option.isSome_iff_exists.1 h2
  unfold createShot
  have : (table m false).has s = false := (has_false_iff _ _).2 h1
  simp only [this, Bool.false_eq_true, if_false, hk, h3, h4, h5, List.any_nil]
  rfl

/-- Adding a shot of another map brings the whole rig instance. -/
theorem addShot_spec [Group P] {df : Defaults B C D M R} {src dst : FMap Id A X C K B P D M R}
    (hc : Consistent src) {s : Id} {sh : FShot Id A D M} {inst : FInst Id P}
    (hs : src.shots.get? s = some sh) (hi : src.rigInstances.get? sh.inst = some inst)
    (hp : ∀ t e, inst.members.get? t = some e → e.pano = false)
    (hrig : ∀ t e p q, inst.members.get? t = some e → dst.rigCameras.get? e.rigCamera = some p →
      src.rigCameras.get? e.rigCamera = some q → p = q)
    (hfree : ∀ t, (inst.members.get? t).isSome → dst.shots.get? t = none)
    (hno : dst.rigInstances.get? sh.inst = none) :
    ∃ m', addShot df src dst s sh = some m' ∧
      AddMid df (fun _ x => x.attrs) src dst sh.inst inst.pose inst
        (fun t => (inst.members.get? t).isSome) m' := by
  obtain ⟨x0, hx0, hmem⟩ := hc.inst false s sh hs
  rw [hi] at hx0
  obtain rfl := Option.some.inj hx0
  obtain ⟨k, hk⟩ := Option.isSome_iff_exists.1 (hc.camera false s sh hs)
  obtain ⟨rp, hrp⟩ := Option.isSome_iff_exists.1 (hc.rigCamera false s sh hs)
  have hpose : poseOf src sh = some (rp * inst.pose) := by
    unfold poseOf; rw [hi, hrp]
  unfold addShot
  simp only [hk, hrp, hpose]
  obtain ⟨mc, hmc⟩ : ∃ mc, mc = needCamera df dst sh.camera k := ⟨_, rfl⟩
  obtain ⟨n1, n2, n3, n4, n5, n6⟩ := needCamera_rest df dst sh.camera k
  have ncam := needCamera_cams df dst sh.camera k
  rw [← hmc] at n1 n2 n3 n4 n5 n6 ncam ⊢
  have hni : needInstance mc sh.inst =
      some { mc with rigInstances := mc.rigInstances.set sh.inst ⟨1, []⟩ } := by
    unfold needInstance createInstance
    have : mc.rigInstances.has sh.inst = false := (has_false_iff _ _).2 (by rw [n2]; exact hno)
    simp [this]
  rw [hni, Option.bind_some]
  obtain ⟨t, ht, htg⟩ := needRigCamera_spec
    ({ mc with rigInstances := mc.rigInstances.set sh.inst ⟨1, []⟩ } : FMap Id A X C K B P D M R)
    sh.rigCamera rp (fun q hq => by
      change mc.rigCameras.get? _ = _ at hq
      rw [n1] at hq
      exact hrig s ⟨false, sh.rigCamera⟩ q rp hmem hq hrp)
  rw [ht, Option.bind_some]
  have hfs : dst.shots.get? s = none := hfree s (by simp [hmem])
  have hfs' : mc.shots.has s = false := (has_false_iff _ _).2 (by rw [n3]; exact hfs)
  simp only [hfs', Bool.false_eq_true, if_false]
  rw [createShot_spec df _ s sh.camera sh.rigCamera sh.inst (rp * inst.pose) ⟨1, []⟩ rp
    (by show mc.shots.get? s = none; rw [n3]; exact hfs)
    (by show (mc.cameras.get? sh.camera).isSome; rw [ncam]; simp)
    (by show (mc.rigInstances.set sh.inst ⟨1, []⟩).get? sh.inst = _; exact Dict.get?_set_self _ _ _)
    (by show t.get? sh.rigCamera = _; rw [htg]; simp) rfl, Option.bind_some, inv_mul_cancel_left]
  obtain ⟨m3, hm3⟩ : ∃ m3, m3 = ({ mc with
      rigCameras := t
      rigInstances := (mc.rigInstances.set sh.inst ⟨1, []⟩).set sh.inst
        ⟨inst.pose, [(s, ⟨false, sh.rigCamera⟩)]⟩
      shots := mc.shots.set s ⟨sh.camera, sh.inst, sh.rigCamera, df.attrs, df.mesh, [], []⟩ } :
      FMap Id A X C K B P D M R) := ⟨_, rfl⟩
  rw [← hm3]
  obtain ⟨att, hatt⟩ : ∃ att : Id → FShot Id A D M → D,
    att = fun t x => if t = s then df.attrs else x.attrs := ⟨_, rfl⟩
  have a0 : AddMid df att src dst sh.inst inst.pose inst (fun t => t = s) m3 := by
    rw [hm3]
    refine ⟨?_, ?_, ?_, ?_, ?_, ?_, ?_, ?_, ?_, ?_⟩
    · intro c hcc
      show mc.cameras.get? c = _
      rw [ncam]
      split
      · rename_i hq
        subst hq
        obtain ⟨v, hv⟩ := Option.isSome_iff_exists.1 hcc
        rw [hv]; rfl
      · rfl
    · intro c hcc
      show mc.cameras.get? c = _ ∨ mc.cameras.get? c = _
      rw [ncam]
      split
      · rename_i hq
        subst hq
        right; rw [hcc, hk]; rfl
      · exact Or.inl hcc
    · intro rc p
      show t.get? rc = some p ↔ _
      rw [htg]
      show (if rc = sh.rigCamera then some rp else mc.rigCameras.get? rc) = some p ↔ _
      rw [n1]
      by_cases hr : rc = sh.rigCamera
      · rw [if_pos hr, hr]
        constructor
        · intro hh
          exact Or.inr ⟨hrp.trans hh, s, _, rfl, hmem, rfl⟩
        · rintro (hh | hh)
          · rw [hrig s ⟨false, sh.rigCamera⟩ p rp hmem hh hrp]
          · exact hrp.symm.trans hh.1
      · rw [if_neg hr]
        constructor
        · exact Or.inl
        · rintro (hh | ⟨_, s', e', rfl, hm', hh⟩)
          · exact hh
          · rw [hmem] at hm'
            exact absurd (by rw [← hh, ← Option.some.inj hm']) hr
    · intro j hj
      show ((mc.rigInstances.set sh.inst ⟨1, []⟩).set sh.inst _).get? j = _
      rw [Dict.get?_set_ne _ _ (Ne.symm hj), Dict.get?_set_ne _ _ (Ne.symm hj), n2]
    · refine ⟨_, Dict.get?_set_self _ _ _, rfl, by simp [Dict.Wf, Dict.keys], ?_⟩
      intro s' e'
      show Dict.get? [(s, (⟨false, sh.rigCamera⟩ : Member Id))] s' = some e' ↔ _
      by_cases q : s = s'
      · subst q; simp [Dict.get?, hmem]
      · have q' : ¬ s' = s := fun z => q z.symm
        simp [Dict.get?, q, q']
    · intro s' x
      show (mc.shots.set s _).get? s' = some x ↔ _
      rw [Dict.get?_set, n3]
      by_cases q : s = s'
      · subst q
        rw [if_pos rfl, hfs, hs, hatt]
        constructor
        · intro hh
          exact Or.inr ⟨sh, rfl, by simp [hmem], rfl, by
            rw [← Option.some.inj hh]; simp [strip]⟩
        · rintro (hh | ⟨sh', _, _, h3, rfl⟩)
          · simp at hh
          · rw [← Option.some.inj h3]; simp [strip]
      · have q' : ¬ s' = s := fun z => q z.symm
        rw [if_neg q]
        simp [q']
    · rintro s' sh' rfl hs'
      rw [hs] at hs'
      show (mc.cameras.get? sh'.camera).isSome
      rw [ncam, ← Option.some.inj hs']; simp
    · exact n4
    · exact n5
    · exact n6
  have loop : ∃ m4, inst.members.foldlM (copyMember df src false sh.inst) m3 = some m4 ∧
      AddMid df att src dst sh.inst inst.pose inst (fun t => t = s ∨ t ∈ Dict.keys inst.members) m4 := by
    refine foldlM_inv (copyMember df src false sh.inst) inst.members
      (fun pre m => AddMid df att src dst sh.inst inst.pose inst
        (fun t => t = s ∨ t ∈ Dict.keys pre) m) ?_ m3 (a0.congr fun t => by simp)
    rintro pre ⟨u, e⟩ post b hl q
    have hu : inst.members.get? u = some e :=
      Dict.get?_of_mem (hc.wfMembers _ _ hi) (by rw [hl]; simp)
    by_cases hus : u = s
    · refine ⟨b, oldMember_spec hc hi hp q hu (Or.inl hus), q.congr fun z => ?_⟩
      rw [keys_append]
      simp only [Dict.keys, List.map_cons, List.map_nil, List.mem_append, List.mem_singleton]
      constructor
      · rintro (a | a)
        · exact Or.inl a
        · exact Or.inr (Or.inl a)
      · rintro (a | a | a)
        · exact Or.inl a
        · exact Or.inr a
        · exact Or.inl (a.trans hus)
    · have hpre := notin_pre (hc.wfMembers _ _ hi) hl
      obtain ⟨m', e1, e2⟩ := addMember_spec hc hi hrig hfree hp q hu (by
          rintro (a | a)
          · exact hus a
          · obtain ⟨y, hy, hk⟩ := List.mem_map.1 a
            exact hpre y hy hk)
        (fun x => by rw [hatt]; simp [hus])
      refine ⟨m', e1, e2.congr fun z => ?_⟩
      rw [keys_append]
      simp only [Dict.keys, List.map_cons, List.map_nil, List.mem_append, List.mem_singleton]
      rw [or_assoc]
  obtain ⟨m4, h4, q4⟩ := loop
  have hins : needInstance m3 sh.inst = some m3 := by
    obtain ⟨x, hx, _⟩ := a0.here
    unfold needInstance
    rw [if_pos ((has_iff _ _).2 ⟨x, hx⟩)]
  obtain ⟨x4, hx4, hxp, hxw, hxm⟩ := q4.here
  have hms : x4.members.get? s = some ⟨false, sh.rigCamera⟩ := (hxm _ _).2 ⟨Or.inl rfl, hmem⟩
  have hrp4 : m4.rigCameras.get? sh.rigCamera = some rp :=
    (q4.rcs _ _).2 (Or.inr ⟨hrp, s, _, Or.inl rfl, hmem, rfl⟩)
  have hup : updateShotWithRig df src m3 false s sh =
      some { m4 with rigInstances := m4.rigInstances.set sh.inst { x4 with pose := inst.pose } } := by
    unfold updateShotWithRig
    simp only [hi, hpose]
    rw [hins, Option.bind_some, h4, Option.bind_some]
    unfold updateInstancePose
    simp only [hx4, hms, hrp4, inv_mul_cancel_left]
  rw [hup, Option.bind_some]
  have hms4 : m4.shots.get? s = some { strip df sh with attrs := df.attrs } :=
    (q4.shots _ _).2 (Or.inr ⟨sh, Or.inl rfl, by simp [hmem], hs, by rw [hatt]; simp⟩)
  obtain ⟨insts, hinsts⟩ : ∃ insts, insts =
    m4.rigInstances.set sh.inst { x4 with pose := inst.pose } := ⟨_, rfl⟩
  rw [← hinsts]
  have has : assignShot ({ m4 with rigInstances := insts } : FMap Id A X C K B P D M R) false s sh.attrs
      = some { m4 with rigInstances := insts, shots := m4.shots.set s (strip df sh) } := by
    unfold assignShot
    have : (table ({ m4 with rigInstances := insts } : FMap Id A X C K B P D M R) false).get? s =
      some { strip df sh with attrs := df.attrs } := hms4
    rw [this]
    rfl
  rw [has]
  refine ⟨_, rfl, ⟨q4.cams, q4.newCams, ?_, ?_, ?_, ?_, ?_, q4.pano, q4.landmarks, q4.reference⟩⟩
  · intro rc p
    show m4.rigCameras.get? rc = some p ↔ _
    rw [q4.rcs]
    refine or_congr_right (and_congr_right fun _ => ?_)
    constructor
    · rintro ⟨a, b, _, c⟩; exact ⟨a, b, by simp [c.1], c⟩
    · rintro ⟨a, b, _, c1, c2⟩
      exact ⟨a, b, Or.inr ((Dict.mem_keys_iff _ _).2 (by simp [c1])), c1, c2⟩
  · intro j hj
    show insts.get? j = _
    rw [hinsts, Dict.get?_set_ne _ _ (Ne.symm hj)]
    exact q4.insts j hj
  · refine ⟨{ x4 with pose := inst.pose }, ?_, rfl, hxw, ?_⟩
    · show insts.get? sh.inst = _
      rw [hinsts, Dict.get?_set_self]
    · intro s' e'
      show x4.members.get? s' = some e' ↔ _
      rw [hxm]
      constructor
      · exact fun h => ⟨by simp [h.2], h.2⟩
      · exact fun h => ⟨Or.inr ((Dict.mem_keys_iff _ _).2 (by simp [h.2])), h.2⟩
  · intro s' x
    show (m4.shots.set s (strip df sh)).get? s' = some x ↔ _
    rw [Dict.get?_set]
    by_cases q : s = s'
    · subst q
      rw [if_pos rfl, hfs, hs]
      constructor
      · intro hh
        exact Or.inr ⟨sh, by simp [hmem], by simp [hmem], rfl, (Option.some.inj hh).symm⟩
      · rintro (hh | ⟨sh', _, _, h3, rfl⟩)
        · simp at hh
        · rw [← Option.some.inj h3]; rfl
    · have q' : ¬ s' = s := fun z => q z.symm
      rw [if_neg q, q4.shots]
      refine or_congr_right ?_
      constructor
      · rintro ⟨sh', _, h2, h3, rfl⟩
        exact ⟨sh', h2, h2, h3, by rw [hatt]; simp [q']⟩
      · rintro ⟨sh', _, h2, h3, rfl⟩
        exact ⟨sh', Or.inr ((Dict.mem_keys_iff _ _).2 h2), h2, h3, by rw [hatt]; simp [q']⟩
  · intro s' sh' hin hs'
    exact q4.camOf s' sh' (Or.inr ((Dict.mem_keys_iff _ _).2 hin)) hs'

end Verif.MapCopy
