import Verif.Props.MetadataIO
import Verif.Props.CameraIO

/-!
# Lemmas for the reconstruction round trip
-/
set_option linter.unusedSimpArgs false
set_option linter.unusedSectionVars false
namespace Verif.RecIO
open Verif.CameraIO

section dict
variable {V W : Type}

theorem set_new (m : Dict String V) (k : String) (v : V) (hk : k ∉ m.keys) :
    m.set k v = m ++ [(k, v)] := by
  induction m with
  | nil => rfl
  | cons p m ih =>
    simp only [Dict.keys, List.map_cons, List.mem_cons, not_or] at hk
    simp only [Dict.set, if_neg (Ne.symm hk.1), List.cons_append]
    rw [ih hk.2]

theorem get?_append' (a b : Dict String V) (k : String) :
    Dict.get? (a ++ b) k = match Dict.get? a k with | some v => some v | none => Dict.get? b k := by
  induction a with
  | nil => rfl
  | cons p a ih =>
    obtain ⟨x, y⟩ := p
    by_cases h : x = k <;> simp [Dict.get?, h, ih]

theorem has_false_iff (m : Dict String V) (k : String) : m.has k = false ↔ k ∉ m.keys := by
  rw [← Dict.has_iff_mem]; simp

/-- The writing loop of a dictionary with distinct keys. -/
theorem writeAll_eq (f : V → Option J) (g : String → V → J) (d : Dict String V) (hw : d.Wf)
    (h : ∀ k v, (k, v) ∈ d → f v = some (g k v)) :
    writeAll f d = some (d.map fun kv => (kv.1, g kv.1 kv.2)) := by
  have main : ∀ (l : Dict String V) (acc : Dict String J), l.Wf →
      (∀ k v, (k, v) ∈ l → f v = some (g k v)) →
      (∀ k ∈ l.keys, k ∉ acc.keys) →
      l.foldlM (writeStep f) acc = some (acc ++ l.map fun kv => (kv.1, g kv.1 kv.2)) := by
    intro l
    induction l with
    | nil => intro acc _ _ _; simp
    | cons p l ih =>
      intro acc hw h hd
      obtain ⟨k, v⟩ := p
      simp only [Dict.Wf, Dict.keys, List.map_cons, List.nodup_cons] at hw
      have hk : k ∉ acc.keys := hd k (by simp)
      rw [List.foldlM_cons]
      simp only [writeStep, h k v (by simp), Option.map_some, set_new _ _ _ hk]
      show (l.foldlM (writeStep f) (acc ++ [(k, g k v)]) : Option _) = _
      rw [ih _ hw.2 (fun k' v' hm => h k' v' (by simp [hm]))]
      · simp
      · intro k' hk'
        simp only [Dict.keys, List.map_append, List.mem_append, not_or, List.map_cons, List.map_nil,
          List.mem_singleton]
        refine ⟨hd k' (by simp [hk']), ?_⟩
        rintro rfl
        exact hw.1 hk'
  have := main d [] hw h (by simp)
  simpa [writeAll] using this

end dict

variable {P : Type} [Group P]

/-- Everything but the poses and the members of the rig instances and the shots. -/
structure Valid (r : Rec P) : Prop where
  wfCams : r.cameras.Wf
  wfBias : r.biases.Wf
  wfRc : r.rigCameras.Wf
  wfRi : r.rigInstances.Wf
  wfShots : r.shots.Wf
  wfPano : r.pano.Wf
  wfPoints : r.points.Wf
  camId : ∀ k c, (k, c) ∈ r.cameras → c.id = k
  camLegal : ∀ k c, (k, c) ∈ r.cameras → Legal c ∧ Usable c
  biasCam : ∀ k, k ∈ r.biases.keys ↔ k ∈ r.cameras.keys
  membersWf : ∀ i x, (i, x) ∈ r.rigInstances → Dict.Wf x.members
  /-- a rig camera is used by one shot of an instance only -/
  membersInj : ∀ i x, (i, x) ∈ r.rigInstances → ∀ s s' rc, (s, rc) ∈ x.members →
    (s', rc) ∈ x.members → s = s'
  /-- the shots of an instance are shots of the reconstruction -/
  membersShots : ∀ i x, (i, x) ∈ r.rigInstances → ∀ s rc, (s, rc) ∈ x.members →
    (∃ sh : Shot, (s, sh) ∈ r.shots ∧ sh.inst = i ∧ sh.rigCamera = rc) ∨
    (∃ sh : Shot, (s, sh) ∈ r.pano ∧ sh.inst = i ∧ sh.rigCamera = rc)
  shotRefs : ∀ s sh, ((s, sh) ∈ r.shots ∨ (s, sh) ∈ r.pano) →
    sh.camera ∈ r.cameras.keys ∧ sh.rigCamera ∈ r.rigCameras.keys ∧
    ∃ x : Inst P, (sh.inst, x) ∈ r.rigInstances ∧ (s, sh.rigCamera) ∈ x.members
  shotIds : ∀ s (sh : Shot), (s, sh) ∈ r.shots → sh.inst ≠ "" ∧ sh.rigCamera ≠ ""
  panoIds : ∀ s (sh : Shot), (s, sh) ∈ r.pano →
    sh.inst = panoPrefix ++ s ∧ sh.rigCamera = panoPrefix ++ sh.camera
  disjoint : ∀ s, s ∈ r.shots.keys → s ∉ r.pano.keys

/-! ### The stages of reading -/

theorem cams_stage (l : Dict String Cam) (js : Dict String J) (r : Rec P)
    (hjs : List.Forall₂ (fun (a : String × Cam) (b : String × J) => a.1 = b.1 ∧
      cameraFromJson b.1 b.2 = some a.2) l js)
    (hid : ∀ k c, (k, c) ∈ l → c.id = k) (hw : l.Wf) (hd : ∀ k ∈ l.keys, k ∉ r.cameras.keys)
    (hd' : ∀ k ∈ l.keys, k ∉ r.biases.keys) :
    js.foldlM readCamera r = some { r with
      cameras := r.cameras ++ l, biases := r.biases ++ l.map fun kc => (kc.1, ((1 : P), (1 : ℚ))) } := by
  induction hjs generalizing r with
  | nil => simp
  | @cons a b l js hab _ ih =>
    obtain ⟨k, c⟩ := a
    obtain ⟨k', j⟩ := b
    obtain ⟨h1, h2⟩ := hab
    simp only at h1 h2
    subst h1
    simp only [Dict.Wf, Dict.keys, List.map_cons, List.nodup_cons] at hw
    have hck : c.id = k := hid k c (by simp)
    have hk : k ∉ r.cameras.keys := hd k (by simp)
    have hkb : k ∉ r.biases.keys := hd' k (by simp)
    rw [List.foldlM_cons]
    simp only [readCamera, h2, Option.map_some, addCamera, hck, (has_false_iff _ _).2 hk,
      Dict.insertNew, (has_false_iff _ _).2 hkb, set_new _ _ _ hk, set_new _ _ _ hkb]
    show (js.foldlM readCamera _ : Option _) = _
    simp only [Bool.false_eq_true, if_false]
    rw [ih _ (fun k' c' h => hid k' c' (by simp [h])) hw.2]
    · simp
    · intro k2 hk2
      simp only [Dict.keys, List.map_append, List.mem_append, not_or, List.map_cons, List.map_nil,
          List.mem_singleton]
      refine ⟨hd k2 (by simp [hk2]), ?_⟩
      rintro rfl
      exact hw.1 hk2
    · intro k2 hk2
      simp only [Dict.keys, List.map_append, List.mem_append, not_or, List.map_cons, List.map_nil,
          List.mem_singleton]
      refine ⟨hd' k2 (by simp [hk2]), ?_⟩
      rintro rfl
      exact hw.1 hk2

theorem fullPose_of (cd : Codec P) (hcd : cd.Lawful) (p : P) (o : J)
    (h1 : o.get? "rotation" = some (vec3J (cd.rot p)))
    (h2 : o.get? "translation" = some (vec3J (cd.trans p))) : fullPose cd o = some p := by
  simp [fullPose, reqVec, h1, h2, vec3?_vec3J, hcd p]

theorem bias_stage (cd : Codec P) (hcd : cd.Lawful) (l : Dict String (P × ℚ)) (r : Rec P) (hw : l.Wf)
    (hr : r.biases.Wf) (hk : ∀ k ∈ l.keys, k ∈ r.biases.keys) :
    ∃ b : Dict String (P × ℚ), (l.map fun kv => (kv.1, biasToJson cd kv.2)).foldlM (readBias cd) r =
        some { r with biases := b } ∧ b.keys = r.biases.keys ∧
      ∀ k, b.get? k = match l.get? k with | some v => some v | none => r.biases.get? k := by
  induction l generalizing r with
  | nil => exact ⟨r.biases, by simp, rfl, fun k => by simp⟩
  | cons p l ih =>
    obtain ⟨k, b⟩ := p
    simp only [Dict.Wf, Dict.keys, List.map_cons, List.nodup_cons] at hw
    have hkr : k ∈ r.biases.keys := hk k (by simp)
    have hrd : readBias cd r (k, biasToJson cd b) = some { r with biases := r.biases.set k b } := by
      have hs : (biasToJson cd b).reqNum "scale" = some b.2 := rfl
      simp only [readBias, fullPose_of cd hcd b.1 (biasToJson cd b) rfl rfl, hs, setBias,
        (Dict.has_iff_mem _ _).2 hkr, if_true]
    have hkeys : Dict.keys (r.biases.set k b) = r.biases.keys := by
      rw [Dict.keys_set, if_pos hkr]
    obtain ⟨b', e1, e2, e3⟩ := ih { r with biases := r.biases.set k b } hw.2 (Dict.wf_set hr k b)
      (by intro k' hk'; simp only [hkeys]; exact hk k' (by simp [hk']))
    refine ⟨b', ?_, by rw [e2]; exact hkeys, ?_⟩
    · rw [List.map_cons, List.foldlM_cons, hrd]
      exact e1
    · intro k'
      rw [e3 k']
      simp only [Dict.get?_set]
      by_cases hkk : k = k'
      · subst hkk
        have : Dict.get? l k = none := (Dict.get?_eq_none_iff l k).2 hw.1
        simp [this, Dict.get?]
      · simp [hkk, Dict.get?]

theorem rc_stage (cd : Codec P) (hcd : cd.Lawful) (l : Dict String P) (r : Rec P) (hw : l.Wf)
    (hd : ∀ k ∈ l.keys, k ∉ r.rigCameras.keys) :
    (l.map fun kv => (kv.1, rigCameraToJson cd kv.2)).foldlM (readRigCamera cd) r =
      some { r with rigCameras := r.rigCameras ++ l } := by
  induction l generalizing r with
  | nil => simp
  | cons p l ih =>
    obtain ⟨k, p⟩ := p
    simp only [Dict.Wf, Dict.keys, List.map_cons, List.nodup_cons] at hw
    have hk : k ∉ r.rigCameras.keys := hd k (by simp)
    have hrd : readRigCamera cd r (k, rigCameraToJson cd p) =
        some { r with rigCameras := r.rigCameras ++ [(k, p)] } := by
      simp [readRigCamera, fullPose_of cd hcd p (rigCameraToJson cd p) rfl rfl, addRigCamera,
        (has_false_iff _ _).2 hk, set_new _ _ _ hk]
    rw [List.map_cons, List.foldlM_cons, hrd]
    show List.foldlM (readRigCamera cd) _ _ = _
    rw [ih _ hw.2]
    · simp
    · intro k' hk'
      simp only [Dict.keys, List.map_append, List.mem_append, not_or, List.map_cons, List.map_nil,
          List.mem_singleton]
      refine ⟨hd k' (by simp [hk']), ?_⟩
      rintro rfl
      exact hw.1 hk'

theorem ri_stage (cd : Codec P) (hcd : cd.Lawful) (l : Dict String (Inst P)) (r : Rec P) (hw : l.Wf)
    (hd : ∀ k ∈ l.keys, k ∉ r.rigInstances.keys) :
    (l.map fun kv => (kv.1, rigInstanceToJson cd kv.2)).foldlM (readRigInstance cd) r =
      some { r with rigInstances := r.rigInstances ++ l.map fun kv => (kv.1, ⟨kv.2.pose, []⟩) } := by
  induction l generalizing r with
  | nil => simp
  | cons p l ih =>
    obtain ⟨k, x⟩ := p
    simp only [Dict.Wf, Dict.keys, List.map_cons, List.nodup_cons] at hw
    have hk : k ∉ r.rigInstances.keys := hd k (by simp)
    have hset : Dict.set (r.rigInstances.set k (⟨1, []⟩ : Inst P)) k ⟨x.pose, []⟩ =
        r.rigInstances ++ [(k, ⟨x.pose, []⟩)] := by
      rw [← set_new _ _ _ hk]
      generalize r.rigInstances = m
      induction m with
      | nil => simp [Dict.set]
      | cons q m ih => by_cases h : q.1 = k <;> simp [Dict.set, h, ih]
    have hrd : readRigInstance cd r (k, rigInstanceToJson cd x) =
        some { r with rigInstances := r.rigInstances ++ [(k, ⟨x.pose, []⟩)] } := by
      simp [readRigInstance, fullPose_of cd hcd x.pose (rigInstanceToJson cd x) rfl rfl,
        addRigInstance, setInstancePose, hset]
    rw [List.map_cons, List.foldlM_cons, hrd]
    show List.foldlM (readRigInstance cd) _ _ = _
    rw [ih _ hw.2]
    · simp
    · intro k' hk'
      simp only [Dict.keys, List.map_append, List.mem_append, not_or, List.map_cons, List.map_nil,
          List.mem_singleton]
      refine ⟨hd k' (by simp [hk']), ?_⟩
      rintro rfl
      exact hw.1 hk'

theorem points_stage (l : Dict String Pt) (r : Rec P) (hw : l.Wf)
    (hd : ∀ k ∈ l.keys, k ∉ r.points.keys) :
    (l.map fun kv => (kv.1, pointToJson kv.2)).foldlM readPoint r =
      some { r with points := r.points ++ l } := by
  induction l generalizing r with
  | nil => simp
  | cons p l ih =>
    obtain ⟨k, p⟩ := p
    simp only [Dict.Wf, Dict.keys, List.map_cons, List.nodup_cons] at hw
    have hk : k ∉ r.points.keys := hd k (by simp)
    have hrd : readPoint r (k, pointToJson p) = some { r with points := r.points ++ [(k, p)] } := by
      simp [readPoint, reqVec, J.get?, pointToJson, Dict.get?, vec3?_vec3J, createPoint,
        (has_false_iff _ _).2 hk, set_new _ _ _ hk, pyInt]
    rw [List.map_cons, List.foldlM_cons, hrd]
    show List.foldlM readPoint _ _ = _
    rw [ih _ hw.2]
    · simp
    · intro k' hk'
      simp only [Dict.keys, List.map_append, List.mem_append, not_or, List.map_cons, List.map_nil,
          List.mem_singleton]
      refine ⟨hd k' (by simp [hk']), ?_⟩
      rintro rfl
      exact hw.1 hk'

/-! ### The rig of each shot -/

theorem rigShot_inner (pano : List String) (i : String) (l : Dict String String)
    (acc : Dict String (String × String)) :
    ∃ acc', (l.map fun m => (m.1, J.str m.2)).foldlM (rigShotStep pano i) acc = some acc' ∧
      ∀ s v, acc'.get? s = some v →
        acc.get? s = some v ∨ (s ∉ pano ∧ ∃ rc, (s, rc) ∈ l ∧ v = (i, rc)) := by
  induction l generalizing acc with
  | nil => exact ⟨acc, by simp, fun s v h => .inl h⟩
  | cons p l ih =>
    obtain ⟨s0, rc0⟩ := p
    by_cases h : s0 ∈ pano
    · obtain ⟨acc', e1, e2⟩ := ih acc
      refine ⟨acc', ?_, ?_⟩
      · rw [List.map_cons, List.foldlM_cons]
        simp only [rigShotStep, h, if_true]
        exact e1
      · intro s v hs
        rcases e2 s v hs with h1 | ⟨h1, rc, h2, h3⟩
        · exact .inl h1
        · exact .inr ⟨h1, rc, by simp [h2], h3⟩
    · obtain ⟨acc', e1, e2⟩ := ih (acc.set s0 (i, rc0))
      refine ⟨acc', ?_, ?_⟩
      · rw [List.map_cons, List.foldlM_cons]
        simp only [rigShotStep, h, if_false]
        exact e1
      · intro s v hs
        rcases e2 s v hs with h1 | ⟨h1, rc, h2, h3⟩
        · rw [Dict.get?_set] at h1
          by_cases hh : s0 = s
          · subst hh
            simp only [if_true, Option.some.injEq] at h1
            exact .inr ⟨h, rc0, by simp, h1.symm⟩
          · simp only [hh, if_false] at h1
            exact .inl h1
        · exact .inr ⟨h1, rc, by simp [h2], h3⟩

/-- The inner loop keeps what is there and covers its own members. -/
theorem rigShot_inner_has (pano : List String) (i : String) (l : Dict String String)
    (acc acc' : Dict String (String × String))
    (he : (l.map fun m => (m.1, J.str m.2)).foldlM (rigShotStep pano i) acc = some acc') :
    (∀ s, s ∈ acc.keys → s ∈ acc'.keys) ∧ ∀ s rc, (s, rc) ∈ l → s ∉ pano → s ∈ acc'.keys := by
  induction l generalizing acc with
  | nil =>
    simp only [List.map_nil, List.foldlM_nil] at he
    cases he
    exact ⟨fun s h => h, by simp⟩
  | cons p l ih =>
    obtain ⟨s0, rc0⟩ := p
    rw [List.map_cons, List.foldlM_cons] at he
    by_cases h : s0 ∈ pano
    · simp only [rigShotStep, h, if_true] at he
      obtain ⟨a1, a2⟩ := ih acc he
      refine ⟨a1, ?_⟩
      intro s rc hm hp
      rcases List.mem_cons.1 hm with e | hm'
      · cases e; exact absurd h hp
      · exact a2 s rc hm' hp
    · simp only [rigShotStep, h, if_false] at he
      obtain ⟨a1, a2⟩ := ih (acc.set s0 (i, rc0)) he
      refine ⟨fun s hs => a1 s ((Dict.mem_keys_set _ _ _ _).2 (.inr hs)), ?_⟩
      intro s rc hm hp
      rcases List.mem_cons.1 hm with e | hm'
      · cases e; exact a1 s0 ((Dict.mem_keys_set _ _ _ _).2 (.inl rfl))
      · exact a2 s rc hm' hp

theorem rigShots_outer (cd : Codec P) (pano : List String) (l : Dict String (Inst P))
    (acc : Dict String (String × String)) :
    ∃ acc', (l.map fun kv => (kv.1, rigInstanceToJson cd kv.2)).foldlM (rigInstStep pano) acc =
        some acc' ∧
      (∀ s v, acc'.get? s = some v → acc.get? s = some v ∨
        (s ∉ pano ∧ ∃ (x : Inst P), (v.1, x) ∈ l ∧ (s, v.2) ∈ x.members)) ∧
      (∀ s, s ∈ acc.keys → s ∈ acc'.keys) ∧
      ∀ (i : String) (x : Inst P), (i, x) ∈ l → ∀ s rc, (s, rc) ∈ x.members → s ∉ pano →
        s ∈ acc'.keys := by
  induction l generalizing acc with
  | nil => exact ⟨acc, by simp, fun s v h => .inl h, fun s h => h, by simp⟩
  | cons p l ih =>
    obtain ⟨i0, x0⟩ := p
    obtain ⟨acc1, e1, e2⟩ := rigShot_inner pano i0 x0.members acc
    obtain ⟨f1, f2⟩ := rigShot_inner_has pano i0 x0.members acc acc1 e1
    obtain ⟨acc', g1, g2, g3, g4⟩ := ih acc1
    have hst : rigInstStep pano acc (i0, rigInstanceToJson cd x0) = some acc1 := by
      simp only [rigInstStep, rigInstanceToJson, reqItems, J.get?, Dict.get?]
      simpa [items?] using e1
    refine ⟨acc', ?_, ?_, fun s hs => g3 s (f1 s hs), ?_⟩
    · rw [List.map_cons, List.foldlM_cons, hst]
      exact g1
    · intro s v hs
      rcases g2 s v hs with h | ⟨hp, x, h1, h2⟩
      · rcases e2 s v h with h' | ⟨hp, rc, h1, rfl⟩
        · exact .inl h'
        · exact .inr ⟨hp, x0, by simp, h1⟩
      · exact .inr ⟨hp, x, by simp [h1], h2⟩
    · intro i x hm s rc hs hp
      rcases List.mem_cons.1 hm with e | hm'
      · cases e; exact g3 s (f2 s rc hs hp)
      · exact g4 i x hm' s rc hs hp

/-! ### Shots and pano shots -/

/-- The rig instances while the shots named in `D` have been read. -/
structure InvRI (r0 : Rec P) (ri : Dict String (Inst P)) (D : List String) : Prop where
  keys : ri.keys = r0.rigInstances.keys
  inst : ∀ (i : String) (x0 : Inst P), (i, x0) ∈ r0.rigInstances → ∃ x : Inst P, ri.get? i = some x ∧
    x.pose = x0.pose ∧ Dict.Wf x.members ∧
    ∀ s rc, x.members.get? s = some rc ↔ (x0.members.get? s = some rc ∧ s ∈ D)

theorem attach_inv (r0 : Rec P) (hv : Valid r0) (r : Rec P) (D : List String) (s : String) (sh : Shot)
    (hinv : InvRI r0 r.rigInstances D) (hs : s ∉ D)
    (hsh : (s, sh) ∈ r0.shots ∨ (s, sh) ∈ r0.pano)
    (hc : ∀ k, k ∈ r0.cameras.keys → k ∈ r.cameras.keys)
    (hrc : ∀ k, r.rigCameras.get? k = r0.rigCameras.get? k) :
    ∃ p ri, shotPose r0 sh = some p ∧
      attach r s sh.camera sh.rigCamera sh.inst p = some { r with rigInstances := ri } ∧
      InvRI r0 ri (D ++ [s]) := by
  obtain ⟨h1, h2, x0, h3, h4⟩ := hv.shotRefs s sh hsh
  obtain ⟨x, e1, e2, e3, e4⟩ := hinv.inst _ _ h3
  rw [Dict.mem_keys_iff] at h2
  obtain ⟨rp, hrp⟩ := Option.isSome_iff_exists.1 h2
  obtain ⟨cam, hcam⟩ := Option.isSome_iff_exists.1 ((Dict.mem_keys_iff _ _).1 (hc _ h1))
  have hx0 := (Dict.mem_iff_get? hv.wfRi).1 h3
  have hmw := hv.membersWf _ _ h3
  have hm0 := (Dict.mem_iff_get? hmw).1 h4
  have hany : x.members.any (fun m => m.2 == sh.rigCamera) = false := by
    rw [List.any_eq_false]
    rintro ⟨s', rc'⟩ hm
    simp only [beq_iff_eq]
    rintro rfl
    have := (e4 s' sh.rigCamera).1 ((Dict.mem_iff_get? e3).1 hm)
    have hss := hv.membersInj _ _ h3 s' s _ (Dict.mem_of_get? this.1) h4
    subst hss
    exact hs this.2
  refine ⟨rp * x0.pose, r.rigInstances.set sh.inst ⟨rp⁻¹ * (rp * x0.pose), x.members.set s sh.rigCamera⟩,
    ?_, ?_, ?_⟩
  · simp [shotPose, hrp, hx0]
  · simp [attach, hcam, e1, hrc, hrp, hany]
  · constructor
    · rw [Dict.keys_set, if_pos, hinv.keys]
      rw [Dict.mem_keys_iff, e1]; rfl
    · intro i x1 hi
      by_cases hii : sh.inst = i
      · subst hii
        have hxx : x1 = x0 := by
          have := (Dict.mem_iff_get? hv.wfRi).1 hi
          rw [hx0] at this; exact (Option.some.inj this).symm
        subst hxx
        refine ⟨_, Dict.get?_set_self _ _ _, by simp, Dict.wf_set e3 _ _, ?_⟩
        intro s' rc
        rw [Dict.get?_set]
        by_cases hss : s = s'
        · subst hss
          simp [hm0]
        · have hss' : s' ≠ s := Ne.symm hss
          simp [hss, hss', e4]
      · obtain ⟨y, f1, f2, f3, f4⟩ := hinv.inst i x1 hi
        refine ⟨y, by rw [Dict.get?_set_ne _ _ hii]; exact f1, f2, f3, ?_⟩
        intro s' rc
        rw [f4]
        refine ⟨fun h => ⟨h.1, by simp [h.2]⟩, fun h => ⟨h.1, ?_⟩⟩
        have hD := h.2
        simp only [List.mem_append, List.mem_singleton] at hD
        rcases hD with hD | rfl
        · exact hD
        · exfalso
          rcases hv.membersShots i x1 hi _ rc (Dict.mem_of_get? h.1) with ⟨sh', a, b, c⟩ | ⟨sh', a, b, c⟩
          · rcases hsh with hsh | hsh
            · have := Dict.get?_of_mem hv.wfShots a
              rw [Dict.get?_of_mem hv.wfShots hsh] at this
              cases this; exact hii b
            · exact hv.disjoint s' (List.mem_map.2 ⟨_, a, rfl⟩) (List.mem_map.2 ⟨_, hsh, rfl⟩)
          · rcases hsh with hsh | hsh
            · exact hv.disjoint s' (List.mem_map.2 ⟨_, hsh, rfl⟩) (List.mem_map.2 ⟨_, a, rfl⟩)
            · have := Dict.get?_of_mem hv.wfPano a
              rw [Dict.get?_of_mem hv.wfPano hsh] at this
              cases this; exact hii b

/-- A shot as it comes back from its JSON form. -/
def Shot.written (sh : Shot) : Shot :=
  { sh with attrs := { sh.attrs with metadata := sh.attrs.metadata.written } }

theorem shots_stage (cd : Codec P) (hcd : cd.Lawful) (r0 : Rec P) (hv : Valid r0)
    (rig : Dict String (String × String))
    (hrig : ∀ s sh, (s, sh) ∈ r0.shots → rig.get? s = some (sh.inst, sh.rigCamera))
    (l : Dict String Shot) (js : Dict String J) (r : Rec P) (D : List String)
    (hjs : List.Forall₂ (fun (a : String × Shot) (b : String × J) => a.1 = b.1 ∧
      mapShotToJson cd r0 a.2 = some b.2) l js)
    (hl : ∀ s sh, (s, sh) ∈ l → (s, sh) ∈ r0.shots) (hw : l.Wf)
    (hd : ∀ s ∈ l.keys, s ∉ D) (hd' : ∀ s ∈ l.keys, s ∉ r.shots.keys)
    (hinv : InvRI r0 r.rigInstances D)
    (hc : ∀ k, k ∈ r0.cameras.keys → k ∈ r.cameras.keys)
    (hrc : ∀ k, r.rigCameras.get? k = r0.rigCameras.get? k) :
    ∃ ri, js.foldlM (readShot cd rig) r = some { r with
        rigInstances := ri, shots := r.shots ++ l.map fun kv => (kv.1, kv.2.written) } ∧
      InvRI r0 ri (D ++ l.keys) := by
  induction hjs generalizing r D with
  | nil => exact ⟨r.rigInstances, by simp, by simpa using hinv⟩
  | @cons a b l js hab _ ih =>
    obtain ⟨s, sh⟩ := a
    obtain ⟨s', j⟩ := b
    obtain ⟨h1, h2⟩ := hab
    simp only at h1 h2
    subst h1
    simp only [Dict.Wf, Dict.keys, List.map_cons, List.nodup_cons] at hw
    have hs0 := hl s sh (by simp)
    have hsk : s ∉ r.shots.keys := hd' s (by simp)
    obtain ⟨p, ri, e1, e2, e3⟩ := attach_inv r0 hv r D s sh hinv (hd s (by simp)) (.inl hs0) hc hrc
    have hj : j = shotToJson cd p sh.camera sh.attrs := by
      simp only [mapShotToJson, e1, Option.map_some, Option.some.injEq] at h2
      exact h2.symm
    obtain ⟨k1, k2, k3⟩ := C48_shot cd hcd p sh.camera sh.attrs
    obtain ⟨i1, i2⟩ := hv.shotIds s sh hs0
    obtain ⟨g1, g2, x0, g3, -⟩ := hv.shotRefs s sh (.inl hs0)
    have hasRc : r.rigCameras.has sh.rigCamera = true := by
      rw [Dict.has, hrc]; exact (Dict.mem_keys_iff _ _).1 g2
    have hasRi : r.rigInstances.has sh.inst = true := by
      rw [Dict.has_iff_mem, hinv.keys]; exact List.mem_map.2 ⟨_, g3, rfl⟩
    have gv1 : given (some sh.inst) = some sh.inst := by unfold given; split <;> simp_all
    have gv2 : given (some sh.rigCamera) = some sh.rigCamera := by unfold given; split <;> simp_all
    have hread : readShot cd rig r (s, j) = some { r with
        rigInstances := ri, shots := r.shots ++ [(s, sh.written)] } := by
      simp only [readShot, hj, k1, k2, k3, hrig s sh hs0, Option.map_some, createShot, gv1, gv2,
        Option.getD_some, Option.isNone_some, Bool.false_and, Bool.false_eq_true, if_false, hasRc,
        hasRi, Bool.not_true, mapCreateShot, (has_false_iff _ _).2 hsk, e2, set_new _ _ _ hsk,
        Shot.written]
    rw [List.foldlM_cons, hread]
    obtain ⟨ri', f1, f2⟩ := ih { r with rigInstances := ri, shots := r.shots ++ [(s, sh.written)] }
      (D ++ [s]) (fun s' sh' h => hl s' sh' (by simp [h])) hw.2
      (by
        intro s' hs'
        simp only [List.mem_append, List.mem_singleton, not_or]
        refine ⟨hd s' (by simp [hs']), ?_⟩
        rintro rfl; exact hw.1 hs')
      (by
        intro s' hs'
        simp only [Dict.keys, List.map_append, List.mem_append, not_or, List.map_cons, List.map_nil,
          List.mem_singleton]
        refine ⟨hd' s' (by simp [hs']), ?_⟩
        rintro rfl; exact hw.1 hs') e3 hc hrc
    refine ⟨ri', ?_, by simpa using f2⟩
    show List.foldlM (readShot cd rig) _ js = _
    rw [f1]; simp

theorem pano_stage (cd : Codec P) (hcd : cd.Lawful) (r0 : Rec P) (hv : Valid r0)
    (l : Dict String Shot) (js : Dict String J) (r : Rec P) (D : List String)
    (hjs : List.Forall₂ (fun (a : String × Shot) (b : String × J) => a.1 = b.1 ∧
      mapShotToJson cd r0 a.2 = some b.2) l js)
    (hl : ∀ s sh, (s, sh) ∈ l → (s, sh) ∈ r0.pano) (hw : l.Wf)
    (hd : ∀ s ∈ l.keys, s ∉ D) (hd' : ∀ s ∈ l.keys, s ∉ r.pano.keys)
    (hinv : InvRI r0 r.rigInstances D)
    (hc : ∀ k, k ∈ r0.cameras.keys → k ∈ r.cameras.keys)
    (hrc : ∀ k, r.rigCameras.get? k = r0.rigCameras.get? k) :
    ∃ ri, js.foldlM (readPano cd) r = some { r with
        rigInstances := ri, pano := r.pano ++ l.map fun kv => (kv.1, kv.2.written) } ∧
      InvRI r0 ri (D ++ l.keys) := by
  induction hjs generalizing r D with
  | nil => exact ⟨r.rigInstances, by simp, by simpa using hinv⟩
  | @cons a b l js hab _ ih =>
    obtain ⟨s, sh⟩ := a
    obtain ⟨s', j⟩ := b
    obtain ⟨h1, h2⟩ := hab
    simp only at h1 h2
    subst h1
    simp only [Dict.Wf, Dict.keys, List.map_cons, List.nodup_cons] at hw
    have hs0 := hl s sh (by simp)
    have hsk : s ∉ r.pano.keys := hd' s (by simp)
    obtain ⟨p, ri, e1, e2, e3⟩ := attach_inv r0 hv r D s sh hinv (hd s (by simp)) (.inr hs0) hc hrc
    have hj : j = shotToJson cd p sh.camera sh.attrs := by
      simp only [mapShotToJson, e1, Option.map_some, Option.some.injEq] at h2
      exact h2.symm
    obtain ⟨k1, k2, k3⟩ := C48_shot cd hcd p sh.camera sh.attrs
    obtain ⟨i1, i2⟩ := hv.panoIds s sh hs0
    obtain ⟨g1, g2, x0, g3, -⟩ := hv.shotRefs s sh (.inr hs0)
    have hasRc : r.rigCameras.has sh.rigCamera = true := by
      rw [Dict.has, hrc]; exact (Dict.mem_keys_iff _ _).1 g2
    have hasRi : r.rigInstances.has sh.inst = true := by
      rw [Dict.has_iff_mem, hinv.keys]; exact List.mem_map.2 ⟨_, g3, rfl⟩
    have hread : readPano cd r (s, j) = some { r with
        rigInstances := ri, pano := r.pano ++ [(s, sh.written)] } := by
      simp only [readPano, hj, k1, k2, k3, createPano, ← i1, ← i2, hasRc,
        hasRi, Bool.not_true, Bool.false_eq_true, if_false, mapCreatePano, (has_false_iff _ _).2 hsk,
        e2, set_new _ _ _ hsk, Shot.written, Option.map_some]
    rw [List.foldlM_cons, hread]
    obtain ⟨ri', f1, f2⟩ := ih { r with rigInstances := ri, pano := r.pano ++ [(s, sh.written)] }
      (D ++ [s]) (fun s' sh' h => hl s' sh' (by simp [h])) hw.2
      (by
        intro s' hs'
        simp only [List.mem_append, List.mem_singleton, not_or]
        refine ⟨hd s' (by simp [hs']), ?_⟩
        rintro rfl; exact hw.1 hs')
      (by
        intro s' hs'
        simp only [Dict.keys, List.map_append, List.mem_append, not_or, List.map_cons, List.map_nil,
          List.mem_singleton]
        refine ⟨hd' s' (by simp [hs']), ?_⟩
        rintro rfl; exact hw.1 hs') e3 hc hrc
    refine ⟨ri', ?_, by simpa using f2⟩
    show List.foldlM (readPano cd) _ js = _
    rw [f1]; simp

end Verif.RecIO
