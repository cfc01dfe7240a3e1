import Verif.Spec.MetadataRec
import Verif.Props.Angles
import Verif.Props.Pose

/-!
C108: the reconstruction made of metadata.
-/
set_option linter.unusedSimpArgs false
namespace Verif.MetadataRec
open Verif.Superimpose Matrix
open Verif.Pose (Pose Rigid)

/-! ### Metadata -/

/-- The position comes from latitude and longitude, at altitude 2 unless altitudes are used and the image has one, which counts for 10000 at
most; without both there is none. The accuracy is 15 when it is missing or 0. -/
theorem C108_position (topo : ℝ → ℝ → ℝ → Vec 3) (u : Bool) (e : Exif) :
    (∀ (g : GpsTag) (lat lon : ℝ), e.gps = some g → g.latitude = some lat → g.longitude = some lon →
      ∃ alt acc : ℝ, (exifToMetadata topo u e).gpsPosition = some (topo lat lon alt) ∧ (exifToMetadata topo u e).gpsAccuracy = some acc ∧
        (u = false → alt = 2) ∧ (u = true → g.altitude = none → alt = 2) ∧
        (∀ a : ℝ, u = true → g.altitude = some a → a ≤ 10000 → alt = a) ∧ (∀ a : ℝ, u = true → g.altitude = some a → 10000 < a → alt = 10000) ∧
        (∀ d : ℝ, g.dop = some d → d ≠ 0 → acc = d) ∧ (g.dop = none → acc = 15) ∧ (g.dop = some 0 → acc = 15)) ∧
    ((∀ g : GpsTag, e.gps = some g → g.latitude = none ∨ g.longitude = none) →
      (exifToMetadata topo u e).gpsPosition = none ∧ (exifToMetadata topo u e).gpsAccuracy = none) := by
  have hpos : (exifToMetadata topo u e).gpsPosition = (gpsMeta topo u e {}).gpsPosition ∧
      (exifToMetadata topo u e).gpsAccuracy = (gpsMeta topo u e {}).gpsAccuracy := by
    have ho : ∀ m : Meta, (opkMeta e m).gpsPosition = m.gpsPosition ∧ (opkMeta e m).gpsAccuracy = m.gpsAccuracy := by
      intro m
      unfold opkMeta
      split
      · exact ⟨rfl, rfl⟩
      · split <;> exact ⟨rfl, rfl⟩
    unfold exifToMetadata
    cases e.compass with
    | none => exact ho _
    | some c => exact ho _
  rw [hpos.1, hpos.2]
  constructor
  · intro g lat lon hg hlat hlon
    refine ⟨altitudeOf u g, accuracyOf g, ?_, ?_, ?_, ?_, ?_, ?_, ?_, ?_, ?_⟩
    · simp [gpsMeta, hg, hlat, hlon]
    · simp [gpsMeta, hg, hlat, hlon]
    · rintro rfl; simp [altitudeOf]
    · rintro rfl h; simp [altitudeOf, h, maximumAltitude]; norm_num
    · rintro a rfl h ha; simp [altitudeOf, h, maximumAltitude, ha]
    · rintro a rfl h ha; simp [altitudeOf, h, maximumAltitude, ha.le]
    · intro d h hd; simp [accuracyOf, h, hd]
    · intro h; simp [accuracyOf, h]
    · intro h; simp [accuracyOf, h]
  · intro h
    unfold gpsMeta
    cases hg : e.gps with
    | none => exact ⟨rfl, rfl⟩
    | some g =>
      rcases h g hg with h1 | h1
      · simp [h1]
      · cases h2 : g.latitude <;> simp [h1]

/-- The other measurements: omega, phi and kappa only together, with accuracy 1 when it is missing; an orientation always, 1 when it is
missing; the rest as it is. -/
theorem C108_measurements (topo : ℝ → ℝ → ℝ → Vec 3) (u : Bool) (e : Exif) :
    (∀ w p k : ℝ, (exifToMetadata topo u e).opkAngles = some (w, p, k) ↔
      ∃ o : OpkTag, e.opk = some o ∧ o.omega = some w ∧ o.phi = some p ∧ o.kappa = some k) ∧
    (∀ a : ℝ, (exifToMetadata topo u e).opkAccuracy = some a → ∃ o : OpkTag, e.opk = some o ∧ (o.accuracy = some a ∨ o.accuracy = none ∧ a = 1)) ∧
    (∀ o : ℤ, (exifToMetadata topo u e).orientation = some o ↔ e.orientation = some o ∨ (e.orientation = none ∧ o = 1)) ∧
    (exifToMetadata topo u e).gravityDown = e.gravityDown ∧
    (exifToMetadata topo u e).compassAngle = e.compass.map Prod.fst ∧
    (exifToMetadata topo u e).compassAccuracy = e.compass.bind Prod.snd ∧
    (exifToMetadata topo u e).captureTime = e.captureTime ∧ (exifToMetadata topo u e).sequenceKey = e.skey := by
  have hg : ∀ m : Meta, (gpsMeta topo u e m).opkAngles = m.opkAngles ∧ (gpsMeta topo u e m).opkAccuracy = m.opkAccuracy ∧
      (gpsMeta topo u e m).compassAngle = m.compassAngle ∧ (gpsMeta topo u e m).compassAccuracy = m.compassAccuracy := by
    intro m
    unfold gpsMeta
    split
    · exact ⟨rfl, rfl, rfl, rfl⟩
    · split <;> exact ⟨rfl, rfl, rfl, rfl⟩
  have ho : ∀ m : Meta, (opkMeta e m).compassAngle = m.compassAngle ∧ (opkMeta e m).compassAccuracy = m.compassAccuracy := by
    intro m
    unfold opkMeta
    split
    · exact ⟨rfl, rfl⟩
    · split <;> exact ⟨rfl, rfl⟩
  have h1 : (exifToMetadata topo u e).opkAngles = (opkMeta e (gpsMeta topo u e {})).opkAngles := by
    unfold exifToMetadata
    cases e.compass <;> rfl
  have h2 : (exifToMetadata topo u e).opkAccuracy = (opkMeta e (gpsMeta topo u e {})).opkAccuracy := by
    unfold exifToMetadata
    cases e.compass <;> rfl
  have h3 : (exifToMetadata topo u e).orientation = some (e.orientation.getD 1) := by
    unfold exifToMetadata
    cases e.compass <;> rfl
  have h4 : (exifToMetadata topo u e).gravityDown = e.gravityDown := by
    unfold exifToMetadata
    cases e.compass <;> rfl
  have h0 : (gpsMeta topo u e {}).opkAngles = none ∧ (gpsMeta topo u e {}).opkAccuracy = none := ⟨(hg {}).1, (hg {}).2.1⟩
  refine ⟨?_, ?_, ?_, h4, ?_, ?_, ?_, ?_⟩
  · intro w p k
    rw [h1]
    unfold opkMeta
    cases he : e.opk with
    | none => simp [h0.1]
    | some o =>
      cases hw : o.omega <;> cases hp : o.phi <;> cases hk : o.kappa <;> simp [hw, hp, hk, h0.1]
  · intro a
    rw [h2]
    unfold opkMeta
    cases he : e.opk with
    | none => simp [h0.2]
    | some o =>
      cases hw : o.omega <;> cases hp : o.phi <;> cases hk : o.kappa <;> simp [hw, hp, hk, h0.2]
      cases o.accuracy <;> simp [eq_comm]
  · intro o
    rw [h3]
    cases e.orientation <;> simp [eq_comm]
  · unfold exifToMetadata
    cases e.compass with
    | none => simp [(ho _).1, (hg _).2.2.1]
    | some c => rfl
  · unfold exifToMetadata
    cases e.compass with
    | none => simp [(ho _).2, (hg _).2.2.2]
    | some c => rfl
  · unfold exifToMetadata
    cases e.compass <;> rfl
  · unfold exifToMetadata
    cases e.compass <;> rfl

/-! ### Rigs -/

theorem inner_get (i : String) (l : List (String × String)) (d : Dict String (String × String)) (a : String) :
    (l.foldl (fun d s => d.set s.1 (i, s.2)) d).get? a = d.get? a ∧ (∀ s ∈ l, s.1 ≠ a) ∨
      ∃ c, (a, c) ∈ l ∧ (l.foldl (fun d s => d.set s.1 (i, s.2)) d).get? a = some (i, c) := by
  induction l generalizing d with
  | nil => left; simp
  | cons s l ih =>
    rw [List.foldl_cons]
    rcases ih (d.set s.1 (i, s.2)) with ⟨h, hn⟩ | ⟨c, hc, h⟩
    · by_cases e : s.1 = a
      · right
        refine ⟨s.2, ?_, ?_⟩
        · rw [← e]; exact List.mem_cons_self
        · rw [h, e, Dict.get?_set_self]
      · left
        refine ⟨by rw [h, Dict.get?_set_ne _ _ e], ?_⟩
        intro s' hs'
        rcases List.mem_cons.1 hs' with rfl | hs'
        · exact e
        · exact hn s' hs'
    · right
      exact ⟨c, List.mem_cons_of_mem _ hc, h⟩

theorem outer_get (as : Dict String (List (String × String))) (d : Dict String (String × String)) (a : String) :
    (List.foldl (fun d (inst : String × List (String × String)) => inst.2.foldl (fun d s => d.set s.1 (inst.1, s.2)) d) d as).get? a = d.get? a ∧
        (∀ q ∈ as, ∀ s ∈ q.2, s.1 ≠ a) ∨
      ∃ i l c, (i, l) ∈ as ∧ (a, c) ∈ l ∧
        (List.foldl (fun d (inst : String × List (String × String)) => inst.2.foldl (fun d s => d.set s.1 (inst.1, s.2)) d) d as).get? a = some (i, c) := by
  induction as generalizing d with
  | nil => left; simp
  | cons q as ih =>
    rw [List.foldl_cons]
    rcases ih (q.2.foldl (fun d s => d.set s.1 (q.1, s.2)) d) with ⟨h, hn⟩ | ⟨i, l, c, h1, h2, h⟩
    · rcases inner_get q.1 q.2 d a with ⟨h', hn'⟩ | ⟨c, hc, h'⟩
      · left
        refine ⟨h.trans h', ?_⟩
        intro q' hq'
        rcases List.mem_cons.1 hq' with rfl | hq'
        · exact hn'
        · exact hn q' hq'
      · right
        exact ⟨q.1, q.2, c, List.mem_cons_self, hc, h.trans h'⟩
    · right
      exact ⟨i, l, c, List.mem_cons_of_mem _ h1, h2, h⟩

/-- The rig of an image in the program is that of the assignments. -/
theorem rigOf_iff (as : Dict String (List (String × String))) (h1 : AssignedOnce as) (exif : String → Exif) (a i c : String) :
    InRig as exif a i c ↔ rigOf (assignmentsPerImage as) exif a = (i, c) := by
  unfold rigOf assignmentsPerImage
  rcases outer_get as [] a with ⟨h, hn⟩ | ⟨i', l', c', m1, m2, h⟩
  · rw [h]
    simp only [Dict.get?_nil]
    constructor
    · rintro (⟨l, hl, hc⟩ | ⟨-, rfl, rfl⟩)
      · exact absurd rfl (hn _ hl _ hc)
      · rfl
    · intro e
      simp only [Prod.mk.injEq] at e
      exact Or.inr ⟨hn, e.1.symm, e.2.symm⟩
  · rw [h]
    constructor
    · rintro (⟨l, hl, hc⟩ | ⟨hn, -⟩)
      · obtain ⟨rfl, rfl⟩ := h1 i' l' i l a c' c m1 m2 hl hc
        rfl
      · exact absurd rfl (hn _ m1 _ m2)
    · intro e
      simp only [Prod.mk.injEq] at e
      obtain ⟨rfl, rfl⟩ := e
      exact Or.inl ⟨l', m1, m2⟩

/-! ### One image -/

/-- What is left of an image in its instance. -/
noncomputable def trace (topo : ℝ → ℝ → ℝ → Vec 3) (u : Bool) (exif : String → Exif) (a c : String) : Inst :=
  match (exifToMetadata topo u (exif a)).gpsPosition with
  | none => ⟨Pose.identity, []⟩
  | some g => ⟨posed (Angles.rotationFromMetadata (exifToMetadata topo u (exif a)).measurements) g Pose.identity, [(a, c)]⟩

/-- What all states have. -/
structure Inv (cameras : List String) (r : Rec) : Prop where
  cams : r.cameras = cameras
  ident : ∀ k p, r.rigCameras.get? k = some p → p = Pose.identity
  wf : r.shots.Wf

theorem addImage_some (topo : ℝ → ℝ → ℝ → Vec 3) (u : Bool) (rigs : Dict String (String × String)) (exif : String → Exif) (cameras : List String)
    (r : Rec) (hr : Inv cameras r) (a : String) (ha : r.shots.get? a = none) (hc : (exif a).camera ∈ cameras) :
    ∃ r', addImage topo u rigs exif r a = some r' ∧ Inv cameras r' ∧
      (∀ k, (r'.rigCameras.get? k).isSome ↔ (r.rigCameras.get? k).isSome ∨ k = (rigOf rigs exif a).2) ∧
      (∀ i, r'.rigInstances.get? i = if i = (rigOf rigs exif a).1 then some (trace topo u exif a (rigOf rigs exif a).2) else r.rigInstances.get? i) ∧
      (∀ x, r'.shots.get? x = if x = a then (if (exifToMetadata topo u (exif a)).gpsPosition.isSome then
          some ⟨(exif a).camera, (rigOf rigs exif a).1, (rigOf rigs exif a).2, exifToMetadata topo u (exif a)⟩ else none) else r.shots.get? x) := by
  obtain ⟨⟨i, c⟩, hrig⟩ : ∃ q, rigOf rigs exif a = q := ⟨_, rfl⟩
  rw [hrig]
  simp only
  obtain ⟨m, hm⟩ : ∃ m, m = exifToMetadata topo u (exif a) := ⟨_, rfl⟩
  obtain ⟨r1, hr1⟩ : ∃ r1, r1 = addRigCamera r c := ⟨_, rfl⟩
  have k1 : r1.cameras = cameras ∧ r1.rigInstances = r.rigInstances ∧ r1.shots = r.shots := by
    rw [hr1]; unfold addRigCamera; split <;> exact ⟨hr.cams, rfl, rfl⟩
  have k2 : ∀ k p, r1.rigCameras.get? k = some p → p = Pose.identity := by
    rw [hr1]; unfold addRigCamera
    split
    · exact hr.ident
    · intro k p
      simp only [Dict.get?_set]
      split
      · intro h; simpa using h.symm
      · exact hr.ident k p
  have k3 : ∀ k, (r1.rigCameras.get? k).isSome ↔ (r.rigCameras.get? k).isSome ∨ k = c := by
    intro k
    rw [hr1]; unfold addRigCamera
    split
    · rename_i h
      constructor
      · exact Or.inl
      · rintro (h' | rfl)
        · exact h'
        · exact h
    · simp only [Dict.get?_set]
      by_cases e : c = k
      · simp [e]
      · simp [e, Ne.symm e]
  obtain ⟨p, hp⟩ := Option.isSome_iff_exists.1 ((k3 c).2 (Or.inr rfl))
  obtain rfl := k2 c p hp
  obtain ⟨r2, hr2⟩ : ∃ r2 : Rec, r2 = { r1 with rigInstances := (r1.rigInstances.set i ⟨Pose.identity, []⟩).set i ⟨Pose.identity, [(a, c)]⟩
                                                shots := r1.shots.set a ⟨(exif a).camera, i, c, {}⟩ } := ⟨_, rfl⟩
  have hcreate : createShot (addRigInstance r1 i) a (exif a).camera c i = some r2 := by
    unfold createShot addRigInstance
    have h1 : r1.shots.has a = false := by
      unfold Dict.has
      rw [k1.2.2, ha]; rfl
    simp only [h1, Bool.false_eq_true, if_false, k1.1, hc, not_true_eq_false, Dict.get?_set_self, hp, List.any_nil]
    rw [hr2, k1.1]
    rfl
  obtain ⟨r3, hr3⟩ : ∃ r3, r3 = setMetadata r2 a m := ⟨_, rfl⟩
  have s3 : r3 = { r2 with shots := (r1.shots.set a ⟨(exif a).camera, i, c, {}⟩).set a ⟨(exif a).camera, i, c, m⟩ } := by
    rw [hr3, hr2]
    unfold setMetadata
    simp only [Dict.get?_set_self]
  have g3 : r3.shots.get? a = some ⟨(exif a).camera, i, c, m⟩ := by rw [s3]; simp
  have i3 : r3.rigInstances.get? i = some ⟨Pose.identity, [(a, c)]⟩ := by rw [s3, hr2]; simp
  have c3 : r3.rigCameras.get? c = some Pose.identity := by rw [s3, hr2]; exact hp
  have hstep : addImage topo u rigs exif r a = match m.gpsPosition with
      | none => removeShot r3 a
      | some g => some (editPose r3 a (posed (Angles.rotationFromMetadata m.measurements) g)) := by
    unfold addImage
    simp only [hrig, ← hm, ← hr1, hcreate, ← hr3]
    cases m.gpsPosition <;> rfl
  rw [hstep]
  have wf1 : r1.shots.Wf := by rw [k1.2.2]; exact hr.wf
  have wf3 : r3.shots.Wf := by rw [s3]; exact Dict.wf_set (Dict.wf_set wf1 _ _) _ _
  cases hg : m.gpsPosition with
  | none =>
    obtain ⟨r', hr'⟩ : ∃ r' : Rec, r' = { r3 with shots := r3.shots.erase a, rigInstances := r3.rigInstances.set i ⟨Pose.identity, []⟩ } := ⟨_, rfl⟩
    have hrem : removeShot r3 a = some r' := by
      unfold removeShot
      simp only [g3, i3]
      rw [hr']
      simp [Dict.has, Dict.get?, Dict.erase]
    refine ⟨r', hrem, ⟨?_, ?_, ?_⟩, ?_, ?_, ?_⟩
    · rw [hr', s3, hr2]; exact k1.1
    · rw [hr', s3, hr2]; exact k2
    · rw [hr']; exact Dict.wf_erase wf3 _
    · rw [hr', s3, hr2]; exact k3
    · intro j
      rw [hr', s3, hr2]
      simp only [Dict.get?_set, trace, ← hm, hg]
      by_cases e : i = j
      · simp [e]
      · simp [e, Ne.symm e, k1.2.1]
    · intro x
      rw [hr', s3, hr2]
      simp only [Dict.get?_erase, Dict.get?_set, ← hm, hg]
      by_cases e : a = x
      · simp [e]
      · simp [e, Ne.symm e, k1.2.2]
  | some g =>
    obtain ⟨x, hx⟩ : ∃ x : Inst, x = ⟨posed (Angles.rotationFromMetadata m.measurements) g Pose.identity, [(a, c)]⟩ := ⟨_, rfl⟩
    obtain ⟨r', hr'⟩ : ∃ r' : Rec, r' = { r3 with rigInstances := r3.rigInstances.set i x } := ⟨_, rfl⟩
    have hed : editPose r3 a (posed (Angles.rotationFromMetadata m.measurements) g) = r' := by
      unfold editPose
      simp only [g3, i3, c3]
      rw [if_pos ⟨trivial, rfl⟩, hr', hx]
    refine ⟨r', congrArg some hed, ⟨?_, ?_, ?_⟩, ?_, ?_, ?_⟩
    · rw [hr', s3, hr2]; exact k1.1
    · rw [hr', s3, hr2]; exact k2
    · rw [hr']; exact wf3
    · rw [hr', s3, hr2]; exact k3
    · intro j
      rw [hr', s3, hr2]
      simp only [Dict.get?_set, trace, ← hm, hg, hx]
      by_cases e : i = j
      · simp [e]
      · simp [e, Ne.symm e, k1.2.1]
    · intro x
      rw [hr', s3, hr2]
      simp only [Dict.get?_set, ← hm, hg]
      by_cases e : a = x
      · simp [e]
      · simp [e, Ne.symm e, k1.2.2]

/-! ### All images -/

/-- After any images: shots, instances and rig cameras. -/
theorem run_spec (topo : ℝ → ℝ → ℝ → Vec 3) (u : Bool) (rigs : Dict String (String × String)) (exif : String → Exif) (cameras : List String)
    (images : List String) (hn : images.Nodup) (hc : ∀ a ∈ images, (exif a).camera ∈ cameras) :
    ∃ r, images.foldlM (addImage topo u rigs exif) (⟨cameras, [], [], []⟩ : Rec) = some r ∧ Inv cameras r ∧
      (∀ k, (r.rigCameras.get? k).isSome ↔ ∃ a ∈ images, k = (rigOf rigs exif a).2) ∧
      (∀ i, (∀ a ∈ images, (rigOf rigs exif a).1 ≠ i) → r.rigInstances.get? i = none) ∧
      (∀ l₁ l₂ b, images = l₁ ++ b :: l₂ → (∀ x ∈ l₂, (rigOf rigs exif x).1 ≠ (rigOf rigs exif b).1) →
        r.rigInstances.get? (rigOf rigs exif b).1 = some (trace topo u exif b (rigOf rigs exif b).2)) ∧
      (∀ x, r.shots.get? x = if x ∈ images ∧ (exifToMetadata topo u (exif x)).gpsPosition.isSome then
          some ⟨(exif x).camera, (rigOf rigs exif x).1, (rigOf rigs exif x).2, exifToMetadata topo u (exif x)⟩ else none) := by
  induction images using List.reverseRecOn with
  | nil =>
    refine ⟨_, rfl, ⟨rfl, by simp, Dict.wf_nil⟩, by simp, by simp, ?_, by simp⟩
    intro l₁ l₂ b h
    simp at h
  | append_singleton images a ih =>
    obtain ⟨hn1, -, hn2⟩ := List.nodup_append.1 hn
    have hna : a ∉ images := fun h => hn2 a h a List.mem_cons_self rfl
    obtain ⟨r, h1, h2, h3, h4, h5, h6⟩ := ih hn1 (fun x hx => hc x (List.mem_append_left _ hx))
    obtain ⟨r', s1, s2, s3, s4, s5⟩ := addImage_some topo u rigs exif cameras r h2 a (by rw [h6, if_neg (fun h => hna h.1)])
      (hc a (by simp))
    refine ⟨r', ?_, s2, ?_, ?_, ?_, ?_⟩
    · rw [List.foldlM_append, h1]
      simp [s1]
    · intro k
      rw [s3, h3]
      simp only [List.mem_append, List.mem_singleton]
      constructor
      · rintro (⟨x, hx, e⟩ | e)
        · exact ⟨x, Or.inl hx, e⟩
        · exact ⟨a, Or.inr rfl, e⟩
      · rintro ⟨x, hx | rfl, e⟩
        · exact Or.inl ⟨x, hx, e⟩
        · exact Or.inr e
    · intro i hi
      rw [s4, if_neg (Ne.symm (hi a (by simp)))]
      exact h4 i (fun x hx => hi x (List.mem_append_left _ hx))
    · intro l₁ l₂ b he hl
      rcases List.eq_nil_or_concat l₂ with rfl | ⟨l₂', y, rfl⟩
      · have := List.append_inj' (he : images ++ [a] = l₁ ++ [b]) rfl
        obtain ⟨-, e⟩ := this
        simp only [List.cons.injEq, and_true] at e
        subst e
        rw [s4, if_pos rfl]
      · have he' : images ++ [a] = (l₁ ++ b :: l₂') ++ [y] := by rw [he]; simp
        obtain ⟨e1, e2⟩ := List.append_inj' he' rfl
        simp only [List.cons.injEq, and_true] at e2
        subst e2
        rw [s4, if_neg (Ne.symm (hl a (by simp)))]
        exact h5 l₁ l₂' b e1 (fun x hx => hl x (by simp [hx]))
    · intro x
      rw [s5]
      by_cases e : x = a
      · subst e; simp
      · rw [if_neg e, h6]
        simp [e]

/-- Every image with a known camera and once in the list: the result has a shot for each image with a position, with its camera, its rig and its
metadata, and no others. -/
theorem C108_shots (topo : ℝ → ℝ → ℝ → Vec 3) (u : Bool) (as : Dict String (List (String × String))) (h1 : AssignedOnce as)
    (cameras : List String) (exif : String → Exif) (images : List String) (hn : images.Nodup) (hc : ∀ a ∈ images, (exif a).camera ∈ cameras) :
    ∃ r, fromMetadata topo u as cameras exif images = some r ∧
      (∀ (a : String) (s : Shot), r.shots.get? a = some s → a ∈ images ∧ s.camera = (exif a).camera ∧ InRig as exif a s.inst s.rigCamera ∧
        s.metadata = exifToMetadata topo u (exif a)) ∧
      (∀ a ∈ images, r.shots.get? a = none ↔ (exifToMetadata topo u (exif a)).gpsPosition = none) ∧
      (∀ k p, r.rigCameras.get? k = some p → p = Pose.identity) := by
  obtain ⟨r, e, i, -, -, -, h6⟩ := run_spec topo u (assignmentsPerImage as) exif cameras images hn hc
  refine ⟨r, e, ?_, ?_, i.ident⟩
  · intro a s hs
    rw [h6] at hs
    split at hs
    · rename_i hh
      simp only [Option.some.injEq] at hs
      subst hs
      exact ⟨hh.1, rfl, (rigOf_iff as h1 exif a _ _).2 rfl, rfl⟩
    · simp at hs
  · intro a ha
    rw [h6]
    cases h : (exifToMetadata topo u (exif a)).gpsPosition <;> simp [ha]

theorem orth_of_rot {R : Mat 3} (h : IsRot R) : Verif.Pose.Orth R := mul_eq_one_comm.1 h.1

theorem identity_rigid : Rigid (Pose.identity : Pose ℝ) := by
  rw [Verif.Pose.rigid_iff_cons]
  exact Verif.Pose.cons_ofW2C (by unfold Verif.Pose.Orth; simp) 0

theorem posed_spec (R : Mat 3) (hR : IsRot R) (g : Vec 3) :
    Rigid (posed (some R) g Pose.identity) ∧ (posed (some R) g Pose.identity).wcR = R ∧ (posed (some R) g Pose.identity).getOrigin = g := by
  have hrg : Rigid ((Pose.identity : Pose ℝ).setRotationMatrix R) := by
    rw [Verif.Pose.rigid_iff_cons]
    exact ⟨orth_of_rot hR, rfl, by simp [Pose.setRotationMatrix, Pose.identity, Pose.ofWorldToCamera]⟩
  obtain ⟨a, b, c⟩ := (Verif.Pose.C39_origin _ hrg).2.1 g
  exact ⟨a, c, b⟩

/-- **The pose of a shot** is that of the last image of its rig instance: its rotation, and its position for the origin. -/
theorem C108_pose (topo : ℝ → ℝ → ℝ → Vec 3) (u : Bool) (as : Dict String (List (String × String))) (h1 : AssignedOnce as)
    (cameras : List String) (exif : String → Exif) (l₁ l₂ : List String) (b : String) (hn : (l₁ ++ b :: l₂).Nodup)
    (hc : ∀ a ∈ l₁ ++ b :: l₂, (exif a).camera ∈ cameras) (i c : String) (hb : InRig as exif b i c)
    (hlast : ∀ x ∈ l₂, ∀ c', ¬ InRig as exif x i c')
    (g : Vec 3) (hg : (exifToMetadata topo u (exif b)).gpsPosition = some g) (R : Mat 3)
    (hR : Angles.rotationFromMetadata (exifToMetadata topo u (exif b)).measurements = some R) (hrot : IsRot R)
    (r : Rec) (hr : fromMetadata topo u as cameras exif (l₁ ++ b :: l₂) = some r) :
    (∃ pose, r.rigInstances.get? i = some ⟨pose, [(b, c)]⟩) ∧
    ∀ (a : String) (s : Shot), r.shots.get? a = some s → s.inst = i → ∃ p, shotPose r a = some p ∧ Rigid p ∧ p.wcR = R ∧ p.getOrigin = g := by
  obtain ⟨r', e, inv, h3, -, h5, h6⟩ := run_spec topo u (assignmentsPerImage as) exif cameras _ hn hc
  have : r' = r := by
    have : some r' = some r := e.symm.trans hr
    simpa using this
  subst this
  have hbr := (rigOf_iff as h1 exif b i c).1 hb
  have hi := h5 l₁ l₂ b rfl (by
    intro x hx he
    rw [hbr] at he
    exact hlast x hx (rigOf (assignmentsPerImage as) exif x).2 ((rigOf_iff as h1 exif x _ _).2 (Prod.ext he rfl)))
  rw [hbr] at hi
  simp only [trace, hg, hR] at hi
  obtain ⟨p1, p2, p3⟩ := posed_spec R hrot g
  refine ⟨⟨_, hi⟩, ?_⟩
  intro a s hs hsi
  have hcam : ∃ q, r'.rigCameras.get? s.rigCamera = some q := by
    rw [← Option.isSome_iff_exists, h3]
    rw [h6] at hs
    split at hs
    · rename_i hh
      simp only [Option.some.injEq] at hs
      exact ⟨a, hh.1, by rw [← hs]⟩
    · simp at hs
  obtain ⟨q, hq⟩ := hcam
  obtain rfl := inv.ident _ q hq
  refine ⟨posed (some R) g Pose.identity, ?_, p1, p2, p3⟩
  unfold shotPose
  simp only [hs, hsi, hi, hq]
  rw [(Verif.Pose.C39_group _ _ _ p1 p1 p1).2.2.1]

/-- **An image without position** that comes last in its rig instance puts all shots of the instance to the origin, whatever their positions. -/
theorem C108_reset (topo : ℝ → ℝ → ℝ → Vec 3) (u : Bool) (as : Dict String (List (String × String))) (h1 : AssignedOnce as)
    (cameras : List String) (exif : String → Exif) (l₁ l₂ : List String) (b : String) (hn : (l₁ ++ b :: l₂).Nodup)
    (hc : ∀ a ∈ l₁ ++ b :: l₂, (exif a).camera ∈ cameras) (i c : String) (hb : InRig as exif b i c)
    (hlast : ∀ x ∈ l₂, ∀ c', ¬ InRig as exif x i c')
    (hg : (exifToMetadata topo u (exif b)).gpsPosition = none)
    (r : Rec) (hr : fromMetadata topo u as cameras exif (l₁ ++ b :: l₂) = some r) :
    (∃ pose, r.rigInstances.get? i = some ⟨pose, []⟩) ∧
    ∀ (a : String) (s : Shot), r.shots.get? a = some s → s.inst = i → shotPose r a = some Pose.identity := by
  obtain ⟨r', e, inv, h3, -, h5, h6⟩ := run_spec topo u (assignmentsPerImage as) exif cameras _ hn hc
  have : r' = r := by
    have : some r' = some r := e.symm.trans hr
    simpa using this
  subst this
  have hbr := (rigOf_iff as h1 exif b i c).1 hb
  have hi := h5 l₁ l₂ b rfl (by
    intro x hx he
    rw [hbr] at he
    exact hlast x hx (rigOf (assignmentsPerImage as) exif x).2 ((rigOf_iff as h1 exif x _ _).2 (Prod.ext he rfl)))
  rw [hbr] at hi
  simp only [trace, hg] at hi
  refine ⟨⟨_, hi⟩, ?_⟩
  intro a s hs hsi
  have hcam : ∃ q, r'.rigCameras.get? s.rigCamera = some q := by
    rw [← Option.isSome_iff_exists, h3]
    rw [h6] at hs
    split at hs
    · rename_i hh
      simp only [Option.some.injEq] at hs
      exact ⟨a, hh.1, by rw [← hs]⟩
    · simp at hs
  obtain ⟨q, hq⟩ := hcam
  obtain rfl := inv.ident _ q hq
  unfold shotPose
  simp only [hs, hsi, hi, hq]
  rw [(Verif.Pose.C39_group _ _ _ identity_rigid identity_rigid identity_rigid).2.2.1]

/-- Without rigs every shot has its own position and rotation. -/
theorem C108_alone (topo : ℝ → ℝ → ℝ → Vec 3) (u : Bool) (cameras : List String) (exif : String → Exif) (images : List String) (hn : images.Nodup)
    (hc : ∀ a ∈ images, (exif a).camera ∈ cameras) (a : String) (ha : a ∈ images)
    (g : Vec 3) (hg : (exifToMetadata topo u (exif a)).gpsPosition = some g) (R : Mat 3)
    (hR : Angles.rotationFromMetadata (exifToMetadata topo u (exif a)).measurements = some R) (hrot : IsRot R) :
    ∃ r, fromMetadata topo u [] cameras exif images = some r ∧ ∃ p, shotPose r a = some p ∧ Rigid p ∧ p.wcR = R ∧ p.getOrigin = g := by
  have h1 : AssignedOnce [] := by intro i l i' l' a c c' h; simp at h
  obtain ⟨r, hr, s1, s2, -⟩ := C108_shots topo u [] h1 cameras exif images hn hc
  refine ⟨r, hr, ?_⟩
  obtain ⟨l₁, l₂, he⟩ := List.append_of_mem ha
  subst he
  have hs : ∃ s, r.shots.get? a = some s := by
    rw [← Option.ne_none_iff_exists']
    intro h
    rw [s2 a ha, hg] at h
    simp at h
  obtain ⟨s, hs⟩ := hs
  have hin : s.inst = a := by
    obtain ⟨-, -, h, -⟩ := s1 a s hs
    rcases h with ⟨l, hl, -⟩ | ⟨-, h, -⟩
    · simp at hl
    · exact h
  refine (C108_pose topo u [] h1 cameras exif l₁ l₂ a hn hc a (exif a).camera (Or.inr ⟨by simp, rfl, rfl⟩) ?_ g hg R hR hrot r hr).2 a s hs hin
  intro x hx c' h
  rcases h with ⟨l, hl, -⟩ | ⟨-, h, -⟩
  · simp at hl
  · subst h
    exact (List.nodup_append.1 hn).2.1.notMem hx

/-- An image with an unknown camera makes the whole fail. -/
theorem C108_unknown_camera (topo : ℝ → ℝ → ℝ → Vec 3) (u : Bool) (as : Dict String (List (String × String)))
    (cameras : List String) (exif : String → Exif) (images : List String) (a : String) (ha : a ∈ images) (hc : (exif a).camera ∉ cameras) :
    fromMetadata topo u as cameras exif images = none := by
  have step : ∀ (r r' : Rec) (x : String), addImage topo u (assignmentsPerImage as) exif r x = some r' → r'.cameras = r.cameras := by
    intro r r' x h
    unfold addImage at h
    simp only at h
    have h1 : ∀ r k, (addRigCamera r k).cameras = r.cameras := by intro r k; unfold addRigCamera; split <;> rfl
    have h2 : ∀ (r r' : Rec) x c k i, createShot r x c k i = some r' → r'.cameras = r.cameras := by
      intro r r' x c k i h
      unfold createShot at h
      split at h
      · simp at h
      · split at h
        · simp at h
        · split at h
          · split at h
            · simp at h
            · simp only [Option.some.injEq] at h; rw [← h]
          · simp at h
    have h3 : ∀ (r : Rec) x m, (setMetadata r x m).cameras = r.cameras := by intro r x m; unfold setMetadata; split <;> rfl
    have h4 : ∀ (r r' : Rec) x, removeShot r x = some r' → r'.cameras = r.cameras := by
      intro r r' x h
      unfold removeShot at h
      split at h
      · simp at h
      · split at h
        · simp at h
        · split at h
          · simp at h
          · simp only [Option.some.injEq] at h; rw [← h]
    have h5 : ∀ (r : Rec) x f, (editPose r x f).cameras = r.cameras := by
      intro r x f
      unfold editPose
      split
      · rfl
      · split
        · split <;> rfl
        · rfl
    split at h
    · simp at h
    · rename_i r1 hc1
      have e1 := h2 _ _ _ _ _ _ hc1
      have e2 : (addRigInstance (addRigCamera r (rigOf (assignmentsPerImage as) exif x).2) (rigOf (assignmentsPerImage as) exif x).1).cameras = r.cameras :=
        h1 r _
      split at h
      · rw [h4 _ _ _ h, h3, e1, e2]
      · simp only [Option.some.injEq] at h
        rw [← h, h5, h3, e1, e2]
  have bad : ∀ (r : Rec), r.cameras = cameras → addImage topo u (assignmentsPerImage as) exif r a = none := by
    intro r hr
    unfold addImage
    simp only
    have : createShot (addRigInstance (addRigCamera r (rigOf (assignmentsPerImage as) exif a).2) (rigOf (assignmentsPerImage as) exif a).1) a
        (exif a).camera (rigOf (assignmentsPerImage as) exif a).2 (rigOf (assignmentsPerImage as) exif a).1 = none := by
      have hcm : (addRigInstance (addRigCamera r (rigOf (assignmentsPerImage as) exif a).2) (rigOf (assignmentsPerImage as) exif a).1).cameras = cameras := by
        rw [← hr]
        show (addRigCamera r _).cameras = _
        unfold addRigCamera
        split <;> rfl
      unfold createShot
      rw [hcm, if_pos hc]
      simp
    rw [this]
  have run : ∀ (l : List String) (r : Rec), r.cameras = cameras → a ∈ l → l.foldlM (addImage topo u (assignmentsPerImage as) exif) r = none := by
    intro l
    induction l with
    | nil => intro r _ h; simp at h
    | cons x l ih =>
      intro r hr h
      rw [List.foldlM_cons]
      rcases List.mem_cons.1 h with rfl | h
      · rw [bad r hr]; rfl
      · cases hx : addImage topo u (assignmentsPerImage as) exif r x with
        | none => rfl
        | some r' => exact ih r' ((step r r' x hx).trans hr) h
  exact run images _ rfl ha

/-! ### Examples -/

/-- Images of one camera at a position on a line. -/
def exExif (at' : String → Option ℝ) (a : String) : Exif :=
  ⟨"cam", (at' a).map (fun x => ⟨some x, some 0, none, none⟩), none, none, none, none, none, none⟩

/-- Two images of one rig instance. -/
def exRig : Dict String (List (String × String)) := [("1", [("L", "left"), ("R", "right")])]

theorem exRig_once : AssignedOnce exRig := by
  intro i l i' l' a c c' h1 h2 h3 h4
  simp only [exRig, List.mem_singleton, Prod.mk.injEq] at h1 h3
  obtain ⟨rfl, rfl⟩ := h1
  obtain ⟨rfl, rfl⟩ := h3
  simp only [List.mem_cons, Prod.mk.injEq, List.not_mem_nil, or_false] at h2 h4
  rcases h2 with ⟨rfl, rfl⟩ | ⟨rfl, rfl⟩ <;> rcases h4 with ⟨e, rfl⟩ | ⟨e, rfl⟩
  · exact ⟨rfl, rfl⟩
  · exact absurd e (by decide)
  · exact absurd e (by decide)
  · exact ⟨rfl, rfl⟩

theorem exRotation (topo : ℝ → ℝ → ℝ → Vec 3) (at' : String → Option ℝ) (a : String) :
    ∃ R, Angles.rotationFromMetadata (exifToMetadata topo false (exExif at' a)).measurements = some R ∧ IsRot R := by
  obtain ⟨m, hm⟩ : ∃ m, m = (exifToMetadata topo false (exExif at' a)).measurements := ⟨_, rfl⟩
  obtain ⟨s1, -, s3, s4, s5, -⟩ := C108_measurements topo false (exExif at' a)
  have h1 : m.opk = none := by
    rw [hm]
    show (exifToMetadata topo false (exExif at' a)).opkAngles = none
    rw [Option.eq_none_iff_forall_ne_some]
    rintro ⟨w, p, k⟩ h
    obtain ⟨o, ho, -⟩ := (s1 w p k).1 h
    simp [exExif] at ho
  have h2 : Angles.gravityUp m = some ![0, -1, 0] := by
    have g1 : m.gravityDown = none := by rw [hm]; exact s4
    have g2 : m.orientation = some 1 := by rw [hm]; exact (s3 1).2 (Or.inr ⟨rfl, rfl⟩)
    simp [Angles.gravityUp, g1, g2, Angles.guessGravityUp]
  have h3 : m.compass = none := by rw [hm]; exact s5
  rw [← hm]
  refine ⟨_, (Angles.C106_metadata m).2.1 h1 _ h2 0 (Or.inr ⟨h3, rfl⟩), ?_⟩
  refine (Angles.C106_up_compass _ 0 ?_ ?_ (by norm_num)).1
  · intro h
    have := congrFun h 1
    simp at this
  · have : Angles.levelPart ![0, -1, 0] = 1 := by
      simp [Angles.levelPart]
    rw [this, Real.sqrt_one]
    norm_num

theorem exPosition (topo : ℝ → ℝ → ℝ → Vec 3) (at' : String → Option ℝ) (a : String) (x : ℝ) (h : at' a = some x) :
    (exifToMetadata topo false (exExif at' a)).gpsPosition = some (topo x 0 2) := by
  obtain ⟨alt, acc, h1, -, h2, -⟩ := (C108_position topo false (exExif at' a)).1 ⟨some x, some 0, none, none⟩ x 0 (by simp [exExif, h]) rfl rfl
  rw [h1, h2 rfl]

/-- Left and right camera of a rig 1 apart: the left one is put where the right one is. -/
example : ∃ r, fromMetadata (fun x y z => ![x, y, z]) false exRig ["cam"] (exExif (fun a => if a = "L" then some 0 else some 1)) ["L", "R"] = some r ∧
    ∃ p, shotPose r "L" = some p ∧ p.getOrigin = ![1, 0, 2] := by
  obtain ⟨r, hr, -, hs, -⟩ := C108_shots (fun x y z => ![x, y, z]) false exRig exRig_once ["cam"] (exExif (fun a => if a = "L" then some 0 else some 1))
    ["L", "R"] (by decide) (by intro a _; simp [exExif])
  refine ⟨r, hr, ?_⟩
  obtain ⟨R, hR, hrot⟩ := exRotation (fun x y z => ![x, y, z]) (fun a => if a = "L" then some 0 else some 1) "R"
  have hpos := exPosition (fun x y z => ![x, y, z]) (fun a => if a = "L" then some 0 else some 1) "R" 1 (by rw [if_neg (by decide)])
  have hmain := C108_pose (fun x y z => ![x, y, z]) false exRig exRig_once ["cam"] (exExif (fun a => if a = "L" then some 0 else some 1)) ["L"] [] "R"
    (by decide) (by intro a _; simp [exExif]) "1" "right" (Or.inl ⟨_, List.mem_singleton.2 rfl, by simp⟩) (by simp) _ hpos R hR hrot r hr
  have hex : ∃ s, r.shots.get? "L" = some s := by
    rw [← Option.ne_none_iff_exists']
    intro h
    rw [hs "L" (by simp), exPosition (fun x y z => ![x, y, z]) (fun a => if a = "L" then some 0 else some 1) "L" 0 (by rw [if_pos rfl])] at h
    simp at h
  obtain ⟨s, hs'⟩ := hex
  obtain ⟨r2, hr2, hs2, -⟩ := C108_shots (fun x y z => ![x, y, z]) false exRig exRig_once ["cam"] (exExif (fun a => if a = "L" then some 0 else some 1))
    ["L", "R"] (by decide) (by intro a _; simp [exExif])
  have : r2 = r := by simpa using hr2.symm.trans hr
  subst this
  obtain ⟨-, -, hin, -⟩ := hs2 "L" s hs'
  have hi : s.inst = "1" := by
    rcases hin with ⟨l, hl, -⟩ | ⟨hn, -⟩
    · simp only [exRig, List.mem_singleton, Prod.mk.injEq] at hl
      exact hl.1
    · exact absurd rfl (hn ("1", [("L", "left"), ("R", "right")]) (List.mem_singleton.2 rfl) ("L", "left") (by simp))
  obtain ⟨p, h1, -, -, h4⟩ := hmain.2 "L" s hs' hi
  exact ⟨p, h1, h4⟩

/-- Without a position of the right camera the left one is at the origin, although its position is known. -/
example (r : Rec) (hr : fromMetadata (fun x y z => ![x, y, z]) false exRig ["cam"] (exExif (fun a => if a = "L" then some 7 else none)) ["L", "R"] = some r)
    (s : Shot) (hs : r.shots.get? "L" = some s) (hi : s.inst = "1") : shotPose r "L" = some Pose.identity := by
  refine (C108_reset (fun x y z => ![x, y, z]) false exRig exRig_once ["cam"] (exExif (fun a => if a = "L" then some 7 else none)) ["L"] [] "R"
    (by decide) (by intro a _; simp [exExif]) "1" "right" (Or.inl ⟨_, List.mem_singleton.2 rfl, by simp⟩) (by simp) ?_ r hr).2 "L" s hs hi
  refine ((C108_position _ false _).2 ?_).1
  intro g hg
  simp [exExif] at hg

end Verif.MetadataRec
