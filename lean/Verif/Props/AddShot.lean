import Verif.Lemmas.AddShot
import Mathlib.Algebra.Group.TypeTags.Basic
import Mathlib.Algebra.Group.Int.Defs

/-! # C119: adding an image to a reconstruction -/
namespace Verif.AddShot
open Verif.MapCopy
set_option linter.unusedSectionVars false
set_option linter.unusedSimpArgs false
set_option linter.unusedVariables false

variable {Id A X C K B P D M R : Type} [DecidableEq Id] [Group P]
variable {df : Defaults B C D M R} {exifCamera : Id → Option Id} {metaOf : Id → D}
variable {asg : Dict Id (Id × Id × List Id)} {m m' : FMap Id A X C K B P D M R} {s : Id} {pose : P}
variable {added : List Id}

theorem addRig_iff (a : Id × Id × List Id) (h : asg.get? s = some a) (r : FMap Id A X C K B P D M R × List Id) :
    addShot df exifCamera metaOf asg m s pose = some r ↔ ∃ m1 x rp, r.2 = a.2.2 ∧
      a.2.2.foldlM (addMember df exifCamera metaOf asg a.1) (addRigInstance m a.1) = some m1 ∧
      LoopInv df exifCamera metaOf asg a.1 m a.2.2 m1 ∧ CanAdd m exifCamera asg a.2.2 ∧ s ∈ a.2.2 ∧
      m1.rigInstances.get? a.1 = some x ∧ m.rigCameras.get? a.2.1 = some rp ∧
      r.1 = { m1 with rigInstances := m1.rigInstances.set a.1 { x with pose := rp⁻¹ * pose } } := by
  unfold addShot
  rw [h]
  simp only
  unfold addRig
  cases hf : a.2.2.foldlM (addMember df exifCamera metaOf asg a.1) (addRigInstance m a.1) with
  | none => simp
  | some m1 =>
    simp only
    obtain ⟨hc, _⟩ := fold_needs a.1 a.2.2 _ _ ⟨1, []⟩ (Dict.get?_set_self _ _ _) hf
    have hc' : CanAdd m exifCamera asg a.2.2 := ⟨hc.once, hc.fresh, hc.known, hc.apart⟩
    obtain ⟨m1', e, q⟩ := fold_ok (df := df) (metaOf := metaOf) a.1 a.2.2 m hc'
    rw [hf] at e
    obtain rfl := Option.some.inj e
    obtain ⟨x, x1, x2, x3⟩ := q.inst
    unfold updateInstancePose
    rw [x1]
    simp only
    by_cases hs : s ∈ a.2.2
    · have hm := x3 s hs a h
      obtain ⟨b, cam, f1, _, _, f4⟩ := hc'.known s hs
      rw [h] at f1
      cases f1
      obtain ⟨rp, hrp⟩ := Option.isSome_iff_exists.1 f4
      rw [hm]
      simp only
      have hrp1 : m1.rigCameras.get? a.2.1 = some rp := by rw [q.rigCameras]; exact hrp
      rw [hrp1]
      simp only [Option.map_some]
      constructor
      · intro hr
        obtain rfl := Option.some.inj hr
        exact ⟨m1, x, rp, rfl, rfl, q, hc', hs, x1, hrp, rfl⟩
      · rintro ⟨m2, y, rp', g1, g2, _, _, _, g6, g7, g8⟩
        cases g2
        rw [x1] at g6
        rw [hrp] at g7
        cases g6; cases g7
        rcases r with ⟨r1, r2⟩
        simp only at g1 g8
        rw [g1, g8]
    · have hm : x.members.get? s = none := by
        cases hg : x.members.get? s with
        | none => rfl
        | some v => exact absurd (x2 _ (Dict.mem_of_get? hg)).1 hs
      rw [hm]
      simp [hs]

/-- C119: an image assigned to a rig instance is added exactly when it is among the images of that instance and
all of these are new, once each, with known cameras and with known and distinct rig cameras; otherwise the call
raises. -/
theorem C119_rig_when (i rc : Id) (L : List Id) (h : asg.get? s = some (i, rc, L)) :
    (∃ r, addShot df exifCamera metaOf asg m s pose = some r) ↔ s ∈ L ∧ CanAdd m exifCamera asg L := by
  constructor
  · rintro ⟨r, hr⟩
    obtain ⟨m1, x, rp, _, _, _, c, hs, _⟩ := (addRig_iff _ h r).1 hr
    exact ⟨hs, c⟩
  · rintro ⟨hs, c⟩
    obtain ⟨m1, e, q⟩ := fold_ok (df := df) (metaOf := metaOf) i L m c
    obtain ⟨x, x1, _⟩ := q.inst
    obtain ⟨b, cam, f1, _, _, f4⟩ := c.known s hs
    rw [h] at f1
    cases f1
    obtain ⟨rp, hrp⟩ := Option.isSome_iff_exists.1 f4
    exact ⟨_, (addRig_iff _ h (_, _)).2 ⟨m1, x, rp, rfl, e, q, c, hs, x1, hrp, rfl⟩⟩

/-- C119: then every image of the instance is in the reconstruction, with its camera, rig camera and metadata;
the image asked for has exactly the pose given; the others are where the rig puts them. The images added are
those of the instance. -/
theorem C119_rig (i rc : Id) (L : List Id) (h : asg.get? s = some (i, rc, L))
    (hr : addShot df exifCamera metaOf asg m s pose = some (m', added)) :
    added = L ∧
    (∃ x, m'.shots.get? s = some x ∧ HasPose m' x pose) ∧
    ∀ t ∈ L, ∃ a cam rt rs, asg.get? t = some a ∧ exifCamera t = some cam ∧
      m.rigCameras.get? a.2.1 = some rt ∧ m.rigCameras.get? rc = some rs ∧
      m'.shots.get? t = some ⟨cam, i, a.2.1, metaOf t, df.mesh, [], []⟩ ∧
      HasPose m' ⟨cam, i, a.2.1, metaOf t, df.mesh, [], []⟩ (rt * rs⁻¹ * pose) := by
  obtain ⟨m1, x, rp, h1, h2, q, c, hs, x1, hrp, h3⟩ := (addRig_iff _ h _).1 hr
  simp only at h1 h3
  have all : ∀ t ∈ L, ∃ a cam rt rs, asg.get? t = some a ∧ exifCamera t = some cam ∧
      m.rigCameras.get? a.2.1 = some rt ∧ m.rigCameras.get? rc = some rs ∧
      m'.shots.get? t = some ⟨cam, i, a.2.1, metaOf t, df.mesh, [], []⟩ ∧
      HasPose m' ⟨cam, i, a.2.1, metaOf t, df.mesh, [], []⟩ (rt * rs⁻¹ * pose) := by
    intro t ht
    obtain ⟨a, cam, f1, f2, f3⟩ := q.added t ht
    obtain ⟨a', cam', g1, g2, g3, g4⟩ := c.known t ht
    rw [f1] at g1
    cases g1
    obtain ⟨rt, hrt⟩ := Option.isSome_iff_exists.1 g4
    refine ⟨a, cam, rt, rp, f1, f2, hrt, hrp, ?_, ?_⟩
    · rw [h3]; exact f3
    · refine ⟨{ x with pose := rp⁻¹ * pose }, rt, ?_, ?_, by simp only [mul_assoc]⟩
      · rw [h3]; exact Dict.get?_set_self _ _ _
      · rw [h3]
        show Dict.get? m1.rigCameras _ = _
        rw [q.rigCameras]; exact hrt
  refine ⟨h1, ?_, all⟩
  obtain ⟨a, cam, rt, rs, f1, f2, f3, f4, f5, f6⟩ := all s hs
  rw [h] at f1
  cases f1
  rw [f3] at f4
  cases f4
  exact ⟨_, f5, by simpa using f6⟩

/-- C119: nothing else changes: the other shots are as they were and, unless they point to that very instance,
so are their poses; cameras, rig cameras, pano shots, points and reference are untouched. -/
theorem C119_rig_rest (i rc : Id) (L : List Id) (h : asg.get? s = some (i, rc, L))
    (hr : addShot df exifCamera metaOf asg m s pose = some (m', added)) :
    SameRest m m' ∧ m'.rigCameras = m.rigCameras ∧
    (∀ j, j ≠ i → m'.rigInstances.get? j = m.rigInstances.get? j) ∧
    (∀ t, t ∉ L → m'.shots.get? t = m.shots.get? t) ∧
    ∀ sh p, sh.inst ≠ i → (HasPose m' sh p ↔ HasPose m sh p) := by
  obtain ⟨m1, x, rp, h1, h2, q, c, hs, x1, hrp, h3⟩ := (addRig_iff _ h _).1 hr
  simp only at h1 h3
  have hj : ∀ j, j ≠ i → m'.rigInstances.get? j = m.rigInstances.get? j := by
    intro j hj
    rw [h3]
    exact (Dict.get?_set_ne _ _ (Ne.symm hj)).trans (q.instances j hj)
  have hc : m'.rigCameras = m.rigCameras := by rw [h3]; exact q.rigCameras
  refine ⟨?_, hc, hj, ?_, ?_⟩
  · rw [h3]; exact ⟨q.rest.cameras, q.rest.bias, q.rest.pano, q.rest.landmarks, q.rest.reference⟩
  · intro t ht
    rw [h3]; exact q.others t ht
  · intro sh p hsh
    unfold HasPose
    rw [hj _ hsh, hc]

theorem get_defaultRigCamera (m : FMap Id A X C K B P D M R) (cam : Id) :
    (defaultRigCamera m cam none).rigCameras.get? cam = some ((m.rigCameras.get? cam).getD 1) ∧
    (∀ k v, m.rigCameras.get? k = some v → (defaultRigCamera m cam none).rigCameras.get? k = some v) ∧
    (defaultRigCamera m cam none).rigInstances = m.rigInstances ∧
    (defaultRigCamera m cam none).shots = m.shots ∧ SameRest m (defaultRigCamera m cam none) := by
  unfold defaultRigCamera addRigCamera
  simp only
  cases hk : m.rigCameras.get? cam with
  | some v =>
    have : m.rigCameras.has cam = true := (has_iff _ _).2 ⟨_, hk⟩
    rw [if_pos this]
    exact ⟨hk, fun _ _ h => h, rfl, rfl, ⟨rfl, rfl, rfl, rfl, rfl⟩⟩
  | none =>
    have : m.rigCameras.has cam = false := (has_false_iff _ _).2 hk
    have hne : ¬ (m.rigCameras.has cam = true) := by rw [this]; simp
    rw [if_neg hne, if_neg hne]
    refine ⟨Dict.get?_set_self _ _ _, fun k v h => ?_, rfl, rfl, ⟨rfl, rfl, rfl, rfl, rfl⟩⟩
    rw [Dict.get?_set_ne]
    · exact h
    · rintro rfl
      rw [hk] at h; cases h

theorem get_defaultInstance (m : FMap Id A X C K B P D M R) (s : Id) :
    (defaultInstance m s none).rigInstances.get? s = some ((m.rigInstances.get? s).getD ⟨1, []⟩) ∧
    (∀ j, j ≠ s → (defaultInstance m s none).rigInstances.get? j = m.rigInstances.get? j) ∧
    (defaultInstance m s none).rigCameras = m.rigCameras ∧
    (defaultInstance m s none).shots = m.shots ∧ SameRest m (defaultInstance m s none) := by
  unfold defaultInstance addRigInstance
  simp only
  cases hk : m.rigInstances.get? s with
  | some v =>
    have : m.rigInstances.has s = true := (has_iff _ _).2 ⟨_, hk⟩
    rw [if_pos this]
    exact ⟨hk, fun _ _ => rfl, rfl, rfl, ⟨rfl, rfl, rfl, rfl, rfl⟩⟩
  | none =>
    have : m.rigInstances.has s = false := (has_false_iff _ _).2 hk
    have hne : ¬ (m.rigInstances.has s = true) := by rw [this]; simp
    rw [if_neg hne]
    refine ⟨Dict.get?_set_self _ _ _, fun j h => ?_, rfl, rfl, ⟨rfl, rfl, rfl, rfl, rfl⟩⟩
    exact Dict.get?_set_ne _ _ (Ne.symm h)

theorem addSingle_iff (h : asg.get? s = none) (r : FMap Id A X C K B P D M R × List Id) :
    addShot df exifCamera metaOf asg m s pose = some r ↔ ∃ cam inst, r.2 = [s] ∧ exifCamera s = some cam ∧
      m.shots.get? s = none ∧ (m.cameras.get? cam).isSome ∧
      inst = (m.rigInstances.get? s).getD ⟨1, []⟩ ∧ (∀ e ∈ inst.members, e.2.rigCamera ≠ cam) ∧
      r.1 = { defaultInstance (defaultRigCamera m cam none) s none with
        rigInstances := (defaultInstance (defaultRigCamera m cam none) s none).rigInstances.set s
          ⟨((m.rigCameras.get? cam).getD 1)⁻¹ * pose, inst.members.set s ⟨false, cam⟩⟩
        shots := (m.shots.set s ⟨cam, s, cam, df.attrs, df.mesh, [], []⟩).set s
          ⟨cam, s, cam, metaOf s, df.mesh, [], []⟩ } := by
  unfold addShot
  rw [h]
  simp only
  unfold addSingle
  cases hc : exifCamera s with
  | none => simp
  | some cam =>
    simp only
    obtain ⟨c1, c2, c3, c4, c5⟩ := get_defaultRigCamera m cam
    obtain ⟨d1, d2, d3, d4, d5⟩ := get_defaultInstance (defaultRigCamera m cam none) s
    have hcs : createShot df m s cam pose none none = MapCopy.createShot df
        (defaultInstance (defaultRigCamera m cam none) s none) false s cam cam s pose := by
      unfold createShot
      simp only [Option.getD_none]
      rw [if_pos ((has_iff _ _).2 ⟨_, c1⟩), if_pos ((has_iff _ _).2 ⟨_, d1⟩)]
    rw [hcs]
    rw [c3] at d1
    have key := create_iff (df := df) (defaultInstance (defaultRigCamera m cam none) s none)
    cases hm : MapCopy.createShot df (defaultInstance (defaultRigCamera m cam none) s none) false s cam cam s
        pose with
    | none =>
      simp only [reduceCtorEq, false_iff]
      rintro ⟨cam', inst, _, e2, e3, e4, e5, e6, _⟩
      cases e2
      subst e5
      have := (key _ s cam cam s pose).2 ⟨by rw [d4, c4]; exact e3, by rw [d5.cameras, c5.cameras]; exact e4,
        _, _, d1, by rw [d3]; exact c1, e6, rfl⟩
      rw [hm] at this
      cases this
    | some m1 =>
      obtain ⟨e3, e4, inst, rp, e5, e6, e7, e8⟩ := (key _ s cam cam s pose).1 hm
      rw [d4, c4] at e3
      rw [d5.cameras, c5.cameras] at e4
      rw [d1] at e5
      rw [d3, c1] at e6
      obtain rfl := Option.some.inj e5
      obtain rfl := Option.some.inj e6
      have hasn : assignShot m1 false s (metaOf s) = some { m1 with
          shots := m1.shots.set s ⟨cam, s, cam, metaOf s, df.mesh, [], []⟩ } := by
        unfold assignShot
        have ht : table m1 false = m1.shots := rfl
        have hg : m1.shots.get? s = some ⟨cam, s, cam, df.attrs, df.mesh, [], []⟩ := by rw [e8]; simp
        rw [ht, hg]
        rfl
      simp only [hasn, Option.map_some]
      constructor
      · intro hr
        obtain rfl := Option.some.inj hr
        refine ⟨cam, _, rfl, rfl, e3, e4, rfl, e7, ?_⟩
        simp only [e8, d4, c4]
      · rintro ⟨cam', inst', g1, g2, _, _, g5, _, g7⟩
        cases g2
        subst g5
        rcases r with ⟨r1, r2⟩
        simp only at g1 g7
        simp only [g1, g7, e8, d4, c4]

/-- C119: an image without rig assignment is added exactly when it is new, its EXIF names a camera of the
reconstruction, and, should there be a rig instance of the name of the image, that has no member for this
camera; otherwise the call raises. -/
theorem C119_single_when (h : asg.get? s = none) :
    (∃ r, addShot df exifCamera metaOf asg m s pose = some r) ↔ m.shots.get? s = none ∧
      ∃ cam, exifCamera s = some cam ∧ (m.cameras.get? cam).isSome ∧
        ∀ inst, m.rigInstances.get? s = some inst → ∀ e ∈ inst.members, e.2.rigCamera ≠ cam := by
  constructor
  · rintro ⟨r, hr⟩
    obtain ⟨cam, inst, _, e2, e3, e4, e5, e6, _⟩ := (addSingle_iff h r).1 hr
    refine ⟨e3, cam, e2, e4, fun inst' hi => ?_⟩
    rw [hi] at e5
    subst e5
    exact e6
  · rintro ⟨e3, cam, e2, e4, e6⟩
    refine ⟨(_, _), (addSingle_iff h _).2 ⟨cam, _, rfl, e2, e3, e4, rfl, ?_, rfl⟩⟩
    cases hi : m.rigInstances.get? s with
    | none => simp
    | some inst => exact e6 inst hi

/-- C119: then it has the pose given, its camera, its metadata, a rig instance of its own name and the rig
camera of the name of its camera, made at the identity if there was none; other shots stay, and so do their
poses unless they point to a rig instance of the name of the image; the rest of the reconstruction is untouched. -/
theorem C119_single (h : asg.get? s = none)
    (hr : addShot df exifCamera metaOf asg m s pose = some (m', added)) :
    added = [s] ∧
    (∃ cam, exifCamera s = some cam ∧ m'.shots.get? s = some ⟨cam, s, cam, metaOf s, df.mesh, [], []⟩ ∧
      HasPose m' ⟨cam, s, cam, metaOf s, df.mesh, [], []⟩ pose ∧
      m'.rigCameras.get? cam = some ((m.rigCameras.get? cam).getD 1)) ∧
    SameRest m m' ∧
    (∀ k v, m.rigCameras.get? k = some v → m'.rigCameras.get? k = some v) ∧
    (∀ t, t ≠ s → m'.shots.get? t = m.shots.get? t) ∧
    (∀ j, j ≠ s → m'.rigInstances.get? j = m.rigInstances.get? j) ∧
    ∀ sh p, sh.inst ≠ s → HasPose m sh p → HasPose m' sh p := by
  obtain ⟨cam, inst, e1, e2, e3, e4, e5, e6, e7⟩ := (addSingle_iff h _).1 hr
  simp only at e1 e7
  obtain ⟨c1, c2, c3, c4, c5⟩ := get_defaultRigCamera m cam
  obtain ⟨d1, d2, d3, d4, d5⟩ := get_defaultInstance (defaultRigCamera m cam none) s
  have hrc : ∀ k, m'.rigCameras.get? k = (defaultRigCamera m cam none).rigCameras.get? k := by
    intro k; rw [e7]
    show Dict.get? (defaultInstance (defaultRigCamera m cam none) s none).rigCameras k = _
    rw [d3]
  have hri : ∀ j, j ≠ s → m'.rigInstances.get? j = m.rigInstances.get? j := by
    intro j hj
    rw [e7]
    show Dict.get? (Dict.set _ s _) j = _
    rw [Dict.get?_set_ne _ _ (Ne.symm hj), d2 j hj, c3]
  have hk : ∀ k v, m.rigCameras.get? k = some v → m'.rigCameras.get? k = some v :=
    fun k v hv => (hrc k).trans (c2 k v hv)
  refine ⟨e1, ⟨cam, e2, ?_,
    ⟨⟨((m.rigCameras.get? cam).getD 1)⁻¹ * pose, inst.members.set s ⟨false, cam⟩⟩, (m.rigCameras.get? cam).getD 1,
      ?_, (hrc _).trans c1, ?_⟩, (hrc _).trans c1⟩, ?_, hk, ?_, hri, ?_⟩
  · rw [e7]; exact Dict.get?_set_self _ _ _
  · rw [e7]; exact Dict.get?_set_self _ _ _
  · simp
  · rw [e7]
    exact ⟨d5.cameras.trans c5.cameras, d5.bias.trans c5.bias, d5.pano.trans c5.pano,
      d5.landmarks.trans c5.landmarks, d5.reference.trans c5.reference⟩
  · intro t ht
    rw [e7]
    show Dict.get? (Dict.set (Dict.set _ s _) s _) t = _
    rw [Dict.get?_set_ne _ _ (Ne.symm ht), Dict.get?_set_ne _ _ (Ne.symm ht)]
  · rintro sh p hsh ⟨i, rp, f1, f2, f3⟩
    exact ⟨i, rp, (hri _ hsh).trans f1, hk _ _ f2, f3⟩

theorem assignments_from (assignments : Dict Id (List (Id × Id))) {t : Id} {a : Id × Id × List Id}
    (h : (assignmentsPerImage assignments).get? t = some a) :
    ∃ inst, (a.1, inst) ∈ assignments ∧ (t, a.2.1) ∈ inst ∧ a.2.2 = inst.map (·.1) := by
  have inner : ∀ (i : Id) (names : List Id) (l : List (Id × Id)) (d : Dict Id (Id × Id × List Id)),
      Dict.get? (l.foldl (fun d s => Dict.set d s.1 (i, s.2, names)) d) t = some a →
      Dict.get? d t = some a ∨ (a.1 = i ∧ (t, a.2.1) ∈ l ∧ a.2.2 = names) := by
    intro i names l
    induction l with
    | nil => intro d h; exact Or.inl h
    | cons x l ih =>
      intro d h
      rw [List.foldl_cons] at h
      rcases ih _ h with h | ⟨h1, h2, h3⟩
      · rw [Dict.get?_set] at h
        split at h
        · rename_i hx
          cases h
          right
          refine ⟨rfl, ?_, rfl⟩
          rw [← hx]
          exact List.mem_cons_self
        · exact Or.inl h
      · exact Or.inr ⟨h1, List.mem_cons_of_mem _ h2, h3⟩
  have outer : ∀ (L : Dict Id (List (Id × Id))) (d : Dict Id (Id × Id × List Id)),
      Dict.get? (L.foldl (fun d inst => inst.2.foldl
        (fun d s => Dict.set d s.1 (inst.1, s.2, inst.2.map (·.1))) d) d) t = some a →
      Dict.get? d t = some a ∨ ∃ inst, (a.1, inst) ∈ L ∧ (t, a.2.1) ∈ inst ∧ a.2.2 = inst.map (·.1) := by
    intro L
    induction L with
    | nil => intro d h; exact Or.inl h
    | cons x L ih =>
      intro d h
      rw [List.foldl_cons] at h
      rcases ih _ h with h | ⟨inst, h1, h2, h3⟩
      · rcases inner _ _ _ _ h with h | ⟨h1, h2, h3⟩
        · exact Or.inl h
        · right
          refine ⟨x.2, ?_, h2, h3⟩
          rw [h1]
          exact List.mem_cons_self
      · exact Or.inr ⟨inst, List.mem_cons_of_mem _ h1, h2, h3⟩
  rcases outer assignments [] h with h | h
  · cases h
  · exact h

/-- C119: the assignment of an image, as read from the rig assignments file: the instance, one of the rig cameras
given to the image there, and all images of the instance, the image itself among them. -/
theorem C119_assigned (assignments : Dict Id (List (Id × Id))) {t i rc : Id} {L : List Id}
    (h : (assignmentsPerImage assignments).get? t = some (i, rc, L)) :
    t ∈ L ∧ ∃ inst, (i, inst) ∈ assignments ∧ (t, rc) ∈ inst ∧ L = inst.map (·.1) := by
  obtain ⟨inst, h1, h2, h3⟩ := assignments_from assignments h
  refine ⟨?_, inst, h1, h2, h3⟩
  simp only at h3
  rw [h3]
  exact List.mem_map.2 ⟨_, h2, rfl⟩

/-- C119: an image named in the rig assignments file has an assignment. -/
theorem C119_assigned_all (assignments : Dict Id (List (Id × Id))) {t : Id} (i : Id) (inst : List (Id × Id))
    (rc : Id) (hi : (i, inst) ∈ assignments) (ht : (t, rc) ∈ inst) :
    ((assignmentsPerImage assignments).get? t).isSome := by
  have keep : ∀ (i : Id) (names : List Id) (l : List (Id × Id)) (d : Dict Id (Id × Id × List Id)),
      ((Dict.get? d t).isSome ∨ ∃ rc, (t, rc) ∈ l) →
      (Dict.get? (l.foldl (fun d s => Dict.set d s.1 (i, s.2, names)) d) t).isSome := by
    intro i names l
    induction l with
    | nil =>
      rintro d (h | ⟨_, h⟩)
      · exact h
      · cases h
    | cons x l ih =>
      intro d h
      rw [List.foldl_cons]
      by_cases hx : x.1 = t
      · refine ih _ (Or.inl ?_)
        rw [Dict.get?_set, if_pos hx]; rfl
      · rcases h with h | ⟨rc, h⟩
        · refine ih _ (Or.inl ?_)
          rw [Dict.get?_set, if_neg hx]; exact h
        · rcases List.mem_cons.1 h with h | h
          · exact absurd (by rw [← h]) hx
          · exact ih _ (Or.inr ⟨rc, h⟩)
  have outer : ∀ (L : Dict Id (List (Id × Id))) (d : Dict Id (Id × Id × List Id)),
      ((Dict.get? d t).isSome ∨ (i, inst) ∈ L) →
      (Dict.get? (L.foldl (fun d inst => inst.2.foldl
        (fun d s => Dict.set d s.1 (inst.1, s.2, inst.2.map (·.1))) d) d) t).isSome := by
    intro L
    induction L with
    | nil =>
      rintro d (h | h)
      · exact h
      · cases h
    | cons x L ih =>
      intro d h
      rw [List.foldl_cons]
      rcases h with h | h
      · exact ih _ (Or.inl (keep _ _ _ _ (Or.inl h)))
      · rcases List.mem_cons.1 h with h | h
        · exact ih _ (Or.inl (keep _ _ _ _ (Or.inr ⟨rc, by rw [← h]; exact ht⟩)))
        · exact ih _ (Or.inr h)
  exact outer assignments [] (Or.inr hi)

theorem added_shot (hr : addShot df exifCamera metaOf asg m s pose = some (m', added)) :
    ∃ x, m'.shots.get? s = some x ∧ HasPose m' x pose ∧
      (asg.get? s = none → x.inst = s ∧ added = [s]) ∧
      (∀ a, asg.get? s = some a → x.inst = a.1 ∧ added = a.2.2 ∧ s ∈ a.2.2) := by
  cases h : asg.get? s with
  | none =>
    obtain ⟨e1, ⟨cam, _, e2, e3, _⟩, _⟩ := C119_single h hr
    exact ⟨_, e2, e3, fun _ => ⟨rfl, e1⟩, fun a ha => by cases ha⟩
  | some a =>
    obtain ⟨i, rc, L⟩ := a
    obtain ⟨e1, ⟨x, e2, e3⟩, e4⟩ := C119_rig i rc L h hr
    obtain ⟨hs, _⟩ := (C119_rig_when i rc L h).1 ⟨_, hr⟩
    obtain ⟨a, cam, rt, rs, _, _, _, _, f5, _⟩ := e4 s hs
    rw [e2] at f5
    cases f5
    refine ⟨_, e2, e3, ⟨(fun hn => by cases hn), fun a ha => ?_⟩⟩
    cases ha
    exact ⟨rfl, e1, hs⟩

theorem addShot_keeps (hr : addShot df exifCamera metaOf asg m s pose = some (m', added)) {t : Id}
    {x : FShot Id A D M} {p : P} (hx : m.shots.get? t = some x) (hp : HasPose m x p)
    (ht : t ∉ added) (hi : (asg.get? s = none → x.inst ≠ s) ∧ ∀ a, asg.get? s = some a → x.inst ≠ a.1) :
    m'.shots.get? t = some x ∧ HasPose m' x p := by
  cases h : asg.get? s with
  | none =>
    obtain ⟨e1, _, _, _, e5, _, e7⟩ := C119_single h hr
    rw [e1] at ht
    exact ⟨(e5 t (by simpa using ht)).trans hx, e7 x p (hi.1 h) hp⟩
  | some a =>
    obtain ⟨i, rc, L⟩ := a
    obtain ⟨e1, _⟩ := C119_rig i rc L h hr
    obtain ⟨_, _, _, e4, e5⟩ := C119_rig_rest i rc L h hr
    rw [e1] at ht
    exact ⟨(e4 t ht).trans hx, (e5 x p (hi.2 _ h)).2 hp⟩

/-- C119: the first two images of a reconstruction, when neither is outside the rigs with the name of a rig
instance: the first is at the origin and the second has the relative pose given, or comes with the first as a
member of its rig instance. -/
theorem C119_pair {assignments : Dict Id (List (Id × Id))} (hw : assignments.Wf) {im1 im2 : Id}
    (hn : ∀ t, t = im1 ∨ t = im2 → (assignmentsPerImage assignments).get? t = none → t ∉ assignments.keys)
    (h : addPair df exifCamera metaOf (assignmentsPerImage assignments) m im1 im2 pose = some (m', added)) :
    im1 ∈ added ∧ im2 ∈ added ∧
    (∃ x, m'.shots.get? im1 = some x ∧ HasPose m' x 1) ∧
    ((∃ i rc L, (assignmentsPerImage assignments).get? im1 = some (i, rc, L) ∧ im2 ∈ L) ∨ im2 = im1 ∨
      ∃ x, m'.shots.get? im2 = some x ∧ HasPose m' x pose) := by
  obtain ⟨asg, hasg⟩ : ∃ asg, asg = assignmentsPerImage assignments := ⟨_, rfl⟩
  rw [← hasg] at h hn ⊢
  have hk : ∀ t a, asg.get? t = some a → a.1 ∈ assignments.keys := by
    intro t a ha
    rw [hasg] at ha
    obtain ⟨inst, h1, _⟩ := assignments_from assignments ha
    exact List.mem_map.2 ⟨_, h1, rfl⟩
  have hsame : ∀ t u a b, asg.get? t = some a → asg.get? u = some b → a.1 = b.1 → a.2.2 = b.2.2 := by
    intro t u a b ha hb hab
    rw [hasg] at ha hb
    obtain ⟨i1, h1, _, h3⟩ := assignments_from assignments ha
    obtain ⟨i2, g1, _, g3⟩ := assignments_from assignments hb
    have e1 := Dict.get?_of_mem hw h1
    have e2 := Dict.get?_of_mem hw g1
    rw [hab, e2] at e1
    cases e1
    rw [h3, g3]
  unfold addPair at h
  cases h1 : addShot df exifCamera metaOf asg m im1 1 with
  | none => rw [h1] at h; cases h
  | some r =>
    obtain ⟨m1, ad1⟩ := r
    rw [h1] at h
    simp only at h
    obtain ⟨x, x1, x2, x3, x4⟩ := added_shot h1
    have hmem1 : im1 ∈ ad1 := by
      cases ha : asg.get? im1 with
      | none => rw [(x3 ha).2]; simp
      | some a => rw [(x4 a ha).2.1]; exact (x4 a ha).2.2
    split at h
    · rename_i hin
      cases h
      refine ⟨hmem1, hin, ⟨x, x1, x2⟩, ?_⟩
      cases ha : asg.get? im1 with
      | none =>
        rw [(x3 ha).2] at hin
        exact Or.inr (Or.inl (by simpa using hin))
      | some a =>
        rw [(x4 a ha).2.1] at hin
        exact Or.inl ⟨a.1, a.2.1, a.2.2, rfl, hin⟩
    · rename_i hin
      cases h2 : addShot df exifCamera metaOf asg m1 im2 pose with
      | none => rw [h2] at h; cases h
      | some q =>
        obtain ⟨m2, ad2⟩ := q
        rw [h2] at h
        simp only [Option.map_some] at h
        cases h
        obtain ⟨y, y1, y2, y3, y4⟩ := added_shot h2
        have hmem2 : im2 ∈ ad2 := by
          cases ha : asg.get? im2 with
          | none => rw [(y3 ha).2]; simp
          | some a => rw [(y4 a ha).2.1]; exact (y4 a ha).2.2
        have hne : im1 ≠ im2 := fun e => hin (e ▸ hmem1)
        have hnot : im1 ∉ ad2 := by
          cases ha : asg.get? im2 with
          | none => rw [(y3 ha).2]; simpa using hne
          | some a =>
            obtain ⟨i, rc, L⟩ := a
            obtain ⟨_, c⟩ := (C119_rig_when i rc L ha).1 ⟨_, h2⟩
            rw [(y4 _ ha).2.1]
            intro hm
            have := c.fresh im1 hm
            rw [x1] at this
            cases this
        have ha1 : asg.get? im2 = none → x.inst ≠ im2 := by
          intro hnone
          cases ha : asg.get? im1 with
          | none => rw [(x3 ha).1]; exact hne
          | some a =>
            rw [(x4 a ha).1]
            intro e
            exact hn im2 (Or.inr rfl) hnone (e ▸ hk _ _ ha)
        have ha2 : ∀ b, asg.get? im2 = some b → x.inst ≠ b.1 := by
          intro b hb
          cases ha : asg.get? im1 with
          | none =>
            rw [(x3 ha).1]
            intro e
            exact hn im1 (Or.inl rfl) ha (e ▸ hk _ _ hb)
          | some a =>
            rw [(x4 a ha).1]
            intro e
            have := hsame _ _ _ _ ha hb e
            apply hin
            rw [(x4 a ha).2.1, this]
            exact (y4 b hb).2.2
        obtain ⟨z1, z2⟩ := addShot_keeps h2 x1 x2 hnot ⟨ha1, ha2⟩
        exact ⟨by simp [hmem1], by simp [hmem2], ⟨x, z1, z2⟩, Or.inr (Or.inr ⟨y, y1, y2⟩)⟩

/-! ## Concrete cases -/

/-- Maps of the examples: poses are integers (moves along a line). -/
abbrev NMap := FMap ℕ Unit Unit ℕ ℕ ℕ (Multiplicative ℤ) ℕ ℕ Unit

/-- The defaults of the examples. -/
def exDf : Defaults ℕ ℕ ℕ ℕ Unit := ⟨0, 0, 0, 0, ()⟩

/-- A position on the line. -/
abbrev at' (z : ℤ) : Multiplicative ℤ := Multiplicative.ofAdd z

/-- Camera 1, rig cameras 11 at 0 and 12 at 3. -/
def exStart : NMap := ⟨[(1, 7)], [(1, 0)], [(11, at' 0), (12, at' 3)], [], [], [], [], ()⟩

/-- Images 21 and 22 are instance 5. -/
def exAssign : Dict ℕ (List (ℕ × ℕ)) := [(5, [(21, 11), (22, 12)])]

/-- A rig: asked to put 22 at 10, its mate 21 ends at 7. -/
example : ∃ m' : NMap, addShot exDf (fun _ => some 1) (fun t => t) (assignmentsPerImage exAssign) exStart 22 (at' 10) =
    some (m', [21, 22]) ∧ m'.shots = [(21, ⟨1, 5, 11, 21, 0, [], []⟩), (22, ⟨1, 5, 12, 22, 0, [], []⟩)] ∧
    m'.rigInstances.map (fun e => (e.1, e.2.pose)) = [(5, at' 7)] := by
  refine ⟨_, rfl, rfl, rfl⟩

/-- The hypotheses of `C119_rig_when` hold of it. -/
example : (assignmentsPerImage exAssign).get? 22 = some (5, 12, [21, 22]) ∧
    CanAdd exStart (fun _ => some 1) (assignmentsPerImage exAssign) [21, 22] := by
  refine ⟨rfl, ⟨by decide, by decide, ?_, ?_⟩⟩
  · intro t ht
    rcases List.mem_cons.1 ht with rfl | ht
    · exact ⟨(5, 11, [21, 22]), 1, rfl, rfl, rfl, rfl⟩
    · rcases List.mem_cons.1 ht with rfl | ht
      · exact ⟨(5, 12, [21, 22]), 1, rfl, rfl, rfl, rfl⟩
      · cases ht
  · intro t ht u hu a b ha hb hab
    rcases List.mem_cons.1 ht with rfl | ht
    · rcases List.mem_cons.1 hu with rfl | hu
      · rfl
      · rcases List.mem_cons.1 hu with rfl | hu
        · cases ha; cases hb; cases hab
        · cases hu
    · rcases List.mem_cons.1 ht with rfl | ht
      · rcases List.mem_cons.1 hu with rfl | hu
        · cases ha; cases hb; cases hab
        · rcases List.mem_cons.1 hu with rfl | hu
          · rfl
          · cases hu
      · cases ht

/-- The first two images: 21 brings 22 along; 30 is put where it should be. -/
example : ∃ m' : NMap, addPair exDf (fun _ => some 1) (fun t => t) (assignmentsPerImage exAssign) exStart 21 30 (at' 4) =
    some (m', [21, 22, 30]) ∧ m'.rigInstances.map (fun e => (e.1, e.2.pose)) = [(5, at' 0), (30, at' 4)] ∧
    m'.rigCameras = [(11, at' 0), (12, at' 3), (1, at' 0)] := by
  refine ⟨_, rfl, rfl, rfl⟩

/-- The hypotheses of `C119_pair` hold of it. -/
example : Dict.Wf exAssign ∧ ∀ t, t = 21 ∨ t = 30 → (assignmentsPerImage exAssign).get? t = none →
    t ∉ exAssign.keys := by
  refine ⟨by unfold Dict.Wf; decide, ?_⟩
  rintro t (rfl | rfl) _ <;> decide

/-- C119: without the condition on names this fails: adding an image that has the name of the rig instance of
another moves the other. -/
theorem C119_name_clash : ∃ (m m' : NMap) (asg : Dict ℕ (ℕ × ℕ × List ℕ)) (x : FShot ℕ Unit ℕ ℕ) (p q : Multiplicative ℤ),
    asg.get? 5 = none ∧ addShot exDf (fun _ => some 1) (fun t => t) asg m 5 (at' 100) = some (m', [5]) ∧
    m.shots.get? 21 = some x ∧ m'.shots.get? 21 = some x ∧ HasPose m x p ∧ HasPose m' x q ∧ p ≠ q := by
  refine ⟨⟨[(1, 7)], [(1, 0)], [(11, at' 0), (12, at' 3)], [(5, ⟨at' 7, [(21, ⟨false, 11⟩), (22, ⟨false, 12⟩)]⟩)],
      [(21, ⟨1, 5, 11, 21, 0, [], []⟩), (22, ⟨1, 5, 12, 22, 0, [], []⟩)], [], [], ()⟩,
    ⟨[(1, 7)], [(1, 0)], [(11, at' 0), (12, at' 3), (1, at' 0)],
      [(5, ⟨at' 100, [(21, ⟨false, 11⟩), (22, ⟨false, 12⟩), (5, ⟨false, 1⟩)]⟩)],
      [(21, ⟨1, 5, 11, 21, 0, [], []⟩), (22, ⟨1, 5, 12, 22, 0, [], []⟩), (5, ⟨1, 5, 1, 5, 0, [], []⟩)], [], [], ()⟩,
    assignmentsPerImage exAssign, ⟨1, 5, 11, 21, 0, [], []⟩, at' 7, at' 100, rfl, rfl, rfl, rfl,
    ⟨_, _, rfl, rfl, rfl⟩, ⟨_, _, rfl, rfl, rfl⟩, by decide⟩

end Verif.AddShot
