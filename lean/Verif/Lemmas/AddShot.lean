import Verif.Lemmas.MapCopy
import Verif.Model.AddShot
import Verif.Spec.AddShot

/-! Lemmas for C119. -/
namespace Verif.AddShot
open Verif.MapCopy
set_option linter.unusedSectionVars false
set_option linter.unusedSimpArgs false

variable {Id A X C K B P D M R : Type} [DecidableEq Id] [Group P]
variable {df : Defaults B C D M R} {exifCamera : Id → Option Id} {metaOf : Id → D}
variable {asg : Dict Id (Id × Id × List Id)}

theorem create_iff (m m' : FMap Id A X C K B P D M R) (s cam rc i : Id) (pose : P) :
    MapCopy.createShot df m false s cam rc i pose = some m' ↔
      m.shots.get? s = none ∧ (m.cameras.get? cam).isSome ∧ ∃ inst rp, m.rigInstances.get? i = some inst ∧
        m.rigCameras.get? rc = some rp ∧ (∀ e ∈ inst.members, e.2.rigCamera ≠ rc) ∧
        m' = { m with
          rigInstances := m.rigInstances.set i ⟨rp⁻¹ * pose, inst.members.set s ⟨false, rc⟩⟩
          shots := m.shots.set s ⟨cam, i, rc, df.attrs, df.mesh, [], []⟩ } := by
  unfold MapCopy.createShot
  have ht : table m false = m.shots := rfl
  rw [ht]
  by_cases h0 : m.shots.has s = true
  · rw [if_pos h0]
    obtain ⟨v, hv⟩ := (has_iff _ _).1 h0
    simp [hv]
  · rw [if_neg h0]
    have h0' : m.shots.get? s = none := (has_false_iff _ _).1 (by simpa using h0)
    cases h1 : m.cameras.get? cam with
    | none => simp
    | some k =>
      cases h2 : m.rigInstances.get? i with
      | none => simp
      | some inst =>
        cases h3 : m.rigCameras.get? rc with
        | none => simp
        | some rp =>
          simp only
          by_cases h4 : inst.members.any (fun e => decide (e.2.rigCamera = rc)) = true
          · rw [if_pos h4]
            constructor
            · intro h; cases h
            · rintro ⟨_, _, inst', rp', e1, e2, hn, _⟩
              obtain ⟨e, he, hd⟩ := List.any_eq_true.1 h4
              cases e1
              exact absurd (by simpa using hd) (hn e he)
          · rw [if_neg h4]
            have hn : ∀ e ∈ inst.members, e.2.rigCamera ≠ rc := by
              intro e he hc
              exact h4 (List.any_eq_true.2 ⟨e, he, by simpa using hc⟩)
            constructor
            · intro h
              refine ⟨h0', rfl, inst, rp, rfl, rfl, hn, ?_⟩
              exact (Option.some.inj h).symm
            · rintro ⟨_, _, inst', rp', e1, e2, _, e3⟩
              cases e1; cases e2
              rw [e3]; rfl

theorem addMember_iff (i : Id) (m m' : FMap Id A X C K B P D M R) (t : Id) :
    addMember df exifCamera metaOf asg i m t = some m' ↔
      ∃ a cam inst rp, asg.get? t = some a ∧ exifCamera t = some cam ∧ m.shots.get? t = none ∧
        (m.cameras.get? cam).isSome ∧ m.rigInstances.get? i = some inst ∧
        m.rigCameras.get? a.2.1 = some rp ∧ (∀ e ∈ inst.members, e.2.rigCamera ≠ a.2.1) ∧
        m' = { m with
          rigInstances := m.rigInstances.set i ⟨rp⁻¹ * 1, inst.members.set t ⟨false, a.2.1⟩⟩
          shots := (m.shots.set t ⟨cam, i, a.2.1, df.attrs, df.mesh, [], []⟩).set t
            ⟨cam, i, a.2.1, metaOf t, df.mesh, [], []⟩ } := by
  unfold addMember
  cases ha : asg.get? t with
  | none => simp
  | some a =>
    cases hc : exifCamera t with
    | none => simp
    | some cam =>
      simp only
      have key : createShot df m t cam 1 (some a.2.1) (some i) =
          if m.rigCameras.has a.2.1 then
            if m.rigInstances.has i then MapCopy.createShot df m false t cam a.2.1 i 1 else none
          else none := rfl
      rw [key]
      have base : ∀ m1, (if m.rigCameras.has a.2.1 then
            if m.rigInstances.has i then MapCopy.createShot df m false t cam a.2.1 i 1 else none
          else none) = some m1 ↔ MapCopy.createShot df m false t cam a.2.1 i 1 = some m1 := by
        intro m1
        constructor
        · intro h
          split at h
          · split at h
            · exact h
            · cases h
          · cases h
        · intro h
          obtain ⟨_, _, inst, rp, e1, e2, _⟩ := (create_iff _ _ _ _ _ _ _).1 h
          rw [if_pos ((has_iff _ _).2 ⟨_, e2⟩), if_pos ((has_iff _ _).2 ⟨_, e1⟩)]
          exact h
      generalize (if m.rigCameras.has a.2.1 then
            if m.rigInstances.has i then MapCopy.createShot df m false t cam a.2.1 i 1 else none
          else none) = o at base
      have asn : ∀ m1, MapCopy.createShot df m false t cam a.2.1 i 1 = some m1 →
          assignShot m1 false t (metaOf t) = some { m1 with
            shots := m1.shots.set t ⟨cam, i, a.2.1, metaOf t, df.mesh, [], []⟩ } := by
        intro m1 h
        obtain ⟨_, _, inst, rp, e1, e2, _, e3⟩ := (create_iff _ _ _ _ _ _ _).1 h
        unfold assignShot
        have ht : table m1 false = m1.shots := rfl
        have hg : m1.shots.get? t = some ⟨cam, i, a.2.1, df.attrs, df.mesh, [], []⟩ := by
          rw [e3]; simp
        rw [ht, hg]
        rfl
      cases o with
      | none =>
        simp only [reduceCtorEq, false_iff]
        rintro ⟨a', cam', inst, rp, e1, e2, e3, e4, e5, e6, e7, _⟩
        cases e1; cases e2
        have := (base _).2 ((create_iff (df := df) m _ t cam a.2.1 i 1).2 ⟨e3, e4, inst, rp, e5, e6, e7, rfl⟩)
        cases this
      | some m1 =>
        have h1 := (base m1).1 rfl
        have h2 := asn m1 h1
        simp only [h2]
        obtain ⟨e3, e4, inst, rp, e5, e6, e7, e8⟩ := (create_iff _ _ _ _ _ _ _).1 h1
        constructor
        · intro h
          refine ⟨a, cam, inst, rp, rfl, rfl, e3, e4, e5, e6, e7, ?_⟩
          rw [← Option.some.inj h, e8]
        · rintro ⟨a', cam', inst', rp', f1, f2, _, _, f5, f6, _, f8⟩
          cases f1; cases f2
          rw [e5] at f5; rw [e6] at f6
          cases f5; cases f6
          rw [f8, e8]

/-- When the loop succeeds, the images could be added. -/
theorem fold_needs (i : Id) (L : List Id) : ∀ (m m' : FMap Id A X C K B P D M R) (inst : FInst Id P),
    m.rigInstances.get? i = some inst →
    L.foldlM (addMember df exifCamera metaOf asg i) m = some m' →
    CanAdd m exifCamera asg L ∧ ∀ t ∈ L, ∀ a, asg.get? t = some a → ∀ e ∈ inst.members,
      (m.shots.get? e.1).isSome → e.2.rigCamera ≠ a.2.1 := by
  induction L with
  | nil =>
    intro m m' inst _ _
    exact ⟨⟨List.nodup_nil, by simp, by simp, by simp⟩, by simp⟩
  | cons t L ih =>
    intro m m' inst hi h
    rw [List.foldlM_cons] at h
    cases h1 : addMember df exifCamera metaOf asg i m t with
    | none => rw [h1] at h; cases h
    | some m1 =>
      rw [h1] at h
      have h' : L.foldlM (addMember df exifCamera metaOf asg i) m1 = some m' := h
      obtain ⟨a, cam, inst', rp, e1, e2, e3, e4, e5, e6, e7, e8⟩ := (addMember_iff _ _ _ _).1 h1
      rw [hi] at e5
      cases e5
      have hs : ∀ u, m1.shots.get? u = if t = u then some ⟨cam, i, a.2.1, metaOf t, df.mesh, [], []⟩
          else m.shots.get? u := by
        intro u
        rw [e8]
        show Dict.get? (Dict.set (Dict.set m.shots t _) t _) u = _
        rw [Dict.get?_set, Dict.get?_set]
        split <;> rfl
      obtain ⟨c, d⟩ := ih m1 m' ⟨rp⁻¹ * 1, inst.members.set t ⟨false, a.2.1⟩⟩ (by rw [e8]; simp) h'
      have ht : t ∉ L := by
        intro hm
        have := c.fresh t hm
        rw [hs] at this
        simp at this
      have hmem : ∀ u ∈ L, ∀ b, asg.get? u = some b → a.2.1 ≠ b.2.1 := by
        intro u hu b hb
        refine d u hu b hb (t, ⟨false, a.2.1⟩) (Dict.mem_of_get? (by simp)) ?_
        simp [hs]
      refine ⟨⟨List.nodup_cons.2 ⟨ht, c.once⟩, ?_, ?_, ?_⟩, ?_⟩
      · intro u hu
        rcases List.mem_cons.1 hu with rfl | hu
        · exact e3
        · have := c.fresh u hu
          rw [hs] at this
          split at this
          · cases this
          · exact this
      · intro u hu
        rcases List.mem_cons.1 hu with rfl | hu
        · exact ⟨a, cam, e1, e2, e4, by rw [e6]; rfl⟩
        · obtain ⟨b, cb, f1, f2, f3, f4⟩ := c.known u hu
          refine ⟨b, cb, f1, f2, ?_, ?_⟩
          · rw [e8] at f3; exact f3
          · rw [e8] at f4; exact f4
      · intro u hu v hv b b' hb hb' heq
        rcases List.mem_cons.1 hu with hu1 | hu1
        · rcases List.mem_cons.1 hv with hv1 | hv1
          · rw [hu1, hv1]
          · rw [hu1, e1] at hb; cases hb
            exact absurd heq (hmem v hv1 b' hb')
        · rcases List.mem_cons.1 hv with hv1 | hv1
          · rw [hv1, e1] at hb'; cases hb'
            exact absurd heq.symm (hmem u hu1 b hb)
          · exact c.apart u hu1 v hv1 b b' hb hb' heq
      · intro u hu b hb e he hsome
        rcases List.mem_cons.1 hu with rfl | hu
        · rw [e1] at hb; cases hb
          exact e7 e he
        · have hne : t ≠ e.1 := by
            intro hc
            rw [← hc, e3] at hsome
            cases hsome
          refine d u hu b hb e ?_ ?_
          · exact mem_set_of_ne he hne
          · rw [hs, if_neg hne]; exact hsome
where
  mem_set_of_ne {V : Type} {d : Dict Id V} {t : Id} {v : V} {e : Id × V} (he : e ∈ d) (hne : t ≠ e.1) :
      e ∈ Dict.set d t v := by
    induction d with
    | nil => cases he
    | cons x d ih =>
      unfold Dict.set
      rcases List.mem_cons.1 he with rfl | he
      · rw [if_neg (fun h => hne h.symm)]
        exact List.mem_cons_self
      · split
        · exact List.mem_cons_of_mem _ he
        · exact List.mem_cons_of_mem _ (ih he)

/-- The state of the loop. -/
structure LoopInv (df : Defaults B C D M R) (exifCamera : Id → Option Id) (metaOf : Id → D)
    (asg : Dict Id (Id × Id × List Id)) (i : Id) (m : FMap Id A X C K B P D M R) (pre : List Id)
    (m' : FMap Id A X C K B P D M R) : Prop where
  rest : SameRest m m'
  rigCameras : m'.rigCameras = m.rigCameras
  instances : ∀ j, j ≠ i → m'.rigInstances.get? j = m.rigInstances.get? j
  inst : ∃ x : FInst Id P, m'.rigInstances.get? i = some x ∧
    (∀ e ∈ x.members, e.1 ∈ pre ∧ ∃ a, asg.get? e.1 = some a ∧ e.2 = ⟨false, a.2.1⟩) ∧
    ∀ t ∈ pre, ∀ a, asg.get? t = some a → x.members.get? t = some ⟨false, a.2.1⟩
  added : ∀ t ∈ pre, ∃ a cam, asg.get? t = some a ∧ exifCamera t = some cam ∧
    m'.shots.get? t = some ⟨cam, i, a.2.1, metaOf t, df.mesh, [], []⟩
  others : ∀ t, t ∉ pre → m'.shots.get? t = m.shots.get? t

theorem fold_ok (i : Id) (L : List Id) (m : FMap Id A X C K B P D M R)
    (h : CanAdd m exifCamera asg L) :
    ∃ m', L.foldlM (addMember df exifCamera metaOf asg i) (addRigInstance m i) = some m' ∧
      LoopInv df exifCamera metaOf asg i m L m' := by
  refine foldlM_inv _ L (LoopInv df exifCamera metaOf asg i m) ?_ _ ?_
  · intro pre t post b hL q
    have htL : t ∈ L := by rw [hL]; simp
    have hpre : ∀ u ∈ pre, u ∈ L := fun u hu => by rw [hL]; simp [hu]
    have htp : t ∉ pre := by
      have := h.once
      rw [hL, List.nodup_append] at this
      intro hm
      exact this.2.2 t hm t (by simp) rfl
    obtain ⟨a, cam, f1, f2, f3, f4⟩ := h.known t htL
    obtain ⟨x, x1, x2, x3⟩ := q.inst
    obtain ⟨rp, hrp⟩ := Option.isSome_iff_exists.1 f4
    refine ⟨_, (addMember_iff (df := df) (metaOf := metaOf) i b _ t).2 ⟨a, cam, x, rp, f1, f2, ?_, ?_, x1, ?_, ?_, rfl⟩, ?_⟩
    · rw [q.others t htp]; exact h.fresh t htL
    · rw [q.rest.cameras]; exact f3
    · rw [q.rigCameras]; exact hrp
    · intro e he hc
      obtain ⟨y1, b', y2, y3⟩ := x2 e he
      rw [y3] at hc
      have := h.apart e.1 (hpre _ y1) t htL b' a y2 f1 hc
      exact htp (this ▸ y1)
    · refine ⟨⟨q.rest.cameras, q.rest.bias, q.rest.pano, q.rest.landmarks, q.rest.reference⟩, q.rigCameras,
        ?_, ⟨_, Dict.get?_set_self _ _ _, ?_, ?_⟩, ?_, ?_⟩
      · intro j hj
        show Dict.get? (Dict.set b.rigInstances i _) j = _
        rw [Dict.get?_set_ne _ _ (Ne.symm hj)]
        exact q.instances j hj
      · intro e he
        rcases e with ⟨e1, e2⟩
        rcases Dict.mem_set he with g | ⟨g1, g2⟩
        · obtain ⟨y1, y2⟩ := x2 _ g
          exact ⟨by simp [y1], y2⟩
        · refine ⟨by simp [g1], a, ?_, g2⟩
          simp only [g1]; exact f1
      · intro u hu a' ha'
        show Dict.get? (Dict.set x.members t _) u = _
        rw [Dict.get?_set]
        split
        · rename_i hh
          rw [← hh, f1] at ha'
          cases ha'; rfl
        · rename_i hh
          rcases List.mem_append.1 hu with hu | hu
          · exact x3 u hu a' ha'
          · exact absurd (List.mem_singleton.1 hu).symm hh
      · intro u hu
        by_cases hh : t = u
        · subst hh
          exact ⟨a, cam, f1, f2, Dict.get?_set_self _ _ _⟩
        · have hu' : u ∈ pre := by
            rcases List.mem_append.1 hu with hu | hu
            · exact hu
            · exact absurd (List.mem_singleton.1 hu).symm hh
          obtain ⟨a', c', g1, g2, g3⟩ := q.added u hu'
          refine ⟨a', c', g1, g2, ?_⟩
          show Dict.get? (Dict.set (Dict.set b.shots t _) t _) u = _
          rw [Dict.get?_set_ne _ _ hh, Dict.get?_set_ne _ _ hh]
          exact g3
      · intro u hu
        have hh : t ≠ u := by
          rintro rfl
          exact hu (by simp)
        show Dict.get? (Dict.set (Dict.set b.shots t _) t _) u = _
        rw [Dict.get?_set_ne _ _ hh, Dict.get?_set_ne _ _ hh]
        exact q.others u (fun hp => hu (by simp [hp]))
  · refine ⟨⟨rfl, rfl, rfl, rfl, rfl⟩, rfl, ?_, ⟨_, Dict.get?_set_self _ _ _, by simp, by simp⟩, by simp, fun _ _ => rfl⟩
    intro j hj
    exact Dict.get?_set_ne _ _ (Ne.symm hj)

end Verif.AddShot
