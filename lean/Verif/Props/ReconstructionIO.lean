import Verif.Lemmas.ReconstructionIO
import Mathlib.Algebra.Group.Prod
import Mathlib.Algebra.Group.TypeTags.Basic
import Mathlib.Algebra.Ring.Rat

/-!
# C49: reconstructions in JSON
-/
set_option linter.unusedSimpArgs false
set_option linter.unusedSectionVars false
namespace Verif.RecIO
open Verif.CameraIO

variable {P : Type} [Group P]

/-! ## Specification -/

/-- Two reconstructions hold the same data: the cameras, biases, rig cameras, points and reference;
the shots and pano shots with the same camera, rig instance, rig camera and attributes (up to the
metadata fields that have no JSON form); the rig instances with the same pose and the same shots;
and every shot has the same pose. -/
structure Same (r r' : Rec P) : Prop where
  cameras : r'.cameras = r.cameras
  biases : ∀ k, r'.biases.get? k = r.biases.get? k
  rigCameras : r'.rigCameras = r.rigCameras
  instances : r'.rigInstances.keys = r.rigInstances.keys
  instance_pose : ∀ i : String, (r'.rigInstances.get? i).map Inst.pose = (r.rigInstances.get? i).map Inst.pose
  instance_shots : ∀ i s : String, (r'.rigInstances.get? i).map (fun x => x.members.get? s) =
    (r.rigInstances.get? i).map (fun x => x.members.get? s)
  shots : r'.shots = r.shots.map fun kv => (kv.1, kv.2.written)
  pano : r'.pano = r.pano.map fun kv => (kv.1, kv.2.written)
  pose : ∀ s sh, ((s, sh) ∈ r.shots ∨ (s, sh) ∈ r.pano) → shotPose r' sh.written = shotPose r sh
  points : r'.points = r.points
  reference : r'.reference = r.reference

/-! ## The calls keep the tables consistent -/

theorem mem_set_iff {V : Type} {m : Dict String V} (hm : m.Wf) (k e : String) (v w : V) :
    (e, w) ∈ m.set k v ↔ (e = k ∧ w = v) ∨ (e ≠ k ∧ (e, w) ∈ m) := by
  rw [Dict.mem_iff_get? (Dict.wf_set hm k v), Dict.get?_set, Dict.mem_iff_get? hm]
  by_cases h : k = e
  · subst h; simp [eq_comm]
  · simp [h, Ne.symm h]

theorem mem_erase_iff {V : Type} {m : Dict String V} (hm : m.Wf) (k e : String) (w : V) :
    (e, w) ∈ m.erase k ↔ (e ≠ k ∧ (e, w) ∈ m) := by
  rw [Dict.mem_iff_get? (Dict.wf_erase hm k), Dict.get?_erase, Dict.mem_iff_get? hm]
  by_cases h : k = e
  · subst h; simp
  · simp [h, Ne.symm h]

theorem valid_empty : Valid ({} : Rec P) := by
  constructor <;> simp [Dict.Wf, Dict.keys]

theorem valid_addCamera {r : Rec P} (h : Valid r) {c : Cam} (hc : Legal c ∧ Usable c) :
    Valid (addCamera r c) := by
  unfold addCamera
  split
  · exact h
  · rename_i hh
    have hn : c.id ∉ r.cameras.keys := by
      rw [← has_false_iff]; simpa using hh
    have hnb : c.id ∉ r.biases.keys := fun hb => hn ((h.biasCam _).1 hb)
    have e1 : Dict.insertNew r.cameras c.id c = r.cameras.set c.id c := by
      simp [Dict.insertNew, (has_false_iff _ _).2 hn]
    have e2 : Dict.insertNew r.biases c.id ((1 : P), (1 : ℚ)) = r.biases.set c.id (1, 1) := by
      simp [Dict.insertNew, (has_false_iff _ _).2 hnb]
    rw [e1, e2]
    refine { h with
      wfCams := Dict.wf_set h.wfCams _ _, wfBias := Dict.wf_set h.wfBias _ _
      camId := ?_, camLegal := ?_, biasCam := ?_, shotRefs := ?_ }
    · intro k d hd
      rcases (mem_set_iff h.wfCams _ _ _ _).1 hd with ⟨rfl, rfl⟩ | ⟨_, hd⟩
      · rfl
      · exact h.camId k d hd
    · intro k d hd
      rcases (mem_set_iff h.wfCams _ _ _ _).1 hd with ⟨rfl, rfl⟩ | ⟨_, hd⟩
      · exact hc
      · exact h.camLegal k d hd
    · intro k
      simp only [Dict.mem_keys_set, h.biasCam]
    · intro s sh hs
      obtain ⟨a, b, c⟩ := h.shotRefs s sh hs
      exact ⟨(Dict.mem_keys_set _ _ _ _).2 (.inr a), b, c⟩

theorem valid_setBias {r r' : Rec P} (h : Valid r) {k : String} {b : P × ℚ}
    (he : setBias r k b = some r') : Valid r' := by
  unfold setBias at he
  split at he
  · rename_i hk
    cases he
    refine { h with wfBias := Dict.wf_set h.wfBias _ _, biasCam := ?_ }
    intro k'
    rw [Dict.mem_keys_set, h.biasCam]
    refine ⟨?_, .inr⟩
    rintro (rfl | h')
    · exact (h.biasCam _).1 ((Dict.has_iff_mem _ _).1 hk)
    · exact h'
  · cases he

theorem valid_addRigCamera {r : Rec P} (h : Valid r) (k : String) (p : P) :
    Valid (addRigCamera r k p) := by
  unfold addRigCamera
  split
  · exact h
  · refine { h with wfRc := Dict.wf_set h.wfRc _ _, shotRefs := ?_ }
    intro s sh hs
    obtain ⟨a, b, c⟩ := h.shotRefs s sh hs
    exact ⟨a, (Dict.mem_keys_set _ _ _ _).2 (.inr b), c⟩

theorem valid_addRigInstance {r : Rec P} (h : Valid r) (k : String) (hk : k ∉ r.rigInstances.keys) :
    Valid (addRigInstance r k) := by
  unfold addRigInstance
  refine { h with wfRi := Dict.wf_set h.wfRi _ _, membersWf := ?_, membersInj := ?_, membersShots := ?_, shotRefs := ?_ }
  · intro i x hx
    rcases (mem_set_iff h.wfRi _ _ _ _).1 hx with ⟨rfl, rfl⟩ | ⟨_, hx⟩
    · exact Dict.wf_nil
    · exact h.membersWf i x hx
  · intro i x hx
    rcases (mem_set_iff h.wfRi _ _ _ _).1 hx with ⟨rfl, rfl⟩ | ⟨_, hx⟩
    · simp
    · exact h.membersInj i x hx
  · intro i x hx
    rcases (mem_set_iff h.wfRi _ _ _ _).1 hx with ⟨rfl, rfl⟩ | ⟨_, hx⟩
    · simp
    · exact h.membersShots i x hx
  · intro s sh hs
    obtain ⟨a, b, x, c, d⟩ := h.shotRefs s sh hs
    refine ⟨a, b, x, (mem_set_iff h.wfRi _ _ _ _).2 (.inr ⟨?_, c⟩), d⟩
    rintro rfl
    exact hk (List.mem_map.2 ⟨_, c, rfl⟩)

theorem valid_setInstancePose {r r' : Rec P} (h : Valid r) {k : String} {p : P}
    (he : setInstancePose r k p = some r') : Valid r' := by
  unfold setInstancePose at he
  split at he
  · cases he
  · rename_i x0 hx0
    cases he
    have hx0m := Dict.mem_of_get? hx0
    refine { h with wfRi := Dict.wf_set h.wfRi _ _, membersWf := ?_, membersInj := ?_, membersShots := ?_, shotRefs := ?_ }
    · intro i x hx
      rcases (mem_set_iff h.wfRi _ _ _ _).1 hx with ⟨rfl, rfl⟩ | ⟨_, hx⟩
      · exact h.membersWf _ x0 hx0m
      · exact h.membersWf i x hx
    · intro i x hx
      rcases (mem_set_iff h.wfRi _ _ _ _).1 hx with ⟨rfl, rfl⟩ | ⟨_, hx⟩
      · exact h.membersInj _ x0 hx0m
      · exact h.membersInj i x hx
    · intro i x hx
      rcases (mem_set_iff h.wfRi _ _ _ _).1 hx with ⟨rfl, rfl⟩ | ⟨_, hx⟩
      · exact h.membersShots _ x0 hx0m
      · exact h.membersShots i x hx
    · intro s sh hs
      obtain ⟨a, b, x, c, d⟩ := h.shotRefs s sh hs
      refine ⟨a, b, ?_⟩
      by_cases hki : sh.inst = k
      · refine ⟨{ x0 with pose := p }, (mem_set_iff h.wfRi _ _ _ _).2 (.inl ⟨hki, rfl⟩), ?_⟩
        have := Dict.get?_of_mem h.wfRi c
        rw [hki, hx0] at this
        cases this; exact d
      · exact ⟨x, (mem_set_iff h.wfRi _ _ _ _).2 (.inr ⟨hki, c⟩), d⟩

/-- Attaching a new shot and entering it in one of the two tables. -/
theorem valid_attach {r r1 : Rec P} (h : Valid r) {s cam rc i : String} {pose : P} (a : Attrs)
    (he : attach r s cam rc i pose = some r1) (hs : s ∉ r.shots.keys) (hp : s ∉ r.pano.keys) :
    ((i ≠ "" ∧ rc ≠ "") → Valid { r1 with shots := r1.shots.set s ⟨cam, i, rc, a⟩ }) ∧
    ((i = panoPrefix ++ s ∧ rc = panoPrefix ++ cam) →
      Valid { r1 with pano := r1.pano.set s ⟨cam, i, rc, a⟩ }) := by
  unfold attach at he
  split at he
  · rename_i c x rp hc hx hrp
    split at he
    · cases he
    · rename_i hany
      cases he
      have hxm := Dict.mem_of_get? hx
      have hmw := h.membersWf _ _ hxm
      have hnew : ∀ s', (s', rc) ∉ x.members := by
        intro s' hm
        apply hany
        exact List.any_eq_true.2 ⟨_, hm, by simp⟩
      have hcK : cam ∈ r.cameras.keys := by rw [Dict.mem_keys_iff, hc]; rfl
      have hrcK : rc ∈ r.rigCameras.keys := by rw [Dict.mem_keys_iff, hrp]; rfl
      have hsNo : ∀ j y, (j, y) ∈ r.rigInstances → ∀ rc', (s, rc') ∉ y.members := by
        intro j y hy rc' hm
        rcases h.membersShots j y hy s rc' hm with ⟨sh, a, -⟩ | ⟨sh, a, -⟩
        · exact hs (List.mem_map.2 ⟨_, a, rfl⟩)
        · exact hp (List.mem_map.2 ⟨_, a, rfl⟩)
      have mw : ∀ j y, (j, y) ∈ r.rigInstances.set i ⟨rp⁻¹ * pose, x.members.set s rc⟩ →
          Dict.Wf y.members := by
        intro j y hy
        rcases (mem_set_iff h.wfRi _ _ _ _).1 hy with ⟨rfl, rfl⟩ | ⟨_, hy⟩
        · exact Dict.wf_set hmw _ _
        · exact h.membersWf j y hy
      have mi : ∀ j y, (j, y) ∈ r.rigInstances.set i ⟨rp⁻¹ * pose, x.members.set s rc⟩ →
          ∀ s1 s2 rc', (s1, rc') ∈ y.members → (s2, rc') ∈ y.members → s1 = s2 := by
        intro j y hy s1 s2 rc' h1 h2
        rcases (mem_set_iff h.wfRi _ _ _ _).1 hy with ⟨rfl, rfl⟩ | ⟨_, hy⟩
        · rcases (mem_set_iff hmw _ _ _ _).1 h1 with ⟨e1, e2⟩ | ⟨a1, h1'⟩ <;>
            rcases (mem_set_iff hmw _ _ _ _).1 h2 with ⟨e3, e4⟩ | ⟨a2, h2'⟩
          · rw [e1, e3]
          · rw [e2] at h2'; exact absurd h2' (hnew _)
          · rw [e4] at h1'; exact absurd h1' (hnew _)
          · exact h.membersInj _ _ hxm _ _ _ h1' h2'
        · exact h.membersInj j y hy _ _ _ h1 h2
      have sr : ∀ (sh : Shot) s', ((s', sh) ∈ r.shots ∨ (s', sh) ∈ r.pano) →
          ∃ y : Inst P, (sh.inst, y) ∈ r.rigInstances.set i ⟨rp⁻¹ * pose, x.members.set s rc⟩ ∧
            (s', sh.rigCamera) ∈ y.members := by
        intro sh s' hsh
        obtain ⟨-, -, y, c1, d1⟩ := h.shotRefs s' sh hsh
        by_cases hi : sh.inst = i
        · refine ⟨_, (mem_set_iff h.wfRi _ _ _ _).2 (.inl ⟨hi, rfl⟩), ?_⟩
          have := Dict.get?_of_mem h.wfRi c1
          rw [hi, hx] at this
          cases this
          refine (mem_set_iff hmw _ _ _ _).2 (.inr ⟨?_, d1⟩)
          rintro rfl
          exact hsNo _ _ c1 _ d1
        · exact ⟨y, (mem_set_iff h.wfRi _ _ _ _).2 (.inr ⟨hi, c1⟩), d1⟩
      constructor
      · rintro ⟨hi0, hrc0⟩
        refine { h with wfRi := Dict.wf_set h.wfRi _ _, wfShots := Dict.wf_set h.wfShots _ _
                        membersWf := mw, membersInj := mi, membersShots := ?_, shotRefs := ?_
                        shotIds := ?_, disjoint := ?_ }
        · intro j y hy s' rc' hm
          rcases (mem_set_iff h.wfRi _ _ _ _).1 hy with ⟨rfl, rfl⟩ | ⟨_, hy'⟩
          · rcases (mem_set_iff hmw _ _ _ _).1 hm with ⟨rfl, rfl⟩ | ⟨hne, hm⟩
            · exact .inl ⟨⟨cam, _, _, a⟩, (mem_set_iff h.wfShots _ _ _ _).2 (.inl ⟨rfl, rfl⟩), rfl, rfl⟩
            · rcases h.membersShots _ _ hxm s' rc' hm with ⟨sh, a1, b1⟩ | ⟨sh, a1, b1⟩
              · exact .inl ⟨sh, (mem_set_iff h.wfShots _ _ _ _).2 (.inr ⟨hne, a1⟩), b1⟩
              · exact .inr ⟨sh, a1, b1⟩
          · have hne : s' ≠ s := by rintro rfl; exact hsNo _ _ hy' _ hm
            rcases h.membersShots _ _ hy' s' rc' hm with ⟨sh, a1, b1⟩ | ⟨sh, a1, b1⟩
            · exact .inl ⟨sh, (mem_set_iff h.wfShots _ _ _ _).2 (.inr ⟨hne, a1⟩), b1⟩
            · exact .inr ⟨sh, a1, b1⟩
        · intro s' sh hsh
          by_cases hne : s' = s
          · subst hne
            have : sh = ⟨cam, i, rc, a⟩ := by
              rcases hsh with hsh | hsh
              · rcases (mem_set_iff h.wfShots _ _ _ _).1 hsh with ⟨_, e⟩ | ⟨e, _⟩
                · exact e
                · exact absurd rfl e
              · exact absurd (List.mem_map.2 ⟨_, hsh, rfl⟩) hp
            subst this
            exact ⟨hcK, hrcK, _, (mem_set_iff h.wfRi _ _ _ _).2 (.inl ⟨rfl, rfl⟩),
              (mem_set_iff hmw _ _ _ _).2 (.inl ⟨rfl, rfl⟩)⟩
          · have hold : (s', sh) ∈ r.shots ∨ (s', sh) ∈ r.pano := by
              rcases hsh with hsh | hsh
              · rcases (mem_set_iff h.wfShots _ _ _ _).1 hsh with ⟨e, _⟩ | ⟨_, e⟩
                · exact absurd e hne
                · exact .inl e
              · exact .inr hsh
            obtain ⟨a1, b1, -⟩ := h.shotRefs s' sh hold
            exact ⟨a1, b1, sr sh s' hold⟩
        · intro s' sh hsh
          rcases (mem_set_iff h.wfShots _ _ _ _).1 hsh with ⟨_, rfl⟩ | ⟨_, e⟩
          · exact ⟨hi0, hrc0⟩
          · exact h.shotIds s' sh e
        · intro s' hs'
          rcases (Dict.mem_keys_set _ _ _ _).1 hs' with rfl | hs'
          · exact hp
          · exact h.disjoint s' hs'
      · rintro ⟨hi0, hrc0⟩
        refine { h with wfRi := Dict.wf_set h.wfRi _ _, wfPano := Dict.wf_set h.wfPano _ _
                        membersWf := mw, membersInj := mi, membersShots := ?_, shotRefs := ?_
                        panoIds := ?_, disjoint := ?_ }
        · intro j y hy s' rc' hm
          rcases (mem_set_iff h.wfRi _ _ _ _).1 hy with ⟨rfl, rfl⟩ | ⟨_, hy'⟩
          · rcases (mem_set_iff hmw _ _ _ _).1 hm with ⟨rfl, rfl⟩ | ⟨hne, hm⟩
            · exact .inr ⟨⟨cam, _, _, a⟩, (mem_set_iff h.wfPano _ _ _ _).2 (.inl ⟨rfl, rfl⟩), rfl, rfl⟩
            · rcases h.membersShots _ _ hxm s' rc' hm with ⟨sh, a1, b1⟩ | ⟨sh, a1, b1⟩
              · exact .inl ⟨sh, a1, b1⟩
              · exact .inr ⟨sh, (mem_set_iff h.wfPano _ _ _ _).2 (.inr ⟨hne, a1⟩), b1⟩
          · have hne : s' ≠ s := by rintro rfl; exact hsNo _ _ hy' _ hm
            rcases h.membersShots _ _ hy' s' rc' hm with ⟨sh, a1, b1⟩ | ⟨sh, a1, b1⟩
            · exact .inl ⟨sh, a1, b1⟩
            · exact .inr ⟨sh, (mem_set_iff h.wfPano _ _ _ _).2 (.inr ⟨hne, a1⟩), b1⟩
        · intro s' sh hsh
          by_cases hne : s' = s
          · subst hne
            have : sh = ⟨cam, i, rc, a⟩ := by
              rcases hsh with hsh | hsh
              · exact absurd (List.mem_map.2 ⟨_, hsh, rfl⟩) hs
              · rcases (mem_set_iff h.wfPano _ _ _ _).1 hsh with ⟨_, e⟩ | ⟨e, _⟩
                · exact e
                · exact absurd rfl e
            subst this
            exact ⟨hcK, hrcK, _, (mem_set_iff h.wfRi _ _ _ _).2 (.inl ⟨rfl, rfl⟩),
              (mem_set_iff hmw _ _ _ _).2 (.inl ⟨rfl, rfl⟩)⟩
          · have hold : (s', sh) ∈ r.shots ∨ (s', sh) ∈ r.pano := by
              rcases hsh with hsh | hsh
              · exact .inl hsh
              · rcases (mem_set_iff h.wfPano _ _ _ _).1 hsh with ⟨e, _⟩ | ⟨_, e⟩
                · exact absurd e hne
                · exact .inr e
            obtain ⟨a1, b1, -⟩ := h.shotRefs s' sh hold
            exact ⟨a1, b1, sr sh s' hold⟩
        · intro s' sh hsh
          rcases (mem_set_iff h.wfPano _ _ _ _).1 hsh with ⟨rfl, rfl⟩ | ⟨_, e⟩
          · exact ⟨hi0, hrc0⟩
          · exact h.panoIds s' sh e
        · intro s' hs' hc'
          rcases (Dict.mem_keys_set _ _ _ _).1 hc' with rfl | hc'
          · exact hs hs'
          · exact h.disjoint s' hs' hc'
  · cases he

/-- The calls for which consistency is claimed: cameras that can be written (`C46`), a new rig
instance under a new id, shots and pano shots with different, non-empty names. -/
def Op.Ok (r : Rec P) : Op P → Prop
  | .camera c => Legal c ∧ Usable c
  | .rigInstance k => k ∉ r.rigInstances.keys
  | .shot s cam _ _ _ _ => s ≠ "" ∧ cam ≠ "" ∧ s ∉ r.pano.keys
  | .pano s _ _ _ => s ∉ r.shots.keys
  | _ => True

theorem attach_keys {r r1 : Rec P} {s cam rc i : String} {pose : P}
    (he : attach r s cam rc i pose = some r1) : r1.shots = r.shots ∧ r1.pano = r.pano := by
  unfold attach at he
  split at he
  · split at he
    · cases he
    · cases he; exact ⟨rfl, rfl⟩
  · cases he

theorem valid_createShot {r r' : Rec P} (h : Valid r) {s cam : String} {pose : P}
    {rc inst : Option String} {a : Attrs} (hs : s ≠ "") (hc : cam ≠ "") (hp : s ∉ r.pano.keys)
    (he : createShot r s cam pose rc inst a = some r') : Valid r' := by
  unfold createShot at he
  simp only at he
  have hrcne : (given rc).getD cam ≠ "" := by
    unfold given
    split
    · simpa using hc
    · rename_i x hx
      cases rc with
      | none => simpa using hc
      | some v => simp only [Option.getD_some]; rintro rfl; exact hx rfl
  have hine : (given inst).getD s ≠ "" := by
    unfold given
    split
    · simpa using hs
    · rename_i x hx
      cases inst with
      | none => simpa using hs
      | some v => simp only [Option.getD_some]; rintro rfl; exact hx rfl
  generalize hr1 : (if ((given rc).isNone && !r.rigCameras.has cam) = true then addRigCamera r cam 1
    else r) = r1 at he
  have v1 : Valid r1 := by
    rw [← hr1]; split
    · exact valid_addRigCamera h _ _
    · exact h
  have k1 : r1.shots = r.shots ∧ r1.pano = r.pano := by
    rw [← hr1]; split
    · unfold addRigCamera; split <;> exact ⟨rfl, rfl⟩
    · exact ⟨rfl, rfl⟩
  split at he
  · cases he
  generalize hr2 : (if ((given inst).isNone && !r1.rigInstances.has s) = true then addRigInstance r1 s
    else r1) = r2 at he
  have v2 : Valid r2 := by
    rw [← hr2]; split
    · rename_i hh
      refine valid_addRigInstance v1 _ ?_
      simp only [Bool.and_eq_true, Bool.not_eq_true'] at hh
      exact (has_false_iff _ _).1 hh.2
    · exact v1
  have k2 : r2.shots = r.shots ∧ r2.pano = r.pano := by
    rw [← hr2]; split
    · exact k1
    · exact k1
  split at he
  · cases he
  unfold mapCreateShot at he
  split at he
  · cases he
  rename_i hns
  rw [Option.map_eq_some_iff] at he
  obtain ⟨r3, e1, e2⟩ := he
  rw [← e2]
  have hn : s ∉ r2.shots.keys := by rw [← has_false_iff]; simpa using hns
  exact (valid_attach v2 a e1 hn (by rw [k2.2]; exact hp)).1 ⟨hine, hrcne⟩

theorem valid_createPano {r r' : Rec P} (h : Valid r) {s cam : String} {pose : P}
    {a : Attrs} (hp : s ∉ r.shots.keys)
    (he : createPano r s cam pose a = some r') : Valid r' := by
  unfold createPano at he
  simp only at he
  generalize hr1 : (if (!r.rigCameras.has (panoPrefix ++ cam)) = true then
    addRigCamera r (panoPrefix ++ cam) 1 else r) = r1 at he
  have v1 : Valid r1 := by
    rw [← hr1]; split
    · exact valid_addRigCamera h _ _
    · exact h
  have k1 : r1.shots = r.shots ∧ r1.pano = r.pano := by
    rw [← hr1]; split
    · unfold addRigCamera; split <;> exact ⟨rfl, rfl⟩
    · exact ⟨rfl, rfl⟩
  generalize hr2 : (if (!r1.rigInstances.has (panoPrefix ++ s)) = true then
    addRigInstance r1 (panoPrefix ++ s) else r1) = r2 at he
  have v2 : Valid r2 := by
    rw [← hr2]; split
    · rename_i hh
      refine valid_addRigInstance v1 _ ?_
      simp only [Bool.not_eq_true'] at hh
      exact (has_false_iff _ _).1 hh
    · exact v1
  have k2 : r2.shots = r.shots ∧ r2.pano = r.pano := by
    rw [← hr2]; split
    · exact k1
    · exact k1
  unfold mapCreatePano at he
  split at he
  · cases he
  rename_i hns
  rw [Option.map_eq_some_iff] at he
  obtain ⟨r3, e1, e2⟩ := he
  rw [← e2]
  have hn : s ∉ r2.pano.keys := by rw [← has_false_iff]; simpa using hns
  exact (valid_attach v2 a e1 (by rw [k2.1]; exact hp) hn).2 ⟨rfl, rfl⟩

theorem valid_detach {r : Rec P} (h : Valid r) {s : String} {sh : Shot} {x : Inst P}
    (hx : r.rigInstances.get? sh.inst = some x) :
    ((s, sh) ∈ r.shots → Valid { r with
      shots := r.shots.erase s
      rigInstances := r.rigInstances.set sh.inst { x with members := x.members.erase s } }) ∧
    ((s, sh) ∈ r.pano → Valid { r with
      pano := r.pano.erase s
      rigInstances := r.rigInstances.set sh.inst { x with members := x.members.erase s } }) := by
  have hxm := Dict.mem_of_get? hx
  have hmw := h.membersWf _ _ hxm
  have mw : ∀ j y, (j, y) ∈ r.rigInstances.set sh.inst { x with members := x.members.erase s } →
      Dict.Wf y.members := by
    intro j y hy
    rcases (mem_set_iff h.wfRi _ _ _ _).1 hy with ⟨rfl, rfl⟩ | ⟨_, hy⟩
    · exact Dict.wf_erase hmw _
    · exact h.membersWf j y hy
  have mi : ∀ j y, (j, y) ∈ r.rigInstances.set sh.inst { x with members := x.members.erase s } →
      ∀ s1 s2 rc', (s1, rc') ∈ y.members → (s2, rc') ∈ y.members → s1 = s2 := by
    intro j y hy s1 s2 rc' h1 h2
    rcases (mem_set_iff h.wfRi _ _ _ _).1 hy with ⟨rfl, rfl⟩ | ⟨_, hy⟩
    · exact h.membersInj _ x hxm _ _ _ ((mem_erase_iff hmw _ _ _).1 h1).2
        ((mem_erase_iff hmw _ _ _).1 h2).2
    · exact h.membersInj j y hy _ _ _ h1 h2
  have sr : ∀ (sh' : Shot) s', s' ≠ s → ((s', sh') ∈ r.shots ∨ (s', sh') ∈ r.pano) →
      ∃ y : Inst P, (sh'.inst, y) ∈ r.rigInstances.set sh.inst { x with members := x.members.erase s } ∧
        (s', sh'.rigCamera) ∈ y.members := by
    intro sh' s' hne hsh
    obtain ⟨-, -, y, c1, d1⟩ := h.shotRefs s' sh' hsh
    by_cases hi : sh'.inst = sh.inst
    · refine ⟨_, (mem_set_iff h.wfRi _ _ _ _).2 (.inl ⟨hi, rfl⟩), ?_⟩
      have := Dict.get?_of_mem h.wfRi c1
      rw [hi, hx] at this
      cases this
      exact (mem_erase_iff hmw _ _ _).2 ⟨hne, d1⟩
    · exact ⟨y, (mem_set_iff h.wfRi _ _ _ _).2 (.inr ⟨hi, c1⟩), d1⟩
  -- the members that remain are not `s`
  have rem : (s, sh) ∈ r.shots ∨ (s, sh) ∈ r.pano → ∀ j y,
      (j, y) ∈ r.rigInstances.set sh.inst { x with members := x.members.erase s } →
      ∀ s' rc', (s', rc') ∈ y.members → s' ≠ s ∧
        ((∃ sh' : Shot, (s', sh') ∈ r.shots ∧ sh'.inst = j ∧ sh'.rigCamera = rc') ∨
         (∃ sh' : Shot, (s', sh') ∈ r.pano ∧ sh'.inst = j ∧ sh'.rigCamera = rc')) := by
    intro hsh j y hy s' rc' hm
    rcases (mem_set_iff h.wfRi _ _ _ _).1 hy with ⟨rfl, rfl⟩ | ⟨hj, hy'⟩
    · obtain ⟨hne, hm'⟩ := (mem_erase_iff hmw _ _ _).1 hm
      exact ⟨hne, h.membersShots _ _ hxm _ _ hm'⟩
    · have hms := h.membersShots _ _ hy' _ _ hm
      refine ⟨?_, hms⟩
      rintro rfl
      rcases hms with ⟨sh', a1, b1, -⟩ | ⟨sh', a1, b1, -⟩ <;> rcases hsh with hsh | hsh
      · have := Dict.get?_of_mem h.wfShots a1
        rw [Dict.get?_of_mem h.wfShots hsh] at this
        cases this; exact hj b1.symm
      · exact h.disjoint _ (List.mem_map.2 ⟨_, a1, rfl⟩) (List.mem_map.2 ⟨_, hsh, rfl⟩)
      · exact h.disjoint _ (List.mem_map.2 ⟨_, hsh, rfl⟩) (List.mem_map.2 ⟨_, a1, rfl⟩)
      · have := Dict.get?_of_mem h.wfPano a1
        rw [Dict.get?_of_mem h.wfPano hsh] at this
        cases this; exact hj b1.symm
  constructor
  · intro hsh
    have hnp : s ∉ r.pano.keys := h.disjoint s (List.mem_map.2 ⟨_, hsh, rfl⟩)
    refine { h with wfRi := Dict.wf_set h.wfRi _ _, wfShots := Dict.wf_erase h.wfShots _
                    membersWf := mw, membersInj := mi, membersShots := ?_, shotRefs := ?_
                    shotIds := ?_, disjoint := ?_ }
    · intro j y hy s' rc' hm
      obtain ⟨hne, hms⟩ := rem (.inl hsh) j y hy s' rc' hm
      rcases hms with ⟨sh', a1, b1⟩ | ⟨sh', a1, b1⟩
      · exact .inl ⟨sh', (mem_erase_iff h.wfShots _ _ _).2 ⟨hne, a1⟩, b1⟩
      · exact .inr ⟨sh', a1, b1⟩
    · intro s' sh' hsh'
      have hold : s' ≠ s ∧ ((s', sh') ∈ r.shots ∨ (s', sh') ∈ r.pano) := by
        rcases hsh' with e | e
        · exact ⟨((mem_erase_iff h.wfShots _ _ _).1 e).1, .inl ((mem_erase_iff h.wfShots _ _ _).1 e).2⟩
        · exact ⟨by rintro rfl; exact hnp (List.mem_map.2 ⟨_, e, rfl⟩), .inr e⟩
      obtain ⟨a1, b1, -⟩ := h.shotRefs s' sh' hold.2
      exact ⟨a1, b1, sr sh' s' hold.1 hold.2⟩
    · intro s' sh' e
      exact h.shotIds s' sh' ((mem_erase_iff h.wfShots _ _ _).1 e).2
    · intro s' hs'
      exact h.disjoint s' ((Dict.mem_keys_erase _ _ _).1 hs').2
  · intro hsh
    have hns : s ∉ r.shots.keys := fun hc => h.disjoint s hc (List.mem_map.2 ⟨_, hsh, rfl⟩)
    refine { h with wfRi := Dict.wf_set h.wfRi _ _, wfPano := Dict.wf_erase h.wfPano _
                    membersWf := mw, membersInj := mi, membersShots := ?_, shotRefs := ?_
                    panoIds := ?_, disjoint := ?_ }
    · intro j y hy s' rc' hm
      obtain ⟨hne, hms⟩ := rem (.inr hsh) j y hy s' rc' hm
      rcases hms with ⟨sh', a1, b1⟩ | ⟨sh', a1, b1⟩
      · exact .inl ⟨sh', a1, b1⟩
      · exact .inr ⟨sh', (mem_erase_iff h.wfPano _ _ _).2 ⟨hne, a1⟩, b1⟩
    · intro s' sh' hsh'
      have hold : s' ≠ s ∧ ((s', sh') ∈ r.shots ∨ (s', sh') ∈ r.pano) := by
        rcases hsh' with e | e
        · exact ⟨by rintro rfl; exact hns (List.mem_map.2 ⟨_, e, rfl⟩), .inl e⟩
        · exact ⟨((mem_erase_iff h.wfPano _ _ _).1 e).1, .inr ((mem_erase_iff h.wfPano _ _ _).1 e).2⟩
      obtain ⟨a1, b1, -⟩ := h.shotRefs s' sh' hold.2
      exact ⟨a1, b1, sr sh' s' hold.1 hold.2⟩
    · intro s' sh' e
      exact h.panoIds s' sh' ((mem_erase_iff h.wfPano _ _ _).1 e).2
    · intro s' hs' hc
      exact h.disjoint s' hs' ((Dict.mem_keys_erase _ _ _).1 hc).2

theorem valid_step {r r' : Rec P} (h : Valid r) (o : Op P) (ho : o.Ok r) (he : step r o = some r') :
    Valid r' := by
  cases o with
  | camera c => cases he; exact valid_addCamera h ho
  | bias k b => exact valid_setBias h he
  | rigCamera k p => cases he; exact valid_addRigCamera h k p
  | rigInstance k => cases he; exact valid_addRigInstance h k ho
  | instancePose k p => exact valid_setInstancePose h he
  | shot s cam pose rc inst a => exact valid_createShot h ho.1 ho.2.1 ho.2.2 he
  | pano s cam pose a => exact valid_createPano h ho he
  | point k p =>
    simp only [step, createPoint] at he
    split at he
    · cases he
    · cases he; exact { h with wfPoints := Dict.wf_set h.wfPoints _ _ }
  | reference l => cases he; exact { h with }
  | removeShot s =>
    simp only [step, removeShot] at he
    split at he
    · cases he
    · rename_i sh hsh
      split at he
      · cases he
      · rename_i x hx
        split at he
        · cases he
        · cases he; exact (valid_detach h hx).1 (Dict.mem_of_get? hsh)
  | removePano s =>
    simp only [step, removePano] at he
    split at he
    · cases he
    · rename_i sh hsh
      split at he
      · cases he
      · rename_i x hx
        split at he
        · cases he
        · cases he; exact (valid_detach h hx).2 (Dict.mem_of_get? hsh)
  | removePoint k =>
    simp only [step, removePoint] at he
    split at he
    · cases he; exact { h with wfPoints := Dict.wf_erase h.wfPoints _ }
    · cases he

/-- The states a program reaches from an empty reconstruction by calls that return. -/
inductive Reachable : Rec P → Prop
  | empty : Reachable {}
  | call (r r' : Rec P) (o : Op P) : Reachable r → o.Ok r → step r o = some r' → Reachable r'

theorem Reachable.valid {r : Rec P} (h : Reachable r) : Valid r := by
  induction h with
  | empty => exact valid_empty
  | call r r' o _ ho he ih => exact valid_step ih o ho he

/-! ## The round trip -/

theorem forall2_of {V W : Type} (R : String × V → String × W → Prop) (l : Dict String V)
    (g : String → V → W) (h : ∀ k v, (k, v) ∈ l → R (k, v) (k, g k v)) :
    List.Forall₂ R l (l.map fun kv => (kv.1, g kv.1 kv.2)) := by
  induction l with
  | nil => simp
  | cons p l ih =>
    exact List.Forall₂.cons (h p.1 p.2 (by simp)) (ih fun k v hm => h k v (by simp [hm]))

theorem shotPose_isSome {r : Rec P} (h : Valid r) {s : String} {sh : Shot}
    (hs : (s, sh) ∈ r.shots ∨ (s, sh) ∈ r.pano) : ∃ p, shotPose r sh = some p := by
  obtain ⟨-, h2, x, h3, -⟩ := h.shotRefs s sh hs
  obtain ⟨rp, hrp⟩ := Option.isSome_iff_exists.1 ((Dict.mem_keys_iff _ _).1 h2)
  exact ⟨rp * x.pose, by simp [shotPose, hrp, Dict.get?_of_mem h.wfRi h3]⟩

theorem roundtrip_valid (cd : Codec P) (hcd : cd.Lawful) (r : Rec P) (hv : Valid r) :
    ∃ j r', toJson cd r = some j ∧ fromJson cd j = some r' ∧ Same r r' := by
  classical
  -- writing
  let gc : String → Cam → J := fun _ c => (cameraToJson c).getD .null
  have hcams : r.cameras.map (fun kc => (kc.2.id, kc.2)) = r.cameras := by
    conv_rhs => rw [← List.map_id r.cameras]
    refine List.map_congr_left ?_
    rintro ⟨k, c⟩ hm
    simp [hv.camId k c hm]
  have w1 : writeAll cameraToJson r.cameras = some (r.cameras.map fun kv => (kv.1, gc kv.1 kv.2)) := by
    refine writeAll_eq _ gc _ hv.wfCams ?_
    intro k c hm
    obtain ⟨j, e, -⟩ := C46_roundtrip c (hv.camLegal k c hm).1 (hv.camLegal k c hm).2
    simp [gc, e]
  have w2 := writeAll_eq (fun b => some (biasToJson cd b)) (fun _ b => biasToJson cd b) r.biases
    hv.wfBias (fun _ _ _ => rfl)
  have w3 := writeAll_eq (fun b => some (rigCameraToJson cd b)) (fun _ b => rigCameraToJson cd b)
    r.rigCameras hv.wfRc (fun _ _ _ => rfl)
  have w4 := writeAll_eq (fun b => some (rigInstanceToJson cd b)) (fun _ b => rigInstanceToJson cd b)
    r.rigInstances hv.wfRi (fun _ _ _ => rfl)
  let gs : String → Shot → J := fun _ sh => (mapShotToJson cd r sh).getD .null
  have hgs : ∀ s sh, ((s, sh) ∈ r.shots ∨ (s, sh) ∈ r.pano) →
      mapShotToJson cd r sh = some (gs s sh) := by
    intro s sh hs
    obtain ⟨p, hp⟩ := shotPose_isSome hv hs
    simp [gs, mapShotToJson, hp]
  have w5 := writeAll_eq (mapShotToJson cd r) gs r.shots hv.wfShots (fun s sh h => hgs s sh (.inl h))
  have w6 := writeAll_eq (fun p => some (pointToJson p)) (fun _ p => pointToJson p) r.points
    hv.wfPoints (fun _ _ _ => rfl)
  have w7 := writeAll_eq (mapShotToJson cd r) gs r.pano hv.wfPano (fun s sh h => hgs s sh (.inr h))
  -- the object
  refine ⟨.obj ([("cameras", .obj (r.cameras.map fun kv => (kv.1, gc kv.1 kv.2))),
      ("shots", .obj (r.shots.map fun kv => (kv.1, gs kv.1 kv.2))),
      ("points", .obj (r.points.map fun kv => (kv.1, pointToJson kv.2))),
      ("biases", .obj (r.biases.map fun kv => (kv.1, biasToJson cd kv.2)))]
    ++ (if r.rigCameras.length = 0 then [] else
      [("rig_cameras", .obj (r.rigCameras.map fun kv => (kv.1, rigCameraToJson cd kv.2)))])
    ++ (if r.rigInstances.length = 0 then [] else
      [("rig_instances", .obj (r.rigInstances.map fun kv => (kv.1, rigInstanceToJson cd kv.2)))])
    ++ (if r.pano.length = 0 then [] else
      [("pano_shots", .obj (r.pano.map fun kv => (kv.1, gs kv.1 kv.2)))])
    ++ [("reference_lla", .obj [("latitude", .num r.reference.1),
        ("longitude", .num r.reference.2.1), ("altitude", .num r.reference.2.2)])]), ?_⟩
  generalize hobj : J.obj ([("cameras", .obj (r.cameras.map fun kv => (kv.1, gc kv.1 kv.2))),
      ("shots", .obj (r.shots.map fun kv => (kv.1, gs kv.1 kv.2))),
      ("points", .obj (r.points.map fun kv => (kv.1, pointToJson kv.2))),
      ("biases", .obj (r.biases.map fun kv => (kv.1, biasToJson cd kv.2)))]
    ++ (if r.rigCameras.length = 0 then [] else
      [("rig_cameras", .obj (r.rigCameras.map fun kv => (kv.1, rigCameraToJson cd kv.2)))])
    ++ (if r.rigInstances.length = 0 then [] else
      [("rig_instances", .obj (r.rigInstances.map fun kv => (kv.1, rigInstanceToJson cd kv.2)))])
    ++ (if r.pano.length = 0 then [] else
      [("pano_shots", .obj (r.pano.map fun kv => (kv.1, gs kv.1 kv.2)))])
    ++ [("reference_lla", .obj [("latitude", .num r.reference.1),
        ("longitude", .num r.reference.2.1), ("altitude", .num r.reference.2.2)])]) = o
  have hwrite : toJson cd r = some o := by
    simp only [toJson, hcams, w1, w2, w3, w4, w5, w6, w7, Option.bind_eq_bind, Option.bind_some]
    rw [hobj]
  -- the parts of the object
  have o1 : reqItems o "cameras" = some (r.cameras.map fun kv => (kv.1, gc kv.1 kv.2)) := by
    rw [← hobj]; simp [reqItems, J.get?, Dict.get?, items?]
  have o2 : reqItems o "shots" = some (r.shots.map fun kv => (kv.1, gs kv.1 kv.2)) := by
    rw [← hobj]; simp [reqItems, J.get?, Dict.get?, items?]
  have o3 : optItems o "points" = some (r.points.map fun kv => (kv.1, pointToJson kv.2)) := by
    rw [← hobj]; simp [optItems, J.get?, Dict.get?, items?]
  have o4 : optItems o "biases" = some (r.biases.map fun kv => (kv.1, biasToJson cd kv.2)) := by
    rw [← hobj]; simp [optItems, J.get?, Dict.get?, items?]
  have o5 : optItems o "rig_cameras" =
      some (r.rigCameras.map fun kv => (kv.1, rigCameraToJson cd kv.2)) := by
    rw [← hobj]
    by_cases c1 : r.rigCameras = [] <;> by_cases c2 : r.rigInstances = [] <;>
      by_cases c3 : r.pano = [] <;>
      simp [optItems, J.get?, Dict.get?, items?, c1, c2, c3, List.length_eq_zero_iff]
  have o6 : optItems o "rig_instances" =
      some (r.rigInstances.map fun kv => (kv.1, rigInstanceToJson cd kv.2)) := by
    rw [← hobj]
    by_cases c1 : r.rigCameras = [] <;> by_cases c2 : r.rigInstances = [] <;>
      by_cases c3 : r.pano = [] <;>
      simp [optItems, J.get?, Dict.get?, items?, c1, c2, c3, List.length_eq_zero_iff]
  have o7 : optItems o "pano_shots" = some (r.pano.map fun kv => (kv.1, gs kv.1 kv.2)) := by
    rw [← hobj]
    by_cases c1 : r.rigCameras = [] <;> by_cases c2 : r.rigInstances = [] <;>
      by_cases c3 : r.pano = [] <;>
      simp [optItems, J.get?, Dict.get?, items?, c1, c2, c3, List.length_eq_zero_iff]
  have o8 : o.get? "reference_lla" = some (.obj [("latitude", .num r.reference.1),
        ("longitude", .num r.reference.2.1), ("altitude", .num r.reference.2.2)]) := by
    rw [← hobj]
    by_cases c1 : r.rigCameras = [] <;> by_cases c2 : r.rigInstances = [] <;>
      by_cases c3 : r.pano = [] <;> simp [J.get?, Dict.get?, c1, c2, c3, List.length_eq_zero_iff]
  -- reading
  have s1 := cams_stage (P := P) r.cameras (r.cameras.map fun kv => (kv.1, gc kv.1 kv.2)) {}
    (forall2_of _ _ gc (by
      intro k c hm
      refine ⟨rfl, ?_⟩
      obtain ⟨j, e1, e2⟩ := C46_roundtrip c (hv.camLegal k c hm).1 (hv.camLegal k c hm).2
      rw [hv.camId k c hm] at e2
      simp [gc, e1, e2])) hv.camId hv.wfCams (by simp) (by simp)
  simp only [List.nil_append] at s1
  obtain ⟨b, s2, b1, b2⟩ := bias_stage cd hcd r.biases
    { cameras := r.cameras, biases := r.cameras.map fun kc => (kc.1, ((1 : P), (1 : ℚ))) }
    hv.wfBias (by simpa [Dict.Wf, Dict.keys, Function.comp_def] using hv.wfCams)
    (by
      intro k hk
      have := (hv.biasCam k).1 hk
      simpa [Dict.keys, Function.comp_def] using this)
  have s3 := rc_stage cd hcd r.rigCameras { cameras := r.cameras, biases := b } hv.wfRc (by simp)
  simp only [List.nil_append] at s3
  have s4 := ri_stage cd hcd r.rigInstances
    { cameras := r.cameras, biases := b, rigCameras := r.rigCameras } hv.wfRi (by simp)
  simp only [List.nil_append] at s4
  obtain ⟨rig, g1, g2, g3, g4⟩ := rigShots_outer cd
    ((r.pano.map fun kv => (kv.1, gs kv.1 kv.2)).map Prod.fst) r.rigInstances []
  have hpk : (r.pano.map fun kv => (kv.1, gs kv.1 kv.2)).map Prod.fst = r.pano.keys := by
    simp [Dict.keys, Function.comp_def]
  rw [hpk] at g1 g2 g4
  have s5 : rigShots o = some rig := by simp only [rigShots, o6, o7, hpk]; exact g1
  have hrig : ∀ s sh, (s, sh) ∈ r.shots → rig.get? s = some (sh.inst, sh.rigCamera) := by
    intro s sh hs
    have hnp := hv.disjoint s (List.mem_map.2 ⟨_, hs, rfl⟩)
    obtain ⟨-, -, x, h3, h4⟩ := hv.shotRefs s sh (.inl hs)
    have hk := g4 _ x h3 s _ h4 hnp
    rw [Dict.mem_keys_iff] at hk
    obtain ⟨v, hvv⟩ := Option.isSome_iff_exists.1 hk
    rcases g2 s v hvv with h | ⟨-, y, h5, h6⟩
    · simp at h
    · rw [hvv]
      rcases hv.membersShots _ y h5 s _ h6 with ⟨sh', a1, b1, c1⟩ | ⟨sh', a1, -⟩
      · have := Dict.get?_of_mem hv.wfShots a1
        rw [Dict.get?_of_mem hv.wfShots hs] at this
        cases this
        rw [b1, c1]
      · exact absurd (List.mem_map.2 ⟨_, a1, rfl⟩) hnp
  have inv0 : InvRI r (r.rigInstances.map fun kv => (kv.1, (⟨kv.2.pose, []⟩ : Inst P))) [] := by
    constructor
    · simp [Dict.keys, Function.comp_def]
    · intro i x0 hx0
      refine ⟨⟨x0.pose, []⟩, ?_, rfl, Dict.wf_nil, by simp⟩
      have h1 := Dict.get?_mapVals (fun _ (x : Inst P) => (⟨x.pose, []⟩ : Inst P)) r.rigInstances i
      rw [Dict.get?_of_mem hv.wfRi hx0] at h1
      exact h1
  obtain ⟨ri1, s6, inv1⟩ := shots_stage cd hcd r hv rig hrig r.shots
    (r.shots.map fun kv => (kv.1, gs kv.1 kv.2))
    { cameras := r.cameras, biases := b, rigCameras := r.rigCameras
      rigInstances := r.rigInstances.map fun kv => (kv.1, ⟨kv.2.pose, []⟩) } []
    (forall2_of _ _ gs (fun s sh h => ⟨rfl, hgs s sh (.inl h)⟩)) (fun _ _ h => h) hv.wfShots
    (by simp) (by simp) inv0 (fun _ h => h) (fun _ => rfl)
  simp only [List.nil_append] at s6 inv1
  have s7 := points_stage r.points
    { cameras := r.cameras, biases := b, rigCameras := r.rigCameras, rigInstances := ri1
      shots := r.shots.map fun kv => (kv.1, kv.2.written) } hv.wfPoints (by simp)
  simp only [List.nil_append] at s7
  obtain ⟨ri2, s8, inv2⟩ := pano_stage cd hcd r hv r.pano
    (r.pano.map fun kv => (kv.1, gs kv.1 kv.2))
    { cameras := r.cameras, biases := b, rigCameras := r.rigCameras, rigInstances := ri1
      shots := r.shots.map fun kv => (kv.1, kv.2.written), points := r.points } r.shots.keys
    (forall2_of _ _ gs (fun s sh h => ⟨rfl, hgs s sh (.inr h)⟩)) (fun _ _ h => h) hv.wfPano
    (fun s hs hc => hv.disjoint s hc hs) (by simp) inv1 (fun _ h => h) (fun _ => rfl)
  simp only [List.nil_append] at s8
  refine ⟨{ cameras := r.cameras, biases := b, rigCameras := r.rigCameras, rigInstances := ri2
            shots := r.shots.map fun kv => (kv.1, kv.2.written)
            pano := r.pano.map fun kv => (kv.1, kv.2.written), points := r.points
            reference := r.reference }, hwrite, ?_, ?_⟩
  · simp only [fromJson, o1, o2, o3, o4, o5, o6, o7, s5, Option.bind_eq_bind, Option.bind_some, s1, s2,
      s3, s4, s6, s7, s8]
    simp only [readReference, o8]
    rfl
  · have hpose : ∀ i : String, (ri2.get? i).map Inst.pose = (r.rigInstances.get? i).map Inst.pose := by
      intro i
      cases hx : r.rigInstances.get? i with
      | none =>
        have : i ∉ ri2.keys := by rw [inv2.keys]; exact (Dict.get?_eq_none_iff _ _).1 hx
        rw [(Dict.get?_eq_none_iff _ _).2 this]
      | some x0 =>
        obtain ⟨x, e1, e2, -⟩ := inv2.inst i x0 (Dict.mem_of_get? hx)
        rw [e1]; simp [e2]
    have hmem : ∀ i s : String, (ri2.get? i).map (fun x => x.members.get? s) =
        (r.rigInstances.get? i).map (fun x => x.members.get? s) := by
      intro i s
      cases hx : r.rigInstances.get? i with
      | none =>
        have : i ∉ ri2.keys := by rw [inv2.keys]; exact (Dict.get?_eq_none_iff _ _).1 hx
        rw [(Dict.get?_eq_none_iff _ _).2 this]
      | some x0 =>
        obtain ⟨x, e1, -, -, e4⟩ := inv2.inst i x0 (Dict.mem_of_get? hx)
        rw [e1]
        simp only [Option.map_some, Option.some.injEq]
        apply Option.ext
        intro rc
        rw [e4]
        refine ⟨fun h => h.1, fun h => ⟨h, ?_⟩⟩
        rw [List.mem_append]
        rcases hv.membersShots i x0 (Dict.mem_of_get? hx) s rc (Dict.mem_of_get? h) with
          ⟨sh, a, -⟩ | ⟨sh, a, -⟩
        · exact .inl (List.mem_map.2 ⟨_, a, rfl⟩)
        · exact .inr (List.mem_map.2 ⟨_, a, rfl⟩)
    refine ⟨rfl, ?_, rfl, inv2.keys, hpose, hmem, rfl, rfl, ?_, rfl, rfl⟩
    · intro k
      simp only [b2 k]
      cases hk : r.biases.get? k with
      | some v => rfl
      | none =>
        simp only
        rw [Dict.get?_eq_none_iff]
        have h1 := (Dict.get?_eq_none_iff _ _).1 hk
        rw [hv.biasCam] at h1
        simpa [Dict.keys, Function.comp_def] using h1
    · intro s sh hs
      obtain ⟨-, h2, x, h3, -⟩ := hv.shotRefs s sh hs
      obtain ⟨y, hy, hyp, -⟩ := inv2.inst _ x h3
      obtain ⟨rp, hrp⟩ := Option.isSome_iff_exists.1 ((Dict.mem_keys_iff _ _).1 h2)
      simp only [shotPose, Shot.written, Dict.get?_of_mem hv.wfRi h3, hy, hyp, hrp]

/-- **C49.** Every reconstruction that a program builds with the API — any sequence of calls that
add or remove cameras, biases, rig cameras, rig instances, shots, pano shots and points — can be
written to JSON, the JSON can be read, and the result holds the same data. -/
theorem C49_roundtrip (cd : Codec P) (hcd : cd.Lawful) (r : Rec P) (h : Reachable r) :
    ∃ j r', toJson cd r = some j ∧ fromJson cd j = some r' ∧ Same r r' :=
  roundtrip_valid cd hcd r h.valid

/-- The same for a list of reconstructions (`save_reconstruction`, `load_reconstruction`). -/
theorem C49_list (cd : Codec P) (hcd : cd.Lawful) (rs : List (Rec P)) (h : ∀ r ∈ rs, Reachable r) :
    ∃ js rs', recsToJson cd rs = some js ∧ recsFromJson cd js = some rs' ∧
      List.Forall₂ Same rs rs' := by
  induction rs with
  | nil => exact ⟨[], [], rfl, rfl, .nil⟩
  | cons r rs ih =>
    obtain ⟨j, r', e1, e2, e3⟩ := C49_roundtrip cd hcd r (h r (by simp))
    obtain ⟨js, rs', f1, f2, f3⟩ := ih (fun r hr => h r (by simp [hr]))
    refine ⟨j :: js, r' :: rs', ?_, ?_, .cons e3 f3⟩
    · simp only [recsToJson] at f1 ⊢
      simp [List.mapM_cons, e1, f1]
    · simp only [recsFromJson] at f2 ⊢
      simp [List.mapM_cons, e2, f2]

/-- The tables of a reachable reconstruction agree: each shot's camera, rig camera and rig instance
exist and the instance lists the shot, under that rig camera, exactly once. -/
theorem C49_consistent (r : Rec P) (h : Reachable r) (s : String) (sh : Shot)
    (hs : (s, sh) ∈ r.shots ∨ (s, sh) ∈ r.pano) :
    sh.camera ∈ r.cameras.keys ∧ sh.rigCamera ∈ r.rigCameras.keys ∧
      ∃ x : Inst P, r.rigInstances.get? sh.inst = some x ∧ x.members.get? s = some sh.rigCamera ∧
        ∀ i y, r.rigInstances.get? i = some y → y.members.has s → i = sh.inst := by
  have hv := h.valid
  obtain ⟨h1, h2, x, h3, h4⟩ := hv.shotRefs s sh hs
  refine ⟨h1, h2, x, Dict.get?_of_mem hv.wfRi h3, Dict.get?_of_mem (hv.membersWf _ _ h3) h4, ?_⟩
  intro i y hy hm
  have hmk := (Dict.has_iff_mem _ _).1 hm
  obtain ⟨⟨s', rc⟩, hm1, rfl⟩ := List.mem_map.1 hmk
  rcases hv.membersShots i y (Dict.mem_of_get? hy) _ _ hm1 with ⟨sh', a, b, -⟩ | ⟨sh', a, b, -⟩ <;>
    rcases hs with hs | hs
  · have := Dict.get?_of_mem hv.wfShots a
    rw [Dict.get?_of_mem hv.wfShots hs] at this
    cases this; exact b.symm
  · exact absurd (List.mem_map.2 ⟨_, hs, rfl⟩) (hv.disjoint _ (List.mem_map.2 ⟨_, a, rfl⟩))
  · exact absurd (List.mem_map.2 ⟨_, a, rfl⟩) (hv.disjoint _ (List.mem_map.2 ⟨_, hs, rfl⟩))
  · have := Dict.get?_of_mem hv.wfPano a
    rw [Dict.get?_of_mem hv.wfPano hs] at this
    cases this; exact b.symm

/-! ## Limits -/

/-- `add_rig_instance` with an empty instance of an id in use takes its shots away: the shots still
name the instance, the instance no longer lists them, and such a shot can no longer be removed. -/
theorem C49_add_existing_instance (r : Rec P) (h : Reachable r) (s : String) (sh : Shot)
    (hs : (s, sh) ∈ r.shots) :
    ∃ r', step r (.rigInstance sh.inst) = some r' ∧ r'.shots.get? s = some sh ∧
      (∃ x : Inst P, r'.rigInstances.get? sh.inst = some x ∧ x.members = []) ∧
      step r' (.removeShot s) = none := by
  have hg := Dict.get?_of_mem h.valid.wfShots hs
  refine ⟨_, rfl, hg, ⟨_, Dict.get?_set_self _ _ _, rfl⟩, ?_⟩
  simp [step, removeShot, addRigInstance, hg, Dict.has]

/-- A run of calls; `none` when one raises. -/
def runOps (r : Rec P) (ops : List (Op P)) : Option (Rec P) := ops.foldlM step r

/-- Poses that are translations, with their JSON vectors: an instance of the pose group for
examples. -/
abbrev Shift := Multiplicative (ℚ × ℚ × ℚ)

/-- The vectors of a translation. -/
def shiftCodec : Codec Shift :=
  ⟨fun _ => (0, 0, 0), fun p => Multiplicative.toAdd p, fun _ t => Multiplicative.ofAdd t⟩

theorem shiftCodec_lawful : shiftCodec.Lawful := fun _ => rfl

/-- A perspective camera named "cam". -/
def demoCam : Cam := { createPerspective 1 0 0 with id := "cam", width := 640, height := 480 }

/-- A rig of two cameras with two shots, a shot on its own, a pano shot and a point. -/
def demoOps : List (Op Shift) :=
  [.camera demoCam, .bias "cam" (Multiplicative.ofAdd (1, 0, 0), 2),
   .rigCamera "left" (Multiplicative.ofAdd (0, 0, 0)),
   .rigCamera "right" (Multiplicative.ofAdd (1, 0, 0)), .rigInstance "i",
   .shot "L.jpg" "cam" (Multiplicative.ofAdd (5, 6, 7)) (some "left") (some "i") {},
   .shot "R.jpg" "cam" (Multiplicative.ofAdd (6, 6, 7)) (some "right") (some "i")
     { metadata := sampleMeta, scale := 2 },
   .shot "S.jpg" "cam" (Multiplicative.ofAdd (1, 1, 1)) none none {},
   .pano "P.jpg" "cam" (Multiplicative.ofAdd (2, 2, 2)) {},
   .point "1" ⟨(1, 2, 3), (255, 0, 7)⟩, .reference (46, 6, 400)]

/-- Legality and success of every call, decidably. -/
def reachesBy (ops : List (Op P)) (r r' : Rec P) : Prop :=
  match ops with
  | [] => r = r'
  | o :: os => o.Ok r ∧ ∃ r1, step r o = some r1 ∧ reachesBy os r1 r'

theorem reachable_of {ops : List (Op P)} {r r' : Rec P} (h : Reachable r) (hr : reachesBy ops r r') :
    Reachable r' := by
  induction ops generalizing r with
  | nil => cases hr; exact h
  | cons o os ih =>
    obtain ⟨h1, r1, h2, h3⟩ := hr
    exact ih (.call r r1 o h h1 h2) h3

theorem demoCam_ok : Legal demoCam ∧ Usable demoCam := by
  constructor
  · simp [Legal, demoCam, createPerspective, layout]
  · simp [Usable, demoCam, createPerspective, layout]

/-- The hypotheses of `C49_roundtrip` are met by a reconstruction with a two-camera rig, a single
shot and a pano shot. -/
example : ∃ r : Rec Shift, Reachable r ∧ r.shots.length = 3 ∧ r.pano.length = 1 ∧
    r.rigInstances.length = 3 ∧ (r.rigInstances.get? "i").map (fun x => x.members.length) = some 2 := by
  refine ⟨(runOps {} demoOps).getD {}, reachable_of .empty (ops := demoOps) ?_, rfl, rfl, rfl, rfl⟩
  refine ⟨demoCam_ok, _, rfl, trivial, _, rfl, trivial, _, rfl, trivial, _, rfl, ?_, _, rfl, ?_, _, rfl,
    ?_, _, rfl, ?_, _, rfl, ?_, _, rfl, trivial, _, rfl, trivial, _, rfl, rfl⟩
  · exact of_decide_eq_true (p := "i" ∉ ([] : List String)) rfl
  · exact ⟨by decide, by decide, of_decide_eq_true (p := "L.jpg" ∉ ([] : List String)) rfl⟩
  · exact ⟨by decide, by decide, of_decide_eq_true (p := "R.jpg" ∉ ([] : List String)) rfl⟩
  · exact ⟨by decide, by decide, of_decide_eq_true (p := "S.jpg" ∉ ([] : List String)) rfl⟩
  · exact of_decide_eq_true (p := "P.jpg" ∉ ["L.jpg", "R.jpg", "S.jpg"]) rfl

/-- A shot "X" of a rig and a pano shot with the same name. -/
def clashOps : List (Op Shift) :=
  [.camera demoCam, .rigCamera "left" 1, .rigInstance "i",
   .shot "X" "cam" (Multiplicative.ofAdd (5, 6, 7)) (some "left") (some "i") {},
   .pano "X" "cam" (Multiplicative.ofAdd (2, 2, 2)) {}]

/-- Why shots and pano shots need different names: when a shot of a rig shares its name with a pano
shot, the calls succeed and so does writing and reading, but the shot read back has left its rig
instance and its rig camera. -/
theorem C49_name_clash :
    ∃ (r r' : Rec Shift) (j : J), runOps {} clashOps = some r ∧ toJson shiftCodec r = some j ∧
      fromJson shiftCodec j = some r' ∧
      (r.shots.get? "X").map (fun sh => (sh.inst, sh.rigCamera)) = some ("i", "left") ∧
      (r'.shots.get? "X").map (fun sh => (sh.inst, sh.rigCamera)) = some ("X", "cam") := by
  refine ⟨(runOps {} clashOps).getD {},
    ((toJson shiftCodec ((runOps {} clashOps).getD {})).bind (fromJson shiftCodec)).getD {},
    (toJson shiftCodec ((runOps {} clashOps).getD {})).getD .null, rfl, ?_, ?_, rfl, ?_⟩
  · have h : (toJson shiftCodec ((runOps {} clashOps).getD {})).isSome = true := by decide +kernel
    obtain ⟨j, hj⟩ := Option.isSome_iff_exists.1 h
    rw [hj]; rfl
  · have h : ((toJson shiftCodec ((runOps {} clashOps).getD {})).bind (fromJson shiftCodec)).isSome
        = true := by decide +kernel
    obtain ⟨r, hr⟩ := Option.isSome_iff_exists.1 h
    obtain ⟨j, hj1, hj2⟩ := Option.bind_eq_some_iff.1 hr
    rw [hr, hj1]; exact hj2
  · decide +kernel

end Verif.RecIO
