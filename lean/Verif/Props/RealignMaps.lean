import Verif.Model.RealignMaps
import Verif.Props.Pose
import Verif.Props.Geo
import Mathlib.Tactic.NormNum

/-!
# C87: realigning a map to another one
-/
set_option linter.unusedSectionVars false
set_option linter.unusedSimpArgs false
namespace Verif.Realign
open Matrix Verif.Pose
variable {Id C : Type} [DecidableEq Id]

/-- A map whose parts fit together. -/
structure Sound (m : RMap Id C) : Prop where
  shotsNodup : m.shots.Wf
  rigid : ∀ i p, m.instances.get? i = some p → Rigid p.1
  rigidCam : ∀ c p, m.rigCameras.get? c = some p → Rigid p
  instOf : ∀ s st, m.shots.get? s = some st → ∃ p, m.instances.get? st.inst = some p ∧ s ∈ p.2
  shotOf : ∀ i p, m.instances.get? i = some p → ∀ s ∈ p.2, ∃ st, m.shots.get? s = some st ∧ st.inst = i
  camOf : ∀ s st, m.shots.get? s = some st → ∃ p, m.rigCameras.get? st.rigCamera = some p

/-- The shot is in both maps. -/
def Common (src dst : RMap Id C) (s : Id) : Prop := (∃ st, src.shots.get? s = some st) ∧ ∃ st, dst.shots.get? s = some st

theorem has_iff (src : RMap Id C) (s : Id) : src.shots.has s = true ↔ ∃ st, src.shots.get? s = some st := by
  unfold Dict.has; exact Option.isSome_iff_exists

theorem Sound.pose {m : RMap Id C} (h : Sound m) {s : Id} {st : RShot Id} (hs : m.shots.get? s = some st) :
    ∃ p, m.shotPose s = some p ∧ Rigid p := by
  obtain ⟨i, hi, -⟩ := h.instOf s st hs
  obtain ⟨c, hc⟩ := h.camOf s st hs
  refine ⟨c.compose i.1, ?_, (C39_actions c i.1 (h.rigidCam _ _ hc) (h.rigid _ _ hi)).1.1⟩
  unfold RMap.shotPose
  rw [hs]
  simp only [hi, hc]

theorem shift_rigid (offset : V3 ℝ) {p : Pose ℝ} (hp : Rigid p) :
    Rigid (shift offset p) ∧ (shift offset p).getOrigin = p.getOrigin + offset ∧ (shift offset p).wcR = p.wcR :=
  (C39_origin p hp).2.1 _

/-! ### Points -/

theorem transform_origin {p : Pose ℝ} (hp : Rigid p) (x : V3 ℝ) : p.transform x = p.wcR *ᵥ (x - p.getOrigin) := by
  have c := (rigid_iff_cons _).1 hp
  unfold Pose.transform Pose.getOrigin
  rw [c.tr, sub_neg_eq_add, mulVec_add, mulVec_mulVec, c.orth, one_mulVec]

theorem rel_transform (scale : ℝ) {pf pt : Pose ℝ} (hf : Rigid pf) (ht : Rigid pt) (x : V3 ℝ) :
    pf.transform ((relTransform scale pf pt).transform x) = scale • pt.transform x := by
  have cf := (rigid_iff_cons _).1 hf
  have e : (relTransform scale pf pt).transform x - pf.getOrigin = scale • (pf.cwR *ᵥ (pt.wcR *ᵥ (x - pt.getOrigin))) := by
    unfold relTransform Similarity.transform Similarity.mk' Pose.ofWorldToCamera
    simp only
    rw [mulVec_sub, mulVec_sub, smul_sub, mulVec_mulVec, mulVec_mulVec, smul_mulVec, smul_mulVec]
    abel
  rw [transform_origin hf, transform_origin ht, e, mulVec_smul, mulVec_mulVec, cf.rot, cf.orth, one_mulVec]

/-- What the search has found: nothing if there is no candidate, else a candidate that is not farther than the others. -/
def Found (src dst : RMap Id C) (x : V3 ℝ) (seen : List Id) : Option (ℝ × Id) → Prop
  | none => ∀ s ∈ seen, ¬ Common src dst s
  | some b => b.2 ∈ seen ∧ Common src dst b.2 ∧ (∃ p, dst.shotPose b.2 = some p ∧ b.1 = dist2 x p) ∧
      ∀ s ∈ seen, Common src dst s → ∀ p, dst.shotPose s = some p → b.1 ≤ dist2 x p

theorem nearStep_found {src dst : RMap Id C} (hd : Sound dst) (x : V3 ℝ) (seen : List Id) (best : Option (ℝ × Id)) (s : Id)
    (h : Found src dst x seen best) : Found src dst x (seen ++ [s]) (nearStep src dst x best s) := by
  unfold nearStep
  by_cases hs : src.shots.has s = true
  · rw [if_pos hs]
    rw [has_iff] at hs
    cases hp : dst.shotPose s with
    | none =>
      have hnc : ¬ Common src dst s := by
        rintro ⟨-, st, hst⟩
        obtain ⟨p, hp', -⟩ := hd.pose hst
        rw [hp] at hp'
        exact absurd hp' (by simp)
      simp only
      cases best with
      | none =>
        intro s' hs'
        rcases List.mem_append.1 hs' with h1 | h1
        · exact h s' h1
        · rw [List.mem_singleton.1 h1]; exact hnc
      | some b =>
        obtain ⟨h1, h2, h3, h4⟩ := h
        refine ⟨by simp [h1], h2, h3, ?_⟩
        intro s' hs' hc
        rcases List.mem_append.1 hs' with h5 | h5
        · exact h4 s' h5 hc
        · rw [List.mem_singleton.1 h5] at hc; exact absurd hc hnc
    | some p =>
      have hc : Common src dst s := by
        refine ⟨hs, ?_⟩
        unfold RMap.shotPose at hp
        cases hst : dst.shots.get? s with
        | none => rw [hst] at hp; exact absurd hp (by simp)
        | some st => exact ⟨st, rfl⟩
      cases best with
      | none =>
        refine ⟨by simp, hc, ⟨p, hp, rfl⟩, ?_⟩
        intro s' hs' hc' p' hp'
        rcases List.mem_append.1 hs' with h5 | h5
        · exact absurd hc' (h s' h5)
        · rw [List.mem_singleton.1 h5] at hp'
          rw [hp] at hp'
          cases hp'
          exact le_refl _
      | some b =>
        obtain ⟨h1, h2, h3, h4⟩ := h
        simp only
        split
        · rename_i hlt
          refine ⟨by simp, hc, ⟨p, hp, rfl⟩, ?_⟩
          intro s' hs' hc' p' hp'
          rcases List.mem_append.1 hs' with h5 | h5
          · exact hlt.le.trans (h4 s' h5 hc' p' hp')
          · rw [List.mem_singleton.1 h5] at hp'
            rw [hp] at hp'
            cases hp'
            exact le_refl _
        · rename_i hlt
          refine ⟨by simp [h1], h2, h3, ?_⟩
          intro s' hs' hc' p' hp'
          rcases List.mem_append.1 hs' with h5 | h5
          · exact h4 s' h5 hc' p' hp'
          · rw [List.mem_singleton.1 h5] at hp'
            rw [hp] at hp'
            cases hp'
            exact not_lt.1 hlt
  · rw [if_neg hs]
    have hnc : ¬ Common src dst s := fun hc => hs ((has_iff src s).2 hc.1)
    cases best with
    | none =>
      intro s' hs'
      rcases List.mem_append.1 hs' with h1 | h1
      · exact h s' h1
      · rw [List.mem_singleton.1 h1]; exact hnc
    | some b =>
      obtain ⟨h1, h2, h3, h4⟩ := h
      refine ⟨by simp [h1], h2, h3, ?_⟩
      intro s' hs' hc
      rcases List.mem_append.1 hs' with h5 | h5
      · exact h4 s' h5 hc
      · rw [List.mem_singleton.1 h5] at hc; exact absurd hc hnc

theorem nearest_found {src dst : RMap Id C} (hd : Sound dst) (x : V3 ℝ) (obs : List Id) :
    Found src dst x obs (nearest src dst x obs) := by
  have : ∀ (l seen : List Id) (best : Option (ℝ × Id)), Found src dst x seen best →
      Found src dst x (seen ++ l) (l.foldl (nearStep src dst x) best) := by
    intro l
    induction l with
    | nil => intro seen best h; simpa using h
    | cons s l ih =>
      intro seen best h
      rw [List.foldl_cons]
      have := ih (seen ++ [s]) _ (nearStep_found hd x seen best s h)
      simpa using this
  have := this obs [] none (by intro s hs; simp at hs)
  rw [List.nil_append] at this
  exact this

theorem points_get (offset : V3 ℝ) (src dst : RMap Id C) (u : Bool) (l : Id) :
    (realign offset src dst u).points.get? l = (dst.points.get? l).map (fun e =>
      (if u then movePoint offset src dst e.1 e.2 else e.1, e.2.filter (fun s => src.shots.has s))) := by
  unfold realign
  simp only
  exact get?_map (fun e : V3 ℝ × List Id =>
      (if u then movePoint offset src dst e.1 e.2 else e.1, e.2.filter (fun s => src.shots.has s))) dst.points l

/-- A point seen by a shot that is in both maps moves with the nearest such shot: in the camera of that shot, moved to the
pose it has in the first map, the new point is where the old one was, up to the scale. Other points stay. -/
theorem C87_points (offset : V3 ℝ) (src dst : RMap Id C) (hs : Sound src) (hd : Sound dst) (l : Id) (x : V3 ℝ) (obs : List Id)
    (hl : dst.points.get? l = some (x, obs)) :
    ∃ x', (realign offset src dst true).points.get? l = some (x', obs.filter (fun s => src.shots.has s)) ∧
      ((∀ s ∈ obs, ¬ Common src dst s) → x' = x) ∧
      ((∃ s ∈ obs, Common src dst s) → ∃ s ∈ obs, ∃ sf pf pt, src.shots.get? s = some sf ∧ src.shotPose s = some pf ∧
        dst.shotPose s = some pt ∧
        (∀ s' ∈ obs, Common src dst s' → ∀ p, dst.shotPose s' = some p →
          (x - pt.getOrigin) ⬝ᵥ (x - pt.getOrigin) ≤ (x - p.getOrigin) ⬝ᵥ (x - p.getOrigin)) ∧
        (shift offset pf).transform x' = (if sf.scale = 0 then (1 : ℝ) else sf.scale⁻¹) • pt.transform x) := by
  refine ⟨movePoint offset src dst x obs, by rw [points_get, hl]; rfl, ?_, ?_⟩
  · intro h
    have hf := nearest_found (src := src) hd x obs
    unfold movePoint
    cases hn : nearest src dst x obs with
    | none => rfl
    | some b =>
      rw [hn] at hf
      exact absurd hf.2.1 (h _ hf.1)
  · rintro ⟨s, hso, hsc⟩
    have hf := nearest_found (src := src) hd x obs
    unfold movePoint
    cases hn : nearest src dst x obs with
    | none =>
      rw [hn] at hf
      exact absurd hsc (hf s hso)
    | some b =>
      rw [hn] at hf
      obtain ⟨h1, ⟨⟨sf, hsf⟩, -⟩, ⟨p, hp, hb⟩, h4⟩ := hf
      obtain ⟨pf, hpf, hrf⟩ := hs.pose hsf
      have hrt : Rigid p := by
        unfold RMap.shotPose at hp
        cases hst : dst.shots.get? b.2 with
        | none => rw [hst] at hp; exact absurd hp (by simp)
        | some st =>
          obtain ⟨p', hp', hr⟩ := hd.pose hst
          unfold RMap.shotPose at hp'
          rw [hp] at hp'
          cases hp'
          exact hr
      refine ⟨b.2, h1, sf, pf, p, hsf, hpf, hp, ?_, ?_⟩
      · intro s' hs' hc p' hp'
        show dist2 x p ≤ dist2 x p'
        rw [← hb]
        exact h4 s' hs' hc p' hp'
      · have ht : transformOf offset src dst b.2 = some (relTransform (relScale sf.scale) (shift offset pf) p) := by
          unfold transformOf
          rw [hsf, hpf, hp]
        simp only [ht]
        rw [rel_transform _ (shift_rigid offset hrf).1 hrt]
        unfold relScale
        by_cases h0 : sf.scale = 0
        · rw [if_pos h0, if_neg (not_not.2 h0)]
        · rw [if_neg h0, if_pos h0, one_div]

/-- Without the update the points keep their place; in both cases no point is removed or added, and the observations of the
removed shots go. -/
theorem C87_points_kept (offset : V3 ℝ) (src dst : RMap Id C) (u : Bool) (l : Id) :
    ((realign offset src dst u).points.get? l).map (·.2) = (dst.points.get? l).map (fun e => e.2.filter (fun s => src.shots.has s)) ∧
      ((realign offset src dst false).points.get? l).map (·.1) = (dst.points.get? l).map (·.1) := by
  rw [points_get, points_get, Option.map_map, Option.map_map]
  exact ⟨rfl, rfl⟩

/-! ### Shots -/

theorem get?_filterMap_moveShot (src : RMap Id C) (shots : Dict Id (RShot Id)) (s : Id) :
    Dict.get? (shots.filterMap (moveShot src)) s =
      match src.shots.get? s with
      | none => none
      | some sf => (shots.get? s).map (fun st : RShot Id => { st with scale := sf.scale, mergeCC := sf.mergeCC }) := by
  induction shots with
  | nil => cases src.shots.get? s <;> rfl
  | cons e shots ih =>
    obtain ⟨k, st⟩ := e
    cases hk : src.shots.get? k with
    | none =>
      have e1 : moveShot src (k, st) = none := by unfold moveShot; simp only [hk]
      rw [List.filterMap_cons_none e1, ih]
      cases hs : src.shots.get? s with
      | none => rfl
      | some sf =>
        have : k ≠ s := by rintro rfl; rw [hk] at hs; exact absurd hs (by simp)
        simp only [Dict.get?, if_neg this]
    | some sf' =>
      have e1 : moveShot src (k, st) = some (k, { st with scale := sf'.scale, mergeCC := sf'.mergeCC }) := by
        unfold moveShot; simp only [hk]
      rw [List.filterMap_cons_some e1]
      simp only [Dict.get?]
      by_cases hks : k = s
      · subst hks
        rw [if_pos rfl, if_pos rfl, hk]
        rfl
      · rw [if_neg hks, ih, if_neg hks]

theorem shots_get (offset : V3 ℝ) (src dst : RMap Id C) (u : Bool) (s : Id) :
    (realign offset src dst u).shots.get? s =
      match src.shots.get? s with
      | none => none
      | some sf => (dst.shots.get? s).map (fun st : RShot Id => { st with scale := sf.scale, mergeCC := sf.mergeCC }) :=
  get?_filterMap_moveShot src dst.shots s

/-- The shots left are those of the second map that are in the first, with the scale and the component they have there. -/
theorem C87_shots (offset : V3 ℝ) (src dst : RMap Id C) (u : Bool) (s : Id) :
    ((∃ st, (realign offset src dst u).shots.get? s = some st) ↔ Common src dst s) ∧
    ∀ sf st, src.shots.get? s = some sf → dst.shots.get? s = some st →
      (realign offset src dst u).shots.get? s = some ⟨st.camera, st.inst, st.rigCamera, sf.scale, sf.mergeCC⟩ := by
  constructor
  · rw [shots_get]
    unfold Common
    cases src.shots.get? s with
    | none => simp
    | some sf => cases dst.shots.get? s <;> simp
  · intro sf st h1 h2
    rw [shots_get, h1, h2]
    rfl

theorem instances_get (offset : V3 ℝ) (src dst : RMap Id C) (u : Bool) (i : Id) :
    (realign offset src dst u).instances.get? i = (dst.instances.get? i).map (fun e =>
      (moveInstance offset src e.1 e.2, e.2.filter (fun s => src.shots.has s))) := by
  unfold realign
  simp only
  exact get?_map (fun e : Pose ℝ × List Id =>
    (moveInstance offset src e.1 e.2, e.2.filter (fun s => src.shots.has s))) dst.instances i

/-- The two maps have the same rig at a shot: same pose of the rig camera, and the shots of its instance that are in the
first map all have the same pose of the instance there. -/
def SameRig (src dst : RMap Id C) (s : Id) : Prop :=
  ∃ sf st qs i pc, src.shots.get? s = some sf ∧ dst.shots.get? s = some st ∧ src.instances.get? sf.inst = some qs ∧
    dst.instances.get? st.inst = some i ∧ src.rigCameras.get? sf.rigCamera = some pc ∧
    dst.rigCameras.get? st.rigCamera = some pc ∧
    ∀ s' ∈ i.2, ∀ sf', src.shots.get? s' = some sf' → ∃ q, src.instances.get? sf'.inst = some q ∧ q.1 = qs.1

theorem compose_shift (offset : V3 ℝ) {pc q : Pose ℝ} (hc : Rigid pc) (hq : Rigid q) :
    pc.compose (shift offset q) = shift offset (pc.compose q) := by
  obtain ⟨h1, h2, h3⟩ := shift_rigid offset hq
  have hcomp := (C39_actions pc q hc hq).1
  have hcomp' := (C39_actions pc (shift offset q) hc h1).1
  obtain ⟨g1, g2, g3⟩ := shift_rigid offset hcomp.1
  have c1 := (rigid_iff_cons _).1 hcomp'.1
  have c2 := (rigid_iff_cons _).1 g1
  have hR : (pc.compose (shift offset q)).wcR = (shift offset (pc.compose q)).wcR := by
    rw [g3]
    show pc.wcR * (shift offset q).wcR = pc.wcR * q.wcR
    rw [h3]
  have ht : ∀ x, (pc.compose (shift offset q)).transform x = (shift offset (pc.compose q)).transform x := by
    intro x
    have e1 : (pc.compose (shift offset q)).transform x = (pc.compose q).transform (x - offset) := by
      rw [hcomp'.2, hcomp.2, transform_origin h1, transform_origin hq, h2, h3]
      congr 2
      abel
    rw [e1, transform_origin hcomp.1, transform_origin g1, g2, g3]
    congr 1
    abel
  refine c1.ext c2 hR ?_
  have := ht 0
  unfold Pose.transform at this
  rwa [mulVec_zero, mulVec_zero, zero_add, zero_add] at this

/-- Where the two maps have the same rig, the shot has afterwards the pose of the first map, its origin moved by the offset of
the references. -/
theorem C87_shot_pose (offset : V3 ℝ) (src dst : RMap Id C) (hs : Sound src) (hd : Sound dst) (u : Bool) (s : Id)
    (hr : SameRig src dst s) :
    ∃ pf, src.shotPose s = some pf ∧ (realign offset src dst u).shotPose s = some (shift offset pf) := by
  obtain ⟨sf, st, qs, i, pc, h1, h2, h3, h4, h5, h6, h7⟩ := hr
  refine ⟨pc.compose qs.1, ?_, ?_⟩
  · unfold RMap.shotPose
    rw [h1]
    simp only [h3, h5]
  · have hmem : s ∈ i.2 := by
      obtain ⟨p, hp, hm⟩ := hd.instOf s st h2
      rw [h4] at hp
      cases hp
      exact hm
    have hmove : moveInstance offset src i.1 i.2 = shift offset qs.1 := by
      unfold moveInstance
      cases hf : i.2.find? (fun s => src.shots.has s) with
      | none =>
        have := List.find?_eq_none.1 hf s hmem
        exact absurd ((has_iff src s).2 ⟨sf, h1⟩) this
      | some s' =>
        have hm' := List.mem_of_find?_eq_some hf
        have hh := List.find?_some hf
        obtain ⟨sf', hsf'⟩ := (has_iff src s').1 hh
        obtain ⟨q, hq, hqe⟩ := h7 s' hm' sf' hsf'
        simp only [hsf', hq, hqe]
    unfold RMap.shotPose
    rw [(C87_shots offset src dst u s).2 sf st h1 h2]
    simp only
    rw [instances_get, h4]
    simp only [Option.map_some]
    rw [show (realign offset src dst u).rigCameras = dst.rigCameras from rfl, h6, hmove]
    simp only
    rw [compose_shift offset (hs.rigidCam _ _ h5) (hs.rigid _ _ h3)]

/-- The shot a point moves with sees it after the alignment as before: its coordinates in the camera are the old ones up to
the scale, so its projection is the same. -/
theorem C87_projection (offset : V3 ℝ) (src dst : RMap Id C) (hs : Sound src) (hd : Sound dst) (l : Id) (x : V3 ℝ)
    (obs : List Id) (hl : dst.points.get? l = some (x, obs)) (hr : ∀ s ∈ obs, Common src dst s → SameRig src dst s)
    (hc : ∃ s ∈ obs, Common src dst s) (hp : ∀ s sf, src.shots.get? s = some sf → 0 ≤ sf.scale) :
    ∃ (x' : V3 ℝ) (s : Id) (p p' : Pose ℝ) (k : ℝ), s ∈ obs ∧ (realign offset src dst true).points.get? l = some (x', obs.filter (fun s => src.shots.has s)) ∧
      dst.shotPose s = some p ∧ (realign offset src dst true).shotPose s = some p' ∧ 0 < k ∧
      p'.transform x' = k • p.transform x := by
  obtain ⟨x', h1, -, h3⟩ := C87_points offset src dst hs hd l x obs hl
  obtain ⟨s, hso, sf, pf, pt, h4, h5, h6, -, h7⟩ := h3 hc
  have hcs : Common src dst s := by
    refine ⟨⟨sf, h4⟩, ?_⟩
    unfold RMap.shotPose at h6
    cases hst : dst.shots.get? s with
    | none => rw [hst] at h6; exact absurd h6 (by simp)
    | some st => exact ⟨st, rfl⟩
  obtain ⟨pf', h8, h9⟩ := C87_shot_pose offset src dst hs hd true s (hr s hso hcs)
  rw [h5] at h8
  cases h8
  refine ⟨x', s, pt, _, if sf.scale = 0 then (1 : ℝ) else sf.scale⁻¹, hso, h1, h6, h9, ?_, h7⟩
  split
  · norm_num
  · rename_i h0
    exact inv_pos.2 (lt_of_le_of_ne (hp s sf h4) (Ne.symm h0))

/-! ### Cameras -/

theorem cameras_fold (src : RMap Id C) (shots : Dict Id (RShot Id)) (cams : Dict Id C) (c : Id) :
    (shots.foldl (cameraStep src) cams).get? c = cams.get? c ∨ ∃ e ∈ shots, e.2.camera = c ∧ ∃ sf v,
      src.shots.get? e.1 = some sf ∧ src.cameras.get? sf.camera = some v ∧
      (shots.foldl (cameraStep src) cams).get? c = some v := by
  induction shots generalizing cams with
  | nil => exact Or.inl rfl
  | cons e shots ih =>
    rw [List.foldl_cons]
    rcases ih (cameraStep src cams e) with h | ⟨e', he', h1, sf, v, h2, h3, h4⟩
    · rw [h]
      unfold cameraStep
      cases hs : src.shots.get? e.1 with
      | none => exact Or.inl rfl
      | some sf =>
        cases hv : src.cameras.get? sf.camera with
        | none => simp only [hv]; exact Or.inl trivial
        | some v =>
          simp only [hv]
          by_cases hc : e.2.camera = c
          · right
            exact ⟨e, by simp, hc, sf, v, hs, hv, by rw [Dict.get?_set, if_pos hc]⟩
          · left
            rw [Dict.get?_set, if_neg hc]
    · exact Or.inr ⟨e', by simp [he'], h1, sf, v, h2, h3, h4⟩

theorem cameras_set (src : RMap Id C) (shots : Dict Id (RShot Id)) (cams : Dict Id C) (c : Id) (v : C)
    (hall : ∀ e ∈ shots, e.2.camera = c → ∀ sf, src.shots.get? e.1 = some sf → src.cameras.get? sf.camera = some v)
    (h : cams.get? c = some v ∨ ∃ e ∈ shots, e.2.camera = c ∧ ∃ sf, src.shots.get? e.1 = some sf) :
    (shots.foldl (cameraStep src) cams).get? c = some v := by
  induction shots generalizing cams with
  | nil =>
    rcases h with h | ⟨e, he, -⟩
    · exact h
    · simp at he
  | cons e shots ih =>
    rw [List.foldl_cons]
    apply ih _ (fun e' he' => hall e' (by simp [he']))
    by_cases hc : e.2.camera = c ∧ ∃ sf, src.shots.get? e.1 = some sf
    · obtain ⟨hc, sf, hsf⟩ := hc
      left
      unfold cameraStep
      simp only [hsf, hall e (by simp) hc sf hsf]
      rw [Dict.get?_set, if_pos hc]
    · rcases h with h | ⟨e', he', h1, h2⟩
      · left
        unfold cameraStep
        cases hs : src.shots.get? e.1 with
        | none => exact h
        | some sf =>
          cases hv : src.cameras.get? sf.camera with
          | none => simp only [hv]; exact h
          | some w =>
            simp only [hv]
            have : e.2.camera ≠ c := fun h' => hc ⟨h', sf, hs⟩
            rw [Dict.get?_set, if_neg this]
            exact h
      · rcases List.mem_cons.1 he' with rfl | he'
        · exact absurd ⟨h1, h2⟩ hc
        · exact Or.inr ⟨e', he', h1, h2⟩

/-- A camera whose shots that are in both maps all have the same parameters in the first map gets these parameters; a camera
without such a shot keeps its own. -/
theorem C87_cameras (offset : V3 ℝ) (src dst : RMap Id C) (hd : Sound dst) (u : Bool) (c : Id) :
    (∀ v, (∀ s sf st, src.shots.get? s = some sf → dst.shots.get? s = some st → st.camera = c →
        src.cameras.get? sf.camera = some v) →
      (∃ s sf st, src.shots.get? s = some sf ∧ dst.shots.get? s = some st ∧ st.camera = c) →
      (realign offset src dst u).cameras.get? c = some v) ∧
    ((∀ s sf st, src.shots.get? s = some sf → dst.shots.get? s = some st → st.camera ≠ c) →
      (realign offset src dst u).cameras.get? c = dst.cameras.get? c) := by
  constructor
  · rintro v hv ⟨s, sf, st, h1, h2, h3⟩
    apply cameras_set
    · intro e he hc sf' hsf'
      exact hv e.1 sf' e.2 hsf' ((Dict.mem_iff_get? hd.shotsNodup).1 he) hc
    · exact Or.inr ⟨(s, st), (Dict.mem_iff_get? hd.shotsNodup).2 h2, h3, sf, h1⟩
  · intro h
    rcases cameras_fold src dst.shots dst.cameras c with h1 | ⟨e, he, h1, sf, v, h2, -⟩
    · exact h1
    · exact absurd h1 (h e.1 sf e.2 h2 ((Dict.mem_iff_get? hd.shotsNodup).1 he))

/-! ### Again -/

theorem moveInstance_rigid (offset : V3 ℝ) {src : RMap Id C} (hs : Sound src) {p : Pose ℝ} (hp : Rigid p) (shots : List Id) :
    Rigid (moveInstance offset src p shots) := by
  unfold moveInstance
  split
  · exact hp
  · split
    · exact hp
    · split
      · exact hp
      · rename_i q hq
        exact (shift_rigid offset (hs.rigid _ _ hq)).1

theorem keys_filterMap (src : RMap Id C) (shots : Dict Id (RShot Id)) :
    (Dict.keys (shots.filterMap (moveShot src))).Sublist shots.keys := by
  induction shots with
  | nil => exact List.Sublist.slnil
  | cons e shots ih =>
    rw [List.filterMap_cons]
    cases h : moveShot src e with
    | none => exact List.Sublist.cons _ ih
    | some e' =>
      have : e'.1 = e.1 := by
        unfold moveShot at h
        split at h
        · exact absurd h (by simp)
        · cases h; rfl
      simp only [Dict.keys_cons, this]
      exact List.Sublist.cons₂ _ ih

theorem realign_sound (offset : V3 ℝ) {src dst : RMap Id C} (hs : Sound src) (hd : Sound dst) (u : Bool) :
    Sound (realign offset src dst u) where
  shotsNodup := (keys_filterMap src dst.shots).nodup hd.shotsNodup
  rigid := by
    intro i p h
    rw [instances_get] at h
    obtain ⟨q, hq, rfl⟩ := Option.map_eq_some_iff.1 h
    exact moveInstance_rigid offset hs (hd.rigid _ _ hq) _
  rigidCam := hd.rigidCam
  instOf := by
    intro s st h
    rw [shots_get] at h
    split at h
    · exact absurd h (by simp)
    · rename_i sf hsf
      obtain ⟨st', hst', rfl⟩ := Option.map_eq_some_iff.1 h
      obtain ⟨p, hp, hm⟩ := hd.instOf s st' hst'
      refine ⟨_, by rw [instances_get, hp]; rfl, ?_⟩
      exact List.mem_filter.2 ⟨hm, (has_iff src s).2 ⟨sf, hsf⟩⟩
  shotOf := by
    intro i p h s hsp
    rw [instances_get] at h
    obtain ⟨q, hq, rfl⟩ := Option.map_eq_some_iff.1 h
    obtain ⟨h1, h2⟩ := List.mem_filter.1 hsp
    obtain ⟨st, h3, h4⟩ := hd.shotOf i q hq s h1
    obtain ⟨sf, h5⟩ := (has_iff src s).1 h2
    exact ⟨_, (C87_shots offset src dst u s).2 sf st h5 h3, h4⟩
  camOf := by
    intro s st h
    rw [shots_get] at h
    split at h
    · exact absurd h (by simp)
    · obtain ⟨st', hst', rfl⟩ := Option.map_eq_some_iff.1 h
      exact hd.camOf s st' hst'

/-- Aligning again moves the points again, by the scale, away from the shot or towards it: the alignment is done once and for
all only for shots with a scale of zero or one. -/
theorem C87_again (offset : V3 ℝ) (src dst : RMap Id C) (hs : Sound src) (hd : Sound dst)
    (hr : ∀ s, Common src dst s → SameRig src dst s) (l : Id) (x : V3 ℝ) (obs : List Id)
    (hl : (realign offset src dst true).points.get? l = some (x, obs)) (hc : ∃ s ∈ obs, Common src dst s) :
    ∃ s ∈ obs, ∃ sf pf x', src.shots.get? s = some sf ∧ src.shotPose s = some pf ∧
      ((realign offset src (realign offset src dst true) true).points.get? l).map (·.1) = some x' ∧
      x' - (pf.getOrigin + offset)
        = (if sf.scale = 0 then (1 : ℝ) else sf.scale⁻¹) • (x - (pf.getOrigin + offset)) ∧
      (sf.scale = 0 ∨ sf.scale = 1 → x' = x) := by
  have hd1 := realign_sound offset hs hd true
  have hcom : ∀ s, Common src (realign offset src dst true) s ↔ Common src dst s := by
    intro s
    constructor
    · rintro ⟨-, h⟩
      exact (C87_shots offset src dst true s).1.1 h
    · intro h
      exact ⟨h.1, (C87_shots offset src dst true s).1.2 h⟩
  obtain ⟨x', h1, -, h3⟩ := C87_points offset src (realign offset src dst true) hs hd1 l x obs hl
  obtain ⟨s, hso, sf, pf, pt, h4, h5, h6, -, h7⟩ := h3 (by
    obtain ⟨s, hs1, hs2⟩ := hc
    exact ⟨s, hs1, (hcom s).2 hs2⟩)
  have hcs : Common src dst s := by
    rw [← hcom]
    refine ⟨⟨sf, h4⟩, ?_⟩
    unfold RMap.shotPose at h6
    cases hst : (realign offset src dst true).shots.get? s with
    | none => rw [hst] at h6; exact absurd h6 (by simp)
    | some st => exact ⟨st, rfl⟩
  obtain ⟨pf', h8, h9⟩ := C87_shot_pose offset src dst hs hd true s (hr s hcs)
  rw [h5] at h8
  cases h8
  rw [h6] at h9
  cases h9
  obtain ⟨pf', hpf', hrig⟩ := hs.pose h4
  rw [h5] at hpf'
  cases hpf'
  obtain ⟨g1, g2, g3⟩ := shift_rigid offset hrig
  have gc := (rigid_iff_cons _).1 g1
  have key : x' - (pf.getOrigin + offset)
      = (if sf.scale = 0 then (1 : ℝ) else sf.scale⁻¹) • (x - (pf.getOrigin + offset)) := by
    rw [transform_origin g1, transform_origin g1, g2, ← mulVec_smul] at h7
    have := congrArg (fun v => (shift offset pf).wcRᵀ *ᵥ v) h7
    simp only [mulVec_mulVec, gc.orth.symm, one_mulVec] at this
    exact this
  refine ⟨s, hso, sf, pf, x', h4, h5, by rw [h1]; rfl, key, ?_⟩
  intro h
  have hk : (if sf.scale = 0 then (1 : ℝ) else sf.scale⁻¹) = 1 := by
    rcases h with h | h
    · rw [if_pos h]
    · rw [h]; norm_num
  rw [hk, one_smul] at key
  exact sub_left_injective key

/-- A map aligned to itself, without scales, does not change: poses and points are the same. -/
theorem C87_self (m : RMap Id C) (hm : Sound m) (h1 : ∀ s st, m.shots.get? s = some st → st.scale = 0 ∨ st.scale = 1)
    (hobs : ∀ l x obs, m.points.get? l = some (x, obs) → ∀ s ∈ obs, ∃ st, m.shots.get? s = some st) :
    (∀ s, (realign 0 m m true).shotPose s = m.shotPose s) ∧ (∀ l, (realign 0 m m true).points.get? l = m.points.get? l) ∧
      ∀ s, (realign 0 m m true).shots.get? s = m.shots.get? s := by
  have hshift : ∀ p : Pose ℝ, Rigid p → shift 0 p = p := by
    intro p hp
    obtain ⟨g1, g2, g3⟩ := shift_rigid 0 hp
    have c1 := (rigid_iff_cons _).1 g1
    have c2 := (rigid_iff_cons _).1 hp
    refine c1.ext c2 g3 ?_
    have e1 := transform_origin g1 0
    have e2 := transform_origin hp 0
    rw [g2, g3, add_zero, ← e2] at e1
    unfold Pose.transform at e1
    rwa [mulVec_zero, mulVec_zero, zero_add, zero_add] at e1
  have hsame : ∀ s st, m.shots.get? s = some st → SameRig m m s := by
    intro s st h
    obtain ⟨i, hi, -⟩ := hm.instOf s st h
    obtain ⟨c, hc⟩ := hm.camOf s st h
    refine ⟨st, st, i, i, c, h, h, hi, hi, hc, hc, ?_⟩
    intro s' hs' sf' hsf'
    obtain ⟨st', h2, h3⟩ := hm.shotOf _ i hi s' hs'
    rw [hsf'] at h2
    cases h2
    exact ⟨i, by rw [h3]; exact hi, rfl⟩
  refine ⟨?_, ?_, ?_⟩
  · intro s
    cases hst : m.shots.get? s with
    | none =>
      have h2 : (realign 0 m m true).shots.get? s = none := by rw [shots_get, hst]
      unfold RMap.shotPose
      rw [h2, hst]
    | some st =>
      obtain ⟨pf, h2, h3⟩ := C87_shot_pose 0 m m hm hm true s (hsame s st hst)
      obtain ⟨p, h4, h5⟩ := hm.pose hst
      rw [h2] at h4
      cases h4
      rw [h3, h2, hshift pf h5]
  · intro l
    cases hl : m.points.get? l with
    | none => rw [points_get, hl]; rfl
    | some e =>
      obtain ⟨x, obs⟩ := e
      obtain ⟨x', h2, h3, h4⟩ := C87_points 0 m m hm hm l x obs hl
      have hf : obs.filter (fun s => m.shots.has s) = obs := by
        rw [List.filter_eq_self]
        intro s hs
        exact (has_iff m s).2 (hobs l x obs hl s hs)
      rw [h2, hf]
      have hx : x' = x := by
        by_cases hc : ∃ s ∈ obs, Common m m s
        · obtain ⟨s, -, sf, pf, pt, h5, h6, h7, -, h8⟩ := h4 hc
          rw [h6] at h7
          cases h7
          obtain ⟨p, h9, h10⟩ := hm.pose h5
          rw [h6] at h9
          cases h9
          have hk : (if sf.scale = 0 then (1 : ℝ) else sf.scale⁻¹) = 1 := by
            rcases h1 s sf h5 with h | h
            · rw [if_pos h]
            · rw [h]; norm_num
          rw [hshift pf h10, hk, one_smul] at h8
          have := congrArg pf.transformInverse h8
          rwa [h10.2.1, h10.2.1] at this
        · push Not at hc
          exact h3 hc
      rw [hx]
  · intro s
    rw [shots_get]
    cases hst : m.shots.get? s with
    | none => rfl
    | some st => rfl

/-- The rig cameras are not aligned: where the rig camera of a shot differs between the maps, the shot does not get the pose
of the first map. -/
theorem C87_rig_differs : ∃ (src dst : RMap ℕ ℕ) (s : ℕ) (pf p : Pose ℝ), Sound src ∧ Sound dst ∧ Common src dst s ∧
    src.shotPose s = some pf ∧ (realign 0 src dst true).shotPose s = some p ∧ p ≠ pf := by
  have hid : Rigid (Pose.identity : Pose ℝ) := rigid_identity
  have hT : Rigid (Pose.ofWorldToCamera 1 ![1, 0, 0] : Pose ℝ) := (rigid_iff_cons _).2 (cons_ofW2C orth_one _)
  have sound : ∀ pc : Pose ℝ, Rigid pc →
      Sound (⟨[(0, 0)], [(0, pc)], [(0, (Pose.identity, [0]))], [(0, ⟨0, 0, 0, 0, 0⟩)], []⟩ : RMap ℕ ℕ) := by
    intro pc hpc
    refine ⟨by simp [Dict.Wf, Dict.keys], ?_, ?_, ?_, ?_, ?_⟩
    · intro i p h
      simp only [Dict.get?] at h
      split at h
      · cases h; exact hid
      · exact absurd h (by simp)
    · intro i p h
      simp only [Dict.get?] at h
      split at h
      · cases h; exact hpc
      · exact absurd h (by simp)
    · intro s st h
      simp only [Dict.get?] at h
      split at h
      · rename_i h0
        cases h; exact ⟨_, rfl, by simp [← h0]⟩
      · exact absurd h (by simp)
    · intro i p h s hs
      simp only [Dict.get?] at h
      split at h
      · rename_i h0
        cases h
        simp only [List.mem_singleton] at hs
        subst hs
        exact ⟨_, rfl, h0⟩
      · exact absurd h (by simp)
    · intro s st h
      simp only [Dict.get?] at h
      split at h
      · cases h; exact ⟨_, rfl⟩
      · exact absurd h (by simp)
  refine ⟨⟨[(0, 0)], [(0, Pose.identity)], [(0, (Pose.identity, [0]))], [(0, ⟨0, 0, 0, 0, 0⟩)], []⟩,
    ⟨[(0, 0)], [(0, Pose.ofWorldToCamera 1 ![1, 0, 0])], [(0, (Pose.identity, [0]))], [(0, ⟨0, 0, 0, 0, 0⟩)], []⟩, 0,
    Pose.identity.compose Pose.identity, (Pose.ofWorldToCamera 1 ![1, 0, 0]).compose (shift 0 Pose.identity), sound _ hid,
    sound _ hT, ⟨⟨_, rfl⟩, ⟨_, rfl⟩⟩, rfl, ?_, ?_⟩
  · rfl
  · intro h
    have h1 : ((Pose.ofWorldToCamera 1 ![1, 0, 0]).compose (shift 0 Pose.identity)).transform 0 0
        = (Pose.identity.compose Pose.identity : Pose ℝ).transform 0 0 := by rw [h]
    rw [(C39_actions _ _ hT (shift_rigid 0 hid).1).1.2, (C39_actions _ _ hid hid).1.2, transform_origin (shift_rigid 0 hid).1,
      (shift_rigid 0 hid).2.1, (shift_rigid 0 hid).2.2] at h1
    simp [Pose.transform, Pose.identity, Pose.ofWorldToCamera, Pose.getOrigin] at h1

/-! ### The change of reference -/

open Verif.Geo in
theorem change_reference (r1 r2 : Lla) (q : Fin 3 → ℝ) :
    applyTransform (topoTransform r2.lat r2.lon r2.alt)⁻¹ (ecefFromTopocentric q r1)
      = topocentricFromLla r1 r2 + ((frame r2.lat r2.lon r2.alt)ᵀ * frame r1.lat r1.lon r1.alt) *ᵥ q := by
  unfold ecefFromTopocentric topocentricFromLla
  rw [topo_inv, frame_eq, frame_eq]
  unfold topoTransform applyTransform
  simp only
  generalize ecefFromLla r1.lat r1.lon r1.alt = t
  generalize ecefFromLla r2.lat r2.lon r2.alt = e
  ext i
  fin_cases i <;> simp [Matrix.vecHead, Matrix.vecTail, Matrix.mulVec, Matrix.mul_apply, dotProduct, Fin.sum_univ_three] <;> ring

open Verif.Geo in
theorem frame_orth (r : Lla) : (frame r.lat r.lon r.alt) * (frame r.lat r.lon r.alt)ᵀ = 1 := by
  rw [frame_eq]
  have h1 := Real.sin_sq_add_cos_sq (radians r.lat)
  have h2 := Real.sin_sq_add_cos_sq (radians r.lon)
  generalize Real.sin (radians r.lat) = sa at *
  generalize Real.cos (radians r.lat) = ca at *
  generalize Real.sin (radians r.lon) = so at *
  generalize Real.cos (radians r.lon) = co at *
  have hs : so ^ 2 = 1 - co ^ 2 := by linarith
  have ha : sa ^ 2 = 1 - ca ^ 2 := by linarith
  ext i j
  fin_cases i <;> fin_cases j <;> simp [Matrix.mul_apply, Fin.sum_univ_three] <;> ring_nf <;> simp only [hs, ha] <;> ring

open Verif.Geo in
/-- Adding the offset is the change of reference exactly when the axes of both references are parallel; it is not for
references a quarter of the equator apart. -/
theorem C87_offset (r1 r2 : Lla) :
    ((∀ q : Fin 3 → ℝ, q + topocentricFromLla r1 r2
        = applyTransform (topoTransform r2.lat r2.lon r2.alt)⁻¹ (ecefFromTopocentric q r1)) ↔
      frame r1.lat r1.lon r1.alt = frame r2.lat r2.lon r2.alt) ∧
    frame 0 0 0 ≠ frame 0 90 0 := by
  constructor
  · constructor
    · intro h
      have h1 : (frame r2.lat r2.lon r2.alt)ᵀ * frame r1.lat r1.lon r1.alt = 1 := by
        apply mulVec_ext
        intro q
        have := h q
        rw [change_reference, add_comm] at this
        rw [one_mulVec]
        exact (add_left_cancel this).symm
      have h2 := frame_orth r2
      calc frame r1.lat r1.lon r1.alt
          = (frame r2.lat r2.lon r2.alt * (frame r2.lat r2.lon r2.alt)ᵀ) * frame r1.lat r1.lon r1.alt := by
            rw [h2, Matrix.one_mul]
        _ = frame r2.lat r2.lon r2.alt := by rw [Matrix.mul_assoc, h1, Matrix.mul_one]
    · intro h q
      rw [change_reference, h, mul_eq_one_comm.1 (frame_orth r2), one_mulVec, add_comm]
  · intro h
    have := congrFun (congrFun h 0) 0
    rw [frame_eq, frame_eq] at this
    simp [radians] at this
    rw [show (90 : ℝ) * Real.pi / 180 = Real.pi / 2 by ring, Real.sin_pi_div_two] at this
    norm_num at this

/-- A map with a point to which the theorems apply. -/
example : ∃ (m : RMap ℕ ℕ) (x : V3 ℝ), Sound m ∧ m.points.get? 7 = some (x, [0]) ∧ SameRig m m 0 ∧ Common m m 0 := by
  have hid : Rigid (Pose.identity : Pose ℝ) := rigid_identity
  refine ⟨⟨[(0, 0)], [(0, Pose.identity)], [(0, (Pose.identity, [0]))], [(0, ⟨0, 0, 0, 2, 0⟩)], [(7, (![0, 0, 5], [0]))]⟩,
    ![0, 0, 5], ⟨by simp [Dict.Wf, Dict.keys], ?_, ?_, ?_, ?_, ?_⟩, rfl, ?_, ⟨⟨_, rfl⟩, ⟨_, rfl⟩⟩⟩
  · intro i p h
    simp only [Dict.get?] at h
    split at h
    · cases h; exact hid
    · exact absurd h (by simp)
  · intro i p h
    simp only [Dict.get?] at h
    split at h
    · cases h; exact hid
    · exact absurd h (by simp)
  · intro s st h
    simp only [Dict.get?] at h
    split at h
    · rename_i h0
      cases h; exact ⟨_, rfl, by simp [← h0]⟩
    · exact absurd h (by simp)
  · intro i p h s hs
    simp only [Dict.get?] at h
    split at h
    · rename_i h0
      cases h
      simp only [List.mem_singleton] at hs
      subst hs
      exact ⟨_, rfl, h0⟩
    · exact absurd h (by simp)
  · intro s st h
    simp only [Dict.get?] at h
    split at h
    · cases h; exact ⟨_, rfl⟩
    · exact absurd h (by simp)
  · refine ⟨_, _, _, _, _, rfl, rfl, rfl, rfl, rfl, rfl, ?_⟩
    intro s' hs' sf' hsf'
    simp only [List.mem_singleton] at hs'
    subst hs'
    cases hsf'
    exact ⟨_, rfl, rfl⟩

end Verif.Realign
