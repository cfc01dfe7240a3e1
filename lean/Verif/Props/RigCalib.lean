import Mathlib.Analysis.SpecialFunctions.Trigonometric.Angle
import Verif.Model.RigCalib
import Verif.Props.GpsBias
import Verif.Props.Pose
import Mathlib.Tactic.Group

/-! # C120: rig calibration from reconstructed shots -/
set_option linter.unusedSectionVars false
set_option linter.unusedSimpArgs false
set_option linter.unusedVariables false
namespace Verif.RigCalib
open Matrix Verif.Superimpose Verif.GpsBias Verif.Pose

variable {Id : Type} [DecidableEq Id]

/-! ### Specification -/

/-- A rigid pose without reflection. -/
def Proper (p : Pose ℝ) : Prop := Rigid p ∧ p.wcR.det = 1

/-- The mean of vectors. -/
noncomputable def meanOf (l : List (Vec 3)) : Vec 3 := (1 / (l.length : ℝ)) • l.sum

/-- The instances are the same rig: the pose of every shot is that of its rig camera after that of the instance. -/
def SameRig (rig : Id → Pose ℝ) (instances : List (Pose ℝ × List (Pose ℝ × Id))) : Prop :=
  ∀ i ∈ instances, Proper i.1 ∧ ∀ s ∈ i.2, s.1 = (rig s.2).compose i.1

/-! ### Lemmas -/

theorem isRot_iff (R : Mat 3) : IsRot R ↔ Orth R ∧ R.det = 1 := by
  unfold IsRot Orth
  constructor
  · rintro ⟨h, d⟩; exact ⟨mul_eq_one_comm.1 h, d⟩
  · rintro ⟨h, d⟩; exact ⟨mul_eq_one_comm.1 h, d⟩

theorem foldl_sum (l : List (Vec 3)) (a : Vec 3) : l.foldl (· + ·) a = a + l.sum := by
  induction l generalizing a with
  | nil => simp
  | cons x l ih => rw [List.foldl_cons, ih, List.sum_cons, add_assoc]

theorem average_eq (l : List (Vec 3)) : average l = meanOf l := by
  unfold average meanOf
  rw [foldl_sum, zero_add]

theorem sum_const (l : List (Vec 3)) (x : Vec 3) (h : ∀ y ∈ l, y = x) : l.sum = (l.length : ℝ) • x := by
  induction l with
  | nil => simp
  | cons y l ih =>
    rw [List.sum_cons, ih (fun z hz => h z (List.mem_cons_of_mem _ hz)), h y List.mem_cons_self,
      List.length_cons, Nat.cast_add, add_smul, Nat.cast_one, one_smul, add_comm]

theorem mean_const (l : List (Vec 3)) (x : Vec 3) (hl : l ≠ []) (h : ∀ y ∈ l, y = x) : meanOf l = x := by
  unfold meanOf
  rw [sum_const l x h, smul_smul, one_div, inv_mul_cancel₀, one_smul]
  exact_mod_cast (List.length_pos_iff.2 hl).ne'

theorem poseAt_spec (r o : Vec 3) : Proper (poseAt r o) ∧ (poseAt r o).wcR = vecToMat r ∧
    (poseAt r o).getOrigin = o := by
  have hr := (isRot_iff _).1 (vecToMat_rot r)
  have h0 : Rigid (Pose.ofWorldToCamera (vecToMat r) 0) := (rigid_iff_cons _).2 (cons_ofW2C hr.1 0)
  obtain ⟨_, h, _⟩ := C39_origin _ h0
  obtain ⟨h1, h2, h3⟩ := h o
  exact ⟨⟨h1, by unfold poseAt; rw [h3]; exact hr.2⟩, h3, h2⟩

theorem pose_ext {p q : Pose ℝ} (hp : Rigid p) (hq : Rigid q) (hR : p.wcR = q.wcR)
    (ho : p.getOrigin = q.getOrigin) : p = q := by
  have cp := (rigid_iff_cons p).1 hp
  have cq := (rigid_iff_cons q).1 hq
  refine cp.ext cq hR ?_
  have : ∀ {x : Pose ℝ}, Cons x → x.wcT = -(x.wcR *ᵥ x.getOrigin) := by
    intro x hx
    have h1 : x.wcR * x.wcRᵀ = 1 := hx.orth
    unfold Pose.getOrigin
    rw [hx.tr, mulVec_neg, mulVec_mulVec, h1, one_mulVec, neg_neg]
  rw [this cp, this cq, hR, ho]

/-- A pose is rebuilt from its rotation vector and its origin. -/
theorem poseAt_self {toVec : Mat 3 → Vec 3} (hl : IsLog toVec) {p : Pose ℝ} (hp : Proper p) :
    poseAt (toVec p.wcR) p.getOrigin = p := by
  obtain ⟨h1, h2, h3⟩ := poseAt_spec (toVec p.wcR) p.getOrigin
  refine pose_ext h1.1 hp.1 ?_ h3
  rw [h2]
  exact hl _ ((isRot_iff _).2 ⟨hp.1.1, hp.2⟩)

theorem relative_proper {p q : Pose ℝ} (hp : Proper p) (hq : Proper q) : Proper (p.relativeTo q) := by
  refine ⟨(C39_actions p q hp.1 hq.1).2.2.1.1, ?_⟩
  show (p.wcR * q.cwR).det = 1
  rw [det_mul, hp.2, ((rigid_iff_cons q).1 hq.1).rot, det_transpose, hq.2, one_mul]

/-- Changing the frame of two poses does not change their relative pose. -/
theorem relative_relative {p q f : Pose ℝ} (hp : Rigid p) (hq : Rigid q) (hf : Rigid f) :
    (p.relativeTo f).relativeTo (q.relativeTo f) = p.relativeTo q := by
  have g : ∀ a b f : RPose ℝ, (a * f⁻¹) * (b * f⁻¹)⁻¹ = a * b⁻¹ := fun a b f => by group
  exact congrArg Subtype.val (g ⟨p, hp⟩ ⟨q, hq⟩ ⟨f, hf⟩)

theorem relative_compose {p q f : Pose ℝ} (hp : Rigid p) (hq : Rigid q) (hf : Rigid f) :
    (p.compose f).relativeTo (q.compose f) = p.relativeTo q := by
  have g : ∀ a b f : RPose ℝ, (a * f) * (b * f)⁻¹ = a * b⁻¹ := fun a b f => by group
  exact congrArg Subtype.val (g ⟨p, hp⟩ ⟨q, hq⟩ ⟨f, hf⟩)

theorem frame_spec (toVec : Mat 3 → Vec 3) (inst : List (Pose ℝ × Id)) :
    Proper (frame toVec inst) ∧
    (frame toVec inst).wcR = vecToMat (meanOf (inst.map (fun s => toVec s.1.wcR))) ∧
    (frame toVec inst).getOrigin = meanOf (inst.map (fun s => s.1.getOrigin)) := by
  unfold frame
  rw [average_eq, average_eq]
  exact poseAt_spec _ _

/-- The sums of a rig camera. -/
theorem acc_spec (toVec : Mat 3 → Vec 3) (L : List (Pose ℝ × Id)) (c : Id) :
    ((L.foldl (accumulate toVec) []).get? c).getD ⟨0, 0, 0⟩ =
      ⟨((L.filter (fun s => decide (s.2 = c))).map (fun s => s.1.getOrigin)).sum,
       ((L.filter (fun s => decide (s.2 = c))).map (fun s => toVec s.1.wcR)).sum,
       (L.filter (fun s => decide (s.2 = c))).length⟩ ∧
    (((L.foldl (accumulate toVec) []).get? c).isSome ↔ ∃ s ∈ L, s.2 = c) := by
  induction L using List.reverseRecOn with
  | nil => simp
  | append_singleton L s ih =>
    obtain ⟨h1, h2⟩ := ih
    rw [List.foldl_append, List.foldl_cons, List.foldl_nil]
    unfold accumulate
    simp only
    rw [Dict.get?_set]
    by_cases hc : s.2 = c
    · rw [if_pos hc, List.filter_append]
      have : [s].filter (fun s => decide (s.2 = c)) = [s] := by simp [hc]
      rw [this, hc]
      refine ⟨?_, by simp [hc]⟩
      have h1' : (Dict.get? (List.foldl (fun d s => accumulate toVec d s) [] L) c).getD ⟨0, 0, 0⟩ = _ := h1
      unfold accumulate at h1'
      simp only [] at h1'
      rw [h1']
      simp
    · rw [if_neg hc, List.filter_append]
      have : [s].filter (fun s => decide (s.2 = c)) = [] := by simp [hc]
      rw [this, List.append_nil]
      refine ⟨h1, h2.trans ?_⟩
      constructor
      · rintro ⟨x, hx, e⟩; exact ⟨x, by simp [hx], e⟩
      · rintro ⟨x, hx, e⟩
        rcases List.mem_append.1 hx with hx | hx
        · exact ⟨x, hx, e⟩
        · rw [List.mem_singleton.1 hx] at e; exact absurd e hc

/-- C120: the rig cameras found are those of the shots, and the pose of each has for origin the mean of the
origins, and for rotation vector the mean of the rotation vectors, of its shots, each seen from the frame of its
instance, whose origin and rotation vector are the means over the instance. -/
theorem C120_average (toVec : Mat 3 → Vec 3) (instances : List (List (Pose ℝ × Id))) (c : Id) :
    (((computeRelativePose toVec instances).get? c).isSome ↔ ∃ i ∈ instances, ∃ s ∈ i, s.2 = c) ∧
    ∀ p, (computeRelativePose toVec instances).get? c = some p →
      ∃ frames : List (Pose ℝ × Id) → Pose ℝ,
        (∀ i, Proper (frames i) ∧ (frames i).wcR = vecToMat (meanOf (i.map (fun s => toVec s.1.wcR))) ∧
          (frames i).getOrigin = meanOf (i.map (fun s => s.1.getOrigin))) ∧
        Proper p ∧
        p.getOrigin = meanOf ((instances.map (fun i => (i.filter (fun s => decide (s.2 = c))).map
          (fun s => (s.1.relativeTo (frames i)).getOrigin))).flatten) ∧
        p.wcR = vecToMat (meanOf ((instances.map (fun i => (i.filter (fun s => decide (s.2 = c))).map
          (fun s => toVec (s.1.relativeTo (frames i)).wcR))).flatten)) := by
  have hfl : ∀ (g : Pose ℝ → Vec 3), (((instances.map (centred toVec)).flatten).filter
      (fun s => decide (s.2 = c))).map (fun s => g s.1) =
      (instances.map (fun i => (i.filter (fun s => decide (s.2 = c))).map
        (fun s => g (s.1.relativeTo (frame toVec i))))).flatten := by
    intro g
    rw [List.filter_flatten, List.map_flatten, List.map_map, List.map_map]
    congr 1
    apply List.map_congr_left
    intro i _
    simp only [Function.comp, centred, List.filter_map, List.map_map]
    rfl
  obtain ⟨h1, h2⟩ := acc_spec toVec ((instances.map (centred toVec)).flatten) c
  have hlen : ∀ (g : Pose ℝ → Vec 3), (((instances.map (centred toVec)).flatten).filter
      (fun s => decide (s.2 = c))).length = ((((instances.map (centred toVec)).flatten).filter
      (fun s => decide (s.2 = c))).map (fun s => g s.1)).length := fun g => by rw [List.length_map]
  unfold computeRelativePose
  rw [Dict.get?_mapVals]
  constructor
  · rw [Option.isSome_map, h2]
    constructor
    · rintro ⟨s, hs, e⟩
      obtain ⟨l, hl, hsl⟩ := List.mem_flatten.1 hs
      obtain ⟨i, hi, rfl⟩ := List.mem_map.1 hl
      obtain ⟨x, hx, rfl⟩ := List.mem_map.1 hsl
      exact ⟨i, hi, x, hx, e⟩
    · rintro ⟨i, hi, s, hs, e⟩
      exact ⟨(s.1.relativeTo (frame toVec i), s.2), List.mem_flatten.2 ⟨_, List.mem_map.2 ⟨i, hi, rfl⟩,
        List.mem_map.2 ⟨s, hs, rfl⟩⟩, e⟩
  · intro p hp
    obtain ⟨a, ha, rfl⟩ := Option.map_eq_some_iff.1 hp
    rw [ha, Option.getD_some] at h1
    refine ⟨frame toVec, frame_spec toVec, ?_⟩
    unfold final
    obtain ⟨q1, q2, q3⟩ := poseAt_spec ((1 / (a.count : ℝ)) • a.rotation) ((1 / (a.count : ℝ)) • a.origin)
    refine ⟨q1, ?_, ?_⟩
    · rw [q3, h1, ← hfl (fun x => x.getOrigin)]
      unfold meanOf
      rw [← hlen (fun x => x.getOrigin)]
    · rw [q2, h1, ← hfl (fun x => toVec x.wcR)]
      unfold meanOf
      rw [← hlen (fun x => toVec x.wcR)]

/-- When all shots of a rig camera are at the same place in the frames of their instances. -/
theorem consistent {toVec : Mat 3 → Vec 3} (hl : IsLog toVec) {instances : List (List (Pose ℝ × Id))}
    {canon : Id → Pose ℝ}
    (h : ∀ i ∈ instances, ∀ s ∈ i, Proper s.1 ∧ s.1.relativeTo (frame toVec i) = canon s.2) {c : Id}
    {i : List (Pose ℝ × Id)} (hi : i ∈ instances) {s : Pose ℝ × Id} (hs : s ∈ i) (hc : s.2 = c) :
    (computeRelativePose toVec instances).get? c = some (canon c) := by
  obtain ⟨h1, h2⟩ := acc_spec toVec ((instances.map (centred toVec)).flatten) c
  have hin : (s.1.relativeTo (frame toVec i), s.2) ∈ (instances.map (centred toVec)).flatten :=
    List.mem_flatten.2 ⟨_, List.mem_map.2 ⟨i, hi, rfl⟩, List.mem_map.2 ⟨s, hs, rfl⟩⟩
  obtain ⟨a, ha⟩ := Option.isSome_iff_exists.1 (h2.2 ⟨_, hin, hc⟩)
  rw [ha, Option.getD_some] at h1
  obtain ⟨F, hF⟩ : ∃ F, F = ((instances.map (centred toVec)).flatten).filter
      (fun s => decide (s.2 = c)) := ⟨_, rfl⟩
  rw [← hF] at h1
  have hall : ∀ x ∈ F, x.1 = canon c := by
    intro x hx
    rw [hF] at hx
    obtain ⟨hx1, hx2⟩ := List.mem_filter.1 hx
    obtain ⟨l, hl, hxl⟩ := List.mem_flatten.1 hx1
    obtain ⟨j, hj, rfl⟩ := List.mem_map.1 hl
    obtain ⟨y, hy, rfl⟩ := List.mem_map.1 hxl
    have := (h j hj y hy).2
    simp only [decide_eq_true_eq] at hx2
    rw [← hx2]
    exact this
  have hne : F ≠ [] := by
    rw [hF]
    intro e
    have := List.mem_filter (p := fun s : Pose ℝ × Id => decide (s.2 = c)).2 ⟨hin, by simpa using hc⟩
    rw [e] at this
    cases this
  have hcan : Proper (canon c) := by
    rw [← hc, ← (h i hi s hs).2]
    exact relative_proper (h i hi s hs).1 (frame_spec toVec i).1
  have mo : (1 / (a.count : ℝ)) • a.origin = (canon c).getOrigin := by
    have := mean_const (F.map (fun s => s.1.getOrigin)) (canon c).getOrigin (by simpa using hne)
      (by intro y hy
          obtain ⟨x, hx, rfl⟩ := List.mem_map.1 hy
          rw [hall x hx])
    rw [← this, h1]
    unfold meanOf
    rw [List.length_map]
  have mr : (1 / (a.count : ℝ)) • a.rotation = toVec (canon c).wcR := by
    have := mean_const (F.map (fun s => toVec s.1.wcR)) (toVec (canon c).wcR) (by simpa using hne)
      (by intro y hy
          obtain ⟨x, hx, rfl⟩ := List.mem_map.1 hy
          rw [hall x hx])
    rw [← this, h1]
    unfold meanOf
    rw [List.length_map]
  unfold computeRelativePose
  rw [Dict.get?_mapVals, ha, Option.map_some]
  unfold final
  rw [mo, mr, poseAt_self hl hcan]

theorem consistent' {toVec : Mat 3 → Vec 3} (hl : IsLog toVec) {instances : List (List (Pose ℝ × Id))}
    (hp : ∀ i ∈ instances, ∀ s ∈ i, Proper s.1)
    (h : ∀ i ∈ instances, ∀ s ∈ i, ∀ j ∈ instances, ∀ t ∈ j, s.2 = t.2 →
      s.1.relativeTo (frame toVec i) = t.1.relativeTo (frame toVec j))
    {i : List (Pose ℝ × Id)} (hi : i ∈ instances) {s : Pose ℝ × Id} (hs : s ∈ i) :
    (computeRelativePose toVec instances).get? s.2 = some (s.1.relativeTo (frame toVec i)) := by
  classical
  let canon : Id → Pose ℝ := fun c =>
    if h : ∃ p, ∃ i ∈ instances, ∃ s ∈ i, s.2 = c ∧ p = s.1.relativeTo (frame toVec i) then h.choose
    else .identity
  have hcanon : ∀ j ∈ instances, ∀ t ∈ j, t.1.relativeTo (frame toVec j) = canon t.2 := by
    intro j hj t ht
    have hex : ∃ p, ∃ i ∈ instances, ∃ s ∈ i, s.2 = t.2 ∧ p = s.1.relativeTo (frame toVec i) :=
      ⟨_, j, hj, t, ht, rfl, rfl⟩
    have : canon t.2 = hex.choose := dif_pos hex
    rw [this]
    obtain ⟨k, hk, u, hu, e1, e2⟩ := hex.choose_spec
    rw [e2]
    exact h j hj t ht k hk u hu e1.symm
  have := consistent (canon := canon) hl (fun j hj t ht => ⟨hp j hj t ht, hcanon j hj t ht⟩) hi hs rfl
  rw [this, ← hcanon i hi s hs]

/-- C120: from a single instance, with one shot per rig camera, the calibration is exact: the rig cameras found
have the relative poses of the shots. -/
theorem C120_single {toVec : Mat 3 → Vec 3} (hl : IsLog toVec) {i : List (Pose ℝ × Id)}
    (hp : ∀ s ∈ i, Proper s.1) (hn : (i.map (·.2)).Nodup) (s t : Pose ℝ × Id) (hs : s ∈ i) (ht : t ∈ i) :
    ∃ ps pt, (computeRelativePose toVec [i]).get? s.2 = some ps ∧
      (computeRelativePose toVec [i]).get? t.2 = some pt ∧ ps.relativeTo pt = s.1.relativeTo t.1 := by
  have hcons : ∀ j ∈ [i], ∀ s ∈ j, ∀ k ∈ [i], ∀ t ∈ k, s.2 = t.2 →
      s.1.relativeTo (frame toVec j) = t.1.relativeTo (frame toVec k) := by
    intro j hj u hu k hk v hv e
    rw [List.mem_singleton] at hj hk
    rw [hj] at hu ⊢
    rw [hk] at hv ⊢
    rw [List.inj_on_of_nodup_map hn hu hv e]
  have hp' : ∀ j ∈ [i], ∀ s ∈ j, Proper s.1 := by
    intro j hj; rw [List.mem_singleton] at hj; rw [hj]; exact hp
  refine ⟨_, _, consistent' hl hp' hcons (List.mem_singleton_self i) hs,
    consistent' hl hp' hcons (List.mem_singleton_self i) ht, ?_⟩
  exact relative_relative (hp s hs).1 (hp t ht).1 (frame_spec toVec i).1.1

theorem mean_affine (l : List Id) (hl : l ≠ []) (o : Vec 3) (M : Mat 3) (f : Id → Vec 3) :
    meanOf (l.map (fun c => M *ᵥ f c + o)) = M *ᵥ meanOf (l.map f) + o := by
  have hs : (l.map (fun c => M *ᵥ f c + o)).sum = M *ᵥ (l.map f).sum + (l.length : ℝ) • o := by
    clear hl
    induction l with
    | nil => simp
    | cons x l ih =>
      simp only [List.map_cons, List.sum_cons, List.length_cons, ih, mulVec_add, Nat.cast_add, Nat.cast_one,
        add_smul, one_smul]
      abel
  have hn : (l.length : ℝ) ≠ 0 := by exact_mod_cast (List.length_pos_iff.2 hl).ne'
  unfold meanOf
  rw [hs, List.length_map, List.length_map, smul_add, smul_smul, one_div, inv_mul_cancel₀ hn, one_smul, mulVec_smul]

theorem mean_perm {l l' : List (Vec 3)} (h : l.Perm l') : meanOf l = meanOf l' := by
  unfold meanOf
  rw [h.sum_eq, h.length_eq]

/-- Rotation and origin of a shot of a rig. -/
theorem compose_parts {p q : Pose ℝ} (hp : Proper p) (hq : Proper q) :
    Proper (p.compose q) ∧ (p.compose q).wcR = p.wcR * q.wcR ∧
    (p.compose q).getOrigin = q.wcRᵀ *ᵥ p.getOrigin + q.getOrigin := by
  have cp := (rigid_iff_cons p).1 hp.1
  have cq := (rigid_iff_cons q).1 hq.1
  have hc : Cons (p.compose q) := cp.compose cq
  refine ⟨⟨(rigid_iff_cons _).2 hc, ?_⟩, rfl, ?_⟩
  · show (p.wcR * q.wcR).det = 1
    rw [det_mul, hp.2, hq.2, one_mul]
  · have h1 : p.wcRᵀ * p.wcR = 1 := cp.orth.symm
    unfold Pose.getOrigin
    rw [hc.tr, cp.tr, cq.tr]
    show -((p.wcR * q.wcR)ᵀ *ᵥ (p.wcR *ᵥ q.wcT + p.wcT)) = _
    rw [transpose_mul, mulVec_add, mulVec_mulVec, Matrix.mul_assoc, h1, Matrix.mul_one, mulVec_neg, mulVec_mulVec,
      neg_add, add_comm]

/-- Rotation and origin in a frame. -/
theorem relative_parts {p f : Pose ℝ} (hp : Proper p) (hf : Proper f) :
    (p.relativeTo f).wcR = p.wcR * f.wcRᵀ ∧ (p.relativeTo f).getOrigin = f.wcR *ᵥ (p.getOrigin - f.getOrigin) := by
  have cp := (rigid_iff_cons p).1 hp.1
  have cf := (rigid_iff_cons f).1 hf.1
  have hc : Cons (p.relativeTo f) := cp.relativeTo cf
  have h0 : (p.relativeTo f).wcR = p.wcR * f.wcRᵀ := by
    show p.wcR * f.cwR = _
    rw [cf.rot]
  refine ⟨h0, ?_⟩
  have h1 : p.wcRᵀ * p.wcR = 1 := cp.orth.symm
  unfold Pose.getOrigin
  rw [hc.tr, h0]
  show -((p.wcR * f.wcRᵀ)ᵀ *ᵥ (p.wcR *ᵥ f.cwT + p.wcT)) = _
  rw [transpose_mul, transpose_transpose, cp.tr, mulVec_add, mulVec_mulVec, Matrix.mul_assoc, h1, Matrix.mul_one,
    sub_eq_add_neg, mulVec_add, mulVec_neg, mulVec_neg, mulVec_mulVec, neg_add, add_comm]

/-- C120: when all instances are the same rig, with the same rig cameras, and either all have the same
orientation or all the rig cameras have the same orientation, the calibration is exact: the rig cameras found
have the relative poses of the rig. -/
theorem C120_exact {toVec : Mat 3 → Vec 3} (hl : IsLog toVec) {rig : Id → Pose ℝ} {cams : List Id}
    {instances : List (Pose ℝ × List (Pose ℝ × Id))} (hne : instances ≠ []) (hr : ∀ c ∈ cams, Proper (rig c))
    (hs : SameRig rig instances) (hc : ∀ i ∈ instances, (i.2.map (·.2)).Perm cams)
    (hh : (∀ i ∈ instances, ∀ j ∈ instances, i.1.wcR = j.1.wcR) ∨
      ∀ a ∈ cams, ∀ b ∈ cams, (rig a).wcR = (rig b).wcR)
    (a b : Id) (ha : a ∈ cams) (hb : b ∈ cams) :
    ∃ pa pb, (computeRelativePose toVec (instances.map (·.2))).get? a = some pa ∧
      (computeRelativePose toVec (instances.map (·.2))).get? b = some pb ∧
      pa.relativeTo pb = (rig a).relativeTo (rig b) := by
  have hcne : cams ≠ [] := List.ne_nil_of_mem ha
  have hin : ∀ i ∈ instances, ∀ s ∈ i.2, s.2 ∈ cams := fun i hi s hs =>
    (hc i hi).subset (List.mem_map.2 ⟨s, hs, rfl⟩)
  have hparts : ∀ i ∈ instances, ∀ s ∈ i.2, Proper s.1 ∧ s.1.wcR = (rig s.2).wcR * i.1.wcR ∧
      s.1.getOrigin = i.1.wcRᵀ *ᵥ (rig s.2).getOrigin + i.1.getOrigin := by
    intro i hi s hsi
    obtain ⟨h1, h2⟩ := hs i hi
    rw [h2 s hsi]
    exact compose_parts (hr _ (hin i hi s hsi)) h1
  have hprop : ∀ j ∈ instances.map (·.2), ∀ s ∈ j, Proper s.1 := by
    intro j hj s hsj
    obtain ⟨i, hi, rfl⟩ := List.mem_map.1 hj
    exact (hparts i hi s hsj).1
  have hfo : ∀ i ∈ instances, (frame toVec i.2).getOrigin =
      i.1.wcRᵀ *ᵥ meanOf (cams.map (fun c => (rig c).getOrigin)) + i.1.getOrigin := by
    intro i hi
    rw [(frame_spec toVec i.2).2.2, ← mean_affine cams hcne]
    have : i.2.map (fun s => s.1.getOrigin) =
        (i.2.map (·.2)).map (fun c => i.1.wcRᵀ *ᵥ (rig c).getOrigin + i.1.getOrigin) := by
      rw [List.map_map]
      exact List.map_congr_left (fun s hsi => (hparts i hi s hsi).2.2)
    rw [this]
    exact mean_perm ((hc i hi).map _)
  have hfr : ∀ i ∈ instances, (frame toVec i.2).wcR =
      vecToMat (meanOf (cams.map (fun c => toVec ((rig c).wcR * i.1.wcR)))) := by
    intro i hi
    rw [(frame_spec toVec i.2).2.1]
    have : i.2.map (fun s => toVec s.1.wcR) =
        (i.2.map (·.2)).map (fun c => toVec ((rig c).wcR * i.1.wcR)) := by
      rw [List.map_map]
      exact List.map_congr_left (fun s hsi => by simp only [Function.comp]; rw [(hparts i hi s hsi).2.1])
    rw [this, mean_perm ((hc i hi).map _)]
  have hcons : ∀ j ∈ instances.map (·.2), ∀ s ∈ j, ∀ k ∈ instances.map (·.2), ∀ t ∈ k, s.2 = t.2 →
      s.1.relativeTo (frame toVec j) = t.1.relativeTo (frame toVec k) := by
    intro j hj s hsj k hk t htk e
    obtain ⟨i, hi, rfl⟩ := List.mem_map.1 hj
    obtain ⟨i', hi', rfl⟩ := List.mem_map.1 hk
    obtain ⟨p1, p2, p3⟩ := hparts i hi s hsj
    obtain ⟨q1, q2, q3⟩ := hparts i' hi' t htk
    have f1 := (frame_spec toVec i.2).1
    have f2 := (frame_spec toVec i'.2).1
    obtain ⟨u1, u2⟩ := relative_parts p1 f1
    obtain ⟨v1, v2⟩ := relative_parts q1 f2
    refine pose_ext (relative_proper p1 f1).1 (relative_proper q1 f2).1 ?_ ?_
    · rw [u1, v1, hfr i hi, hfr i' hi', p2, q2, ← e]
      rcases hh with hh | hh
      · rw [hh i hi i' hi']
      · have hmean : ∀ x ∈ instances, vecToMat (meanOf (cams.map (fun c => toVec ((rig c).wcR * x.1.wcR)))) =
            (rig s.2).wcR * x.1.wcR := by
          intro x hx
          rw [mean_const _ (toVec ((rig s.2).wcR * x.1.wcR)) (by simpa using hcne)
            (by intro y hy
                obtain ⟨c, hcc, rfl⟩ := List.mem_map.1 hy
                rw [hh c hcc s.2 (hin i hi s hsj)])]
          refine hl _ ((isRot_iff _).2 ?_)
          have h3 := (compose_parts (hr _ (hin i hi s hsj)) (hs x hx).1)
          rw [← h3.2.1]
          exact ⟨h3.1.1.1, h3.1.2⟩
        rw [hmean i hi, hmean i' hi']
        have ho : ∀ x ∈ instances, ((rig s.2).wcR * x.1.wcR) * ((rig s.2).wcR * x.1.wcR)ᵀ = 1 := by
          intro x hx
          have h3 := (compose_parts (hr _ (hin i hi s hsj)) (hs x hx).1)
          rw [← h3.2.1]
          exact h3.1.1.1
        rw [ho i hi, ho i' hi']
    · rw [u2, v2, hfo i hi, hfo i' hi', p3, q3, ← e, add_sub_add_right_eq_sub, add_sub_add_right_eq_sub,
        ← mulVec_sub, ← mulVec_sub, hfr i hi, hfr i' hi']
      rcases hh with hh | hh
      · rw [hh i hi i' hi']
      · have hmean : ∀ x ∈ instances, vecToMat (meanOf (cams.map (fun c => toVec ((rig c).wcR * x.1.wcR)))) =
            (rig s.2).wcR * x.1.wcR := by
          intro x hx
          rw [mean_const _ (toVec ((rig s.2).wcR * x.1.wcR)) (by simpa using hcne)
            (by intro y hy
                obtain ⟨c, hcc, rfl⟩ := List.mem_map.1 hy
                rw [hh c hcc s.2 (hin i hi s hsj)])]
          refine hl _ ((isRot_iff _).2 ?_)
          have h3 := (compose_parts (hr _ (hin i hi s hsj)) (hs x hx).1)
          rw [← h3.2.1]
          exact ⟨h3.1.1.1, h3.1.2⟩
        rw [hmean i hi, hmean i' hi', mulVec_mulVec, mulVec_mulVec, Matrix.mul_assoc, Matrix.mul_assoc]
        have h1 : i.1.wcR * i.1.wcRᵀ = 1 := (hs i hi).1.1.1
        have h2 : i'.1.wcR * i'.1.wcRᵀ = 1 := (hs i' hi').1.1.1
        rw [h1, h2]
  obtain ⟨i, hi⟩ := List.exists_mem_of_ne_nil _ hne
  have hget : ∀ c ∈ cams, ∃ s ∈ i.2, s.2 = c := by
    intro c hcc
    obtain ⟨s, hs1, hs2⟩ := List.mem_map.1 ((hc i hi).symm.subset hcc)
    exact ⟨s, hs1, hs2⟩
  obtain ⟨s, hs1, rfl⟩ := hget a ha
  obtain ⟨t, ht1, rfl⟩ := hget b hb
  have him : i.2 ∈ instances.map (·.2) := List.mem_map.2 ⟨i, hi, rfl⟩
  refine ⟨_, _, consistent' hl hprop hcons him hs1, consistent' hl hprop hcons him ht1, ?_⟩
  rw [relative_relative (hparts i hi s hs1).1.1 (hparts i hi t ht1).1.1 (frame_spec toVec i.2).1.1,
    (hs i hi).2 s hs1, (hs i hi).2 t ht1]
  exact relative_compose (hr _ ha).1 (hr _ hb).1 (hs i hi).1.1

/-! ### The calibration is not exact in general -/

/-- `toVec` gives the rotation vector of at most half a turn. -/
def IsMinLog (toVec : Mat 3 → Vec 3) : Prop :=
  IsLog toVec ∧ ∀ A, IsRot A → AlignPrior.norm (toVec A) ≤ Real.pi

/-- A turn about the third axis. -/
noncomputable def turnZ (θ : ℝ) : Mat 3 := !![Real.cos θ, -Real.sin θ, 0; Real.sin θ, Real.cos θ, 0; 0, 0, 1]

theorem vecToMat_z (θ : ℝ) : vecToMat ![0, 0, θ] = turnZ θ := by
  by_cases h : θ = 0
  · subst h
    have : (![0, 0, 0] : Vec 3) = 0 := by ext i; fin_cases i <;> rfl
    rw [this, vecToMat_zero]
    unfold turnZ
    ext i j
    fin_cases i <;> fin_cases j <;> simp
  · have hv : (![0, 0, θ] : Vec 3) ≠ 0 := fun e => h (by have := congrFun e 2; simpa using this)
    rw [vecToMat_ne _ hv]
    have hn : AlignPrior.norm ![0, 0, θ] = |θ| := by
      unfold AlignPrior.norm
      rw [← Real.sqrt_sq_eq_abs]
      congr 1
      simp [dotProduct, Fin.sum_univ_three]
      ring
    have hk : (1 / |θ|) • (![0, 0, θ] : Vec 3) = ![0, 0, θ / |θ|] := by
      ext i
      fin_cases i <;> simp [div_eq_inv_mul]
    have ha : |θ| ≠ 0 := abs_ne_zero.2 h
    have h2 : θ / |θ| * (θ / |θ|) = 1 := by
      rw [div_mul_div_comm, abs_mul_abs_self, div_self (mul_self_ne_zero.2 h)]
    have hs : Real.sin |θ| * (θ / |θ|) = Real.sin θ := by
      rcases abs_cases θ with ⟨e, _⟩ | ⟨e, _⟩
      · rw [e, div_self h, mul_one]
      · rw [e, div_neg, div_self h, Real.sin_neg]; ring
    rw [hn, hk, Real.cos_abs]
    unfold AlignPrior.rod turnZ
    ext i j
    fin_cases i <;> fin_cases j <;> simp [h2, hs]

theorem turnZ_rot (θ : ℝ) : IsRot (turnZ θ) := by rw [← vecToMat_z]; exact vecToMat_rot _

theorem turnZ_mul (a b : ℝ) : turnZ a * turnZ b = turnZ (a + b) := by
  unfold turnZ
  ext i j
  fin_cases i <;> fin_cases j <;>
    simp [Matrix.mul_apply, Fin.sum_univ_three, Real.cos_add, Real.sin_add] <;> ring

/-- The rotation vector of a turn about the third axis of less than half a turn. -/
theorem minLog_z {toVec : Mat 3 → Vec 3} (h : IsMinLog toVec) (θ : ℝ) (h0 : θ ≠ 0) (h1 : |θ| < Real.pi) :
    toVec (turnZ θ) = ![0, 0, θ] := by
  obtain ⟨v, hv⟩ : ∃ v, v = toVec (turnZ θ) := ⟨_, rfl⟩
  have e1 := h.1 _ (turnZ_rot θ)
  have e2 := h.2 _ (turnZ_rot θ)
  rw [← hv] at e1 e2 ⊢
  have hlt := abs_lt.1 h1
  have hvne : v ≠ 0 := by
    rintro rfl
    rw [vecToMat_zero] at e1
    have := congrFun (congrFun e1 0) 0
    simp [turnZ] at this
    exact h0 ((Real.cos_eq_one_iff_of_lt_of_lt (by linarith [Real.pi_pos]) (by linarith [Real.pi_pos])).1 this.symm)
  rw [vecToMat_ne v hvne] at e1
  obtain ⟨n, hn⟩ : ∃ n, n = AlignPrior.norm v := ⟨_, rfl⟩
  have hnp : 0 < n := hn ▸ AlignPrior.norm_pos v hvne
  obtain ⟨k, hk⟩ : ∃ k, k = (1 / n) • v := ⟨_, rfl⟩
  have hvk : v = n • k := by rw [hk, smul_smul, mul_one_div_cancel hnp.ne', one_smul]
  have hkk : k 0 * k 0 + k 1 * k 1 + k 2 * k 2 = 1 := by
    have h3 : v ⬝ᵥ v = n ^ 2 := by
      rw [hn, AlignPrior.norm_sq]
      simp only [dotProduct, Fin.sum_univ_three]
      ring
    rw [hvk] at h3
    simp only [dotProduct, Fin.sum_univ_three, Pi.smul_apply, smul_eq_mul] at h3
    have : n ^ 2 * (k 0 * k 0 + k 1 * k 1 + k 2 * k 2) = n ^ 2 * 1 := by linarith
    exact mul_left_cancel₀ (pow_ne_zero 2 hnp.ne') this
  rw [← hn, ← hk] at e1
  rw [← hn] at e2
  have m := fun i j => congrFun (congrFun e1 i) j
  have m00 := m 0 0
  have m11 := m 1 1
  have m22 := m 2 2
  have m10 := m 1 0
  have m01 := m 0 1
  have m02 := m 0 2
  have m20 := m 2 0
  have m12 := m 1 2
  have m21 := m 2 1
  simp [AlignPrior.rod, turnZ] at m00 m11 m22 m10 m01 m02 m20 m12 m21
  have hc : Real.cos n = Real.cos θ := by
    have : 3 * Real.cos n + (1 - Real.cos n) * (k 0 * k 0 + k 1 * k 1 + k 2 * k 2) = 2 * Real.cos θ + 1 := by
      linarith
    rw [hkk] at this
    linarith
  have hnt : n = |θ| := Real.injOn_cos ⟨hnp.le, e2⟩ ⟨abs_nonneg _, h1.le⟩ (by rw [hc, Real.cos_abs])
  have hsn : 0 < Real.sin n := by
    rw [hnt]
    exact Real.sin_pos_of_pos_of_lt_pi (abs_pos.2 h0) h1
  have k0 : k 0 = 0 := by
    have : Real.sin n * k 0 = 0 := by linarith
    exact (mul_eq_zero.1 this).resolve_left hsn.ne'
  have k1 : k 1 = 0 := by
    have : Real.sin n * k 1 = 0 := by linarith
    exact (mul_eq_zero.1 this).resolve_left hsn.ne'
  have k2 : Real.sin n * k 2 = Real.sin θ := by linarith
  have hv2 : n * k 2 = θ := by
    rcases abs_cases θ with ⟨e, _⟩ | ⟨e, _⟩
    · rw [hnt, e] at hsn k2 ⊢
      have : k 2 = 1 := mul_left_cancel₀ hsn.ne' (by rw [k2, mul_one])
      rw [this, mul_one]
    · rw [hnt, e] at hsn k2 ⊢
      have : k 2 = -1 := by
        have h4 : Real.sin θ = -Real.sin (-θ) := by rw [Real.sin_neg, neg_neg]
        exact mul_left_cancel₀ hsn.ne' (by rw [k2, h4]; ring)
      rw [this]; ring
  rw [hvk]
  ext i
  fin_cases i
  · simp [k0]
  · simp [k1]
  · simpa using hv2

/-- A turn about the third axis at the origin. -/
noncomputable def zPose (θ : ℝ) : Pose ℝ := .ofWorldToCamera (turnZ θ) 0

theorem zPose_proper (θ : ℝ) : Proper (zPose θ) := by
  have := (isRot_iff _).1 (turnZ_rot θ)
  exact ⟨(rigid_iff_cons _).2 (cons_ofW2C this.1 0), this.2⟩

theorem zPose_compose (a b : ℝ) : (zPose a).compose (zPose b) = zPose (a + b) := by
  unfold Pose.compose zPose
  simp only [Pose.ofWorldToCamera, turnZ_mul, mulVec_zero, add_zero]

theorem zPose_origin (a : ℝ) : (zPose a).getOrigin = 0 := by
  simp [zPose, Pose.getOrigin, Pose.ofWorldToCamera]

theorem turnZ_period (a : ℝ) : turnZ (a + 2 * Real.pi) = turnZ a := by
  unfold turnZ
  rw [Real.cos_add_two_pi, Real.sin_add_two_pi]

/-- The two instances of the example: the cameras look 90 degrees apart; one instance is turned by 135 degrees,
the other by -45. -/
noncomputable def exInstances : List (Pose ℝ × List (Pose ℝ × ℕ)) :=
  [(zPose (3 * Real.pi / 4), [(zPose (3 * Real.pi / 4), 0), (zPose (-(3 * Real.pi / 4)), 1)]),
   (zPose (-(Real.pi / 4)), [(zPose (-(Real.pi / 4)), 0), (zPose (Real.pi / 4), 1)])]

/-- The rig of the example. -/
noncomputable def exRig (c : ℕ) : Pose ℝ := if c = 0 then zPose 0 else zPose (Real.pi / 2)

theorem exSame : SameRig exRig exInstances := by
  intro i hi
  have hw : zPose (-(3 * Real.pi / 4)) = zPose (Real.pi / 2 + 3 * Real.pi / 4) := by
    unfold zPose
    rw [← turnZ_period (-(3 * Real.pi / 4))]
    congr 2
    ring
  rcases List.mem_cons.1 hi with rfl | hi
  · refine ⟨zPose_proper _, fun s hs => ?_⟩
    rcases List.mem_cons.1 hs with rfl | hs
    · simp [exRig, zPose_compose]
    · rcases List.mem_cons.1 hs with rfl | hs
      · simp [exRig, zPose_compose, hw]
      · cases hs
  · rcases List.mem_cons.1 hi with rfl | hi
    · refine ⟨zPose_proper _, fun s hs => ?_⟩
      rcases List.mem_cons.1 hs with rfl | hs
      · simp [exRig, zPose_compose]
      · rcases List.mem_cons.1 hs with rfl | hs
        · simp only [exRig, zPose_compose, one_ne_zero, if_false]
          congr 1
          ring
        · cases hs
    · cases hi

/-- C120: in general the calibration is wrong, however exact the data: two copies of one rig of two cameras
looking 90 degrees apart give a rig with the second camera on the other side. -/
theorem C120_wrong {toVec : Mat 3 → Vec 3} (h : IsMinLog toVec) :
    ∃ (rig : ℕ → Pose ℝ) (instances : List (Pose ℝ × List (Pose ℝ × ℕ))) (pa pb : Pose ℝ),
      (∀ c, Proper (rig c)) ∧ SameRig rig instances ∧ (∀ i ∈ instances, i.2.map (·.2) = [0, 1]) ∧
      (computeRelativePose toVec (instances.map (·.2))).get? 0 = some pa ∧
      (computeRelativePose toVec (instances.map (·.2))).get? 1 = some pb ∧
      pa.relativeTo pb ≠ (rig 0).relativeTo (rig 1) := by
  have hpi := Real.pi_pos
  have l1 : toVec (turnZ (3 * Real.pi / 4)) = ![0, 0, 3 * Real.pi / 4] :=
    minLog_z h _ (by positivity) (by rw [abs_of_pos (by positivity)]; linarith)
  have l2 : toVec (turnZ (-(3 * Real.pi / 4))) = ![0, 0, -(3 * Real.pi / 4)] :=
    minLog_z h _ (by simp [hpi.ne']) (by rw [abs_neg, abs_of_pos (by positivity)]; linarith)
  have l3 : toVec (turnZ (Real.pi / 4)) = ![0, 0, Real.pi / 4] :=
    minLog_z h _ (by positivity) (by rw [abs_of_pos (by positivity)]; linarith)
  have l4 : toVec (turnZ (-(Real.pi / 4))) = ![0, 0, -(Real.pi / 4)] :=
    minLog_z h _ (by simp [hpi.ne']) (by rw [abs_neg, abs_of_pos (by positivity)]; linarith)
  have wz : ∀ a, (zPose a).wcR = turnZ a := fun a => rfl
  have rel1 : ∀ a, (zPose a).relativeTo .identity = zPose a := by
    intro a
    have := (C39_group (zPose a) .identity .identity (zPose_proper a).1 rigid_identity rigid_identity)
    have h2 := this.2.2.2.2.2.1
    rw [(C39_group _ .identity .identity (C39_actions _ _ (zPose_proper a).1 rigid_identity).2.2.1.1
      rigid_identity rigid_identity).2.1] at h2
    exact h2
  have fr : ∀ i ∈ exInstances.map (·.2), ∀ f : Pose ℝ, Proper f →
      f.wcR = vecToMat (meanOf (i.map (fun s => toVec s.1.wcR))) →
      f.getOrigin = meanOf (i.map (fun s => s.1.getOrigin)) → f = .identity := by
    intro i hi f hf h1 h2
    refine pose_ext hf.1 rigid_identity ?_ ?_
    · rw [h1]
      have : meanOf (i.map (fun s => toVec s.1.wcR)) = 0 := by
        simp only [exInstances, List.map_cons, List.map_nil, List.mem_cons, List.not_mem_nil, or_false] at hi
        unfold meanOf
        rcases hi with rfl | rfl
        · simp only [List.map_cons, List.map_nil, List.sum_cons, List.sum_nil, wz, l1, l2]
          ext k
          fin_cases k <;> simp
        · simp only [List.map_cons, List.map_nil, List.sum_cons, List.sum_nil, wz, l3, l4]
          ext k
          fin_cases k <;> simp
      rw [this, vecToMat_zero]
      rfl
    · rw [h2]
      simp only [exInstances, List.map_cons, List.map_nil, List.mem_cons, List.not_mem_nil, or_false] at hi
      rcases hi with rfl | rfl <;>
      · simp only [meanOf, List.map_cons, List.map_nil, List.sum_cons, List.sum_nil, zPose_origin]
        simp [Pose.getOrigin, Pose.identity, Pose.ofWorldToCamera]
  have get : ∀ c, (c = 0 ∨ c = 1) → ∃ p, (computeRelativePose toVec (exInstances.map (·.2))).get? c = some p := by
    intro c hc
    refine Option.isSome_iff_exists.1 ((C120_average toVec _ c).1.2 ?_)
    refine ⟨_, List.mem_cons_self, ?_⟩
    rcases hc with rfl | rfl
    · exact ⟨_, List.mem_cons_self, rfl⟩
    · exact ⟨_, List.mem_cons_of_mem _ List.mem_cons_self, rfl⟩
  obtain ⟨pa, ha⟩ := get 0 (Or.inl rfl)
  obtain ⟨pb, hb⟩ := get 1 (Or.inr rfl)
  have ra : pa.wcR = turnZ (Real.pi / 4) := by
    obtain ⟨frames, f1, _, _, f4⟩ := (C120_average toVec _ 0).2 pa ha
    have g := fun i hi => fr i hi (frames i) (f1 i).1 (f1 i).2.1 (f1 i).2.2
    rw [f4, ← vecToMat_z]
    congr 1
    have g1 := g _ List.mem_cons_self
    have g2 := g _ (List.mem_cons_of_mem _ List.mem_cons_self)
    simp only [exInstances] at g1 g2
    simp only [exInstances, List.map_cons, List.map_nil, g1, g2]
    simp [rel1, wz, l1, l4, meanOf]
    ring
  have rb : pb.wcR = turnZ (-(Real.pi / 4)) := by
    obtain ⟨frames, f1, _, _, f4⟩ := (C120_average toVec _ 1).2 pb hb
    have g := fun i hi => fr i hi (frames i) (f1 i).1 (f1 i).2.1 (f1 i).2.2
    rw [f4, ← vecToMat_z]
    congr 1
    have g1 := g _ List.mem_cons_self
    have g2 := g _ (List.mem_cons_of_mem _ List.mem_cons_self)
    simp only [exInstances] at g1 g2
    simp only [exInstances, List.map_cons, List.map_nil, g1, g2]
    simp [rel1, wz, l2, l3, meanOf]
    ring
  refine ⟨exRig, exInstances, pa, pb, ?_, exSame, ?_, ha, hb, ?_⟩
  · intro c
    unfold exRig
    split <;> exact zPose_proper _
  · intro i hi
    simp only [exInstances, List.mem_cons, List.not_mem_nil, or_false] at hi
    rcases hi with rfl | rfl <;> rfl
  · intro e
    have pr : ∀ c, c = 0 ∨ c = 1 → ∀ p, (computeRelativePose toVec (exInstances.map (·.2))).get? c = some p →
        Proper p := fun c _ p hp => by
      obtain ⟨_, _, q, _⟩ := (C120_average toVec _ c).2 p hp
      exact q
    have e1 := (relative_parts (pr 0 (Or.inl rfl) pa ha) (pr 1 (Or.inr rfl) pb hb)).1
    have e2 := (relative_parts (zPose_proper 0) (zPose_proper (Real.pi / 2))).1
    have e3 : pa.wcR * pb.wcRᵀ = turnZ 0 * (turnZ (Real.pi / 2))ᵀ := by
      rw [← e1, e]
      simp only [exRig, if_true, one_ne_zero, if_false]
      exact e2
    rw [ra, rb] at e3
    have e4 : ∀ a, (turnZ a)ᵀ = turnZ (-a) := by
      intro a
      unfold turnZ
      ext i j
      fin_cases i <;> fin_cases j <;> simp
    rw [e4, e4, turnZ_mul, turnZ_mul] at e3
    have e5 := congrFun (congrFun e3 1) 0
    simp only [turnZ, neg_neg] at e5
    have a1 : Real.pi / 4 + Real.pi / 4 = Real.pi / 2 := by ring
    have a2 : 0 + -(Real.pi / 2) = -(Real.pi / 2) := by ring
    rw [a1, a2] at e5
    simp at e5
    linarith

/-- A multiple of a unit vector is the rotation vector of the turn by that angle about it. -/
theorem vecToMat_smul (k : Vec 3) (hk : k 0 ^ 2 + k 1 ^ 2 + k 2 ^ 2 = 1) (a : ℝ) :
    AlignPrior.norm (a • k) = |a| ∧ vecToMat (a • k) = AlignPrior.rod (Real.cos a) (Real.sin a) k := by
  have hn : AlignPrior.norm (a • k) = |a| := by
    have h1 := AlignPrior.norm_sq (a • k)
    have h0 : 0 ≤ AlignPrior.norm (a • k) := Real.sqrt_nonneg _
    simp only [Pi.smul_apply, smul_eq_mul] at h1
    have h2 : AlignPrior.norm (a • k) ^ 2 = |a| ^ 2 := by
      rw [h1, sq_abs]
      linear_combination a ^ 2 * hk
    exact (pow_left_inj₀ h0 (abs_nonneg a) (by norm_num)).1 h2
  refine ⟨hn, ?_⟩
  by_cases h : a = 0
  · subst h
    rw [zero_smul, vecToMat_zero, Real.cos_zero, Real.sin_zero]
    ext i j
    fin_cases i <;> fin_cases j <;> simp [AlignPrior.rod]
  have hkne : k ≠ 0 := by
    rintro rfl
    simp at hk
  rw [vecToMat_ne _ (smul_ne_zero h hkne), hn, smul_smul]
  rcases lt_or_gt_of_ne h with h | h
  · have e : 1 / |a| * a = -1 := by
      rw [abs_of_neg h]
      field_simp
    rw [e, abs_of_neg h, Real.cos_neg, Real.sin_neg]
    ext i j
    fin_cases i <;> fin_cases j <;> simp [AlignPrior.rod] <;> ring
  · rw [abs_of_pos h, one_div_mul_cancel h.ne', one_smul]

/-- Rotation vectors of at most half a turn exist. -/
theorem minLog_exists : ∃ toVec, IsMinLog toVec := by
  obtain ⟨f, hf⟩ := C95_log
  have : ∀ v : Vec 3, ∃ w : Vec 3, vecToMat w = vecToMat v ∧ AlignPrior.norm w ≤ Real.pi := by
    intro v
    by_cases h : v = 0
    · refine ⟨0, by rw [h], ?_⟩
      have := AlignPrior.norm_sq (0 : Vec 3)
      simp at this
      rw [this]
      exact Real.pi_pos.le
    obtain ⟨n, hn⟩ : ∃ n, n = AlignPrior.norm v := ⟨_, rfl⟩
    have hnp : 0 < n := hn ▸ AlignPrior.norm_pos v h
    have hk : ((1 / n) • v) 0 ^ 2 + ((1 / n) • v) 1 ^ 2 + ((1 / n) • v) 2 ^ 2 = 1 := by
      have := AlignPrior.norm_sq v
      rw [← hn] at this
      simp only [Pi.smul_apply, smul_eq_mul]
      field_simp
      linarith
    have hv : n • ((1 / n) • v) = v := by rw [smul_smul, mul_one_div_cancel hnp.ne', one_smul]
    have e := (vecToMat_smul _ hk n).2
    rw [hv] at e
    obtain ⟨e1, e2⟩ := vecToMat_smul _ hk (n : Real.Angle).toReal
    refine ⟨(n : Real.Angle).toReal • ((1 / n) • v), ?_, ?_⟩
    · rw [e2, e, Real.Angle.cos_toReal, Real.Angle.sin_toReal, Real.Angle.cos_coe, Real.Angle.sin_coe]
    · rw [e1]
      exact Real.Angle.abs_toReal_le_pi _
  choose g hg using this
  exact ⟨fun A => g (f A), fun A hA => (hg _).1.trans (hf A hA), fun A _ => (hg _).2⟩

/-- The hypothesis of `C120_wrong` holds of some conversion, so the counterexample is real. -/
example : ∃ (toVec : Mat 3 → Vec 3) (rig : ℕ → Pose ℝ) (instances : List (Pose ℝ × List (Pose ℝ × ℕ)))
    (pa pb : Pose ℝ), IsMinLog toVec ∧ SameRig rig instances ∧
      (computeRelativePose toVec (instances.map (·.2))).get? 0 = some pa ∧
      (computeRelativePose toVec (instances.map (·.2))).get? 1 = some pb ∧
      pa.relativeTo pb ≠ (rig 0).relativeTo (rig 1) := by
  obtain ⟨toVec, h⟩ := minLog_exists
  obtain ⟨rig, instances, pa, pb, _, h2, _, h3, h4, h5⟩ := C120_wrong h
  exact ⟨toVec, rig, instances, pa, pb, h, h2, h3, h4, h5⟩

/-- Non-trivial data for `C120_exact`: two instances of a rig of two cameras side by side, with different
orientations. -/
example : ∃ (rig : ℕ → Pose ℝ) (instances : List (Pose ℝ × List (Pose ℝ × ℕ))), instances.length = 2 ∧
    (∀ c, Proper (rig c)) ∧ SameRig rig instances ∧ (∀ i ∈ instances, (i.2.map (·.2)).Perm [0, 1]) ∧
    (∀ a b, (rig a).wcR = (rig b).wcR) ∧ rig 0 ≠ rig 1 := by
  have hp : ∀ v : Vec 3, Proper (Pose.ofWorldToCamera 1 v) := fun v =>
    ⟨(rigid_iff_cons _).2 (cons_ofW2C orth_one v), by simp [Pose.ofWorldToCamera]⟩
  refine ⟨fun c => .ofWorldToCamera 1 ![(c : ℝ), 0, 0],
    [(zPose 1, [((Pose.ofWorldToCamera 1 ![((0 : ℕ) : ℝ), 0, 0]).compose (zPose 1), 0),
      ((Pose.ofWorldToCamera 1 ![((1 : ℕ) : ℝ), 0, 0]).compose (zPose 1), 1)]),
     (zPose 2, [((Pose.ofWorldToCamera 1 ![((0 : ℕ) : ℝ), 0, 0]).compose (zPose 2), 0),
      ((Pose.ofWorldToCamera 1 ![((1 : ℕ) : ℝ), 0, 0]).compose (zPose 2), 1)])],
    rfl, fun c => hp _, ?_, ?_, fun _ _ => rfl, ?_⟩
  · intro i hi
    simp only [List.mem_cons, List.not_mem_nil, or_false] at hi
    rcases hi with rfl | rfl <;>
    · refine ⟨zPose_proper _, fun s hs => ?_⟩
      simp only [List.mem_cons, List.not_mem_nil, or_false] at hs
      rcases hs with rfl | rfl <;> rfl
  · intro i hi
    simp only [List.mem_cons, List.not_mem_nil, or_false] at hi
    rcases hi with rfl | rfl <;> exact List.Perm.refl _
  · intro e
    have := congrFun (congrArg Pose.wcT e) 0
    simp [Pose.ofWorldToCamera] at this

end Verif.RigCalib
