import Verif.Model.Pose
import Verif.Props.SfmMap
import Mathlib.Tactic.NormNum
import Mathlib.Tactic.FieldSimp
import Mathlib.Tactic.Module

/-!
Properties C39 (rigid pose algebra), C40 (similarity alignment), C58 (inverse similarity) and the
instantiation of C19 by rigid motions.
-/
set_option linter.unusedSectionVars false
set_option linter.unusedSimpArgs false
namespace Verif.Pose
open Matrix

variable {K : Type} [Field K]

/-! ### Specification -/

/-- `R` is an orthogonal matrix. -/
def Orth (R : M3 K) : Prop := R * Rᵀ = 1

/-- A pose is a rigid motion whose two stored directions are inverse of each other, as point maps. -/
def Rigid (p : Pose K) : Prop :=
  Orth p.wcR ∧ (∀ x, p.transformInverse (p.transform x) = x) ∧
    (∀ x, p.transform (p.transformInverse x) = x)

/-- Calls whose matrix arguments are rotations. -/
def Op.Proper : Pose.Op K → Prop
  | .setFromWorldToCam R _ => Orth R
  | .setFromCamToWorld R _ => Orth R
  | .setRotation R => Orth R
  | .setTranslation _ => True
  | .setOrigin _ => True

/-- Calls that set the rotation only. -/
def Op.RotationOnly : Pose.Op K → Prop
  | .setRotation _ => True
  | _ => False

/-! ### Algebra of the representation -/

theorem Orth.symm {R : M3 K} (h : Orth R) : Rᵀ * R = 1 := mul_eq_one_comm.1 h
theorem Orth.inv {R : M3 K} (h : Orth R) : R⁻¹ = Rᵀ := Matrix.inv_eq_right_inv h
theorem Orth.transpose {R : M3 K} (h : Orth R) : Orth Rᵀ := by
  unfold Orth; rw [Matrix.transpose_transpose]; exact h.symm
theorem Orth.mul {R S : M3 K} (h : Orth R) (h' : Orth S) : Orth (R * S) := by
  unfold Orth at *
  rw [Matrix.transpose_mul, Matrix.mul_assoc, ← Matrix.mul_assoc S, h', Matrix.one_mul, h]
theorem orth_one : Orth (1 : M3 K) := by simp [Orth]

/-- Internal form of `Rigid`. -/
structure Cons (p : Pose K) : Prop where
  orth : Orth p.wcR
  rot : p.cwR = p.wcRᵀ
  tr : p.cwT = -(p.wcRᵀ *ᵥ p.wcT)

theorem cons_ofW2C {R : M3 K} (h : Orth R) (t : V3 K) : Cons (Pose.ofWorldToCamera R t) :=
  ⟨h, by simp [Pose.ofWorldToCamera, h.inv], by simp [Pose.ofWorldToCamera, h.inv]⟩

theorem cons_ofC2W {R : M3 K} (h : Orth R) (t : V3 K) : Cons (Pose.ofCameraToWorld R t) := by
  refine ⟨?_, ?_, ?_⟩
  · simpa [Pose.ofCameraToWorld, h.inv] using h.transpose
  · simp [Pose.ofCameraToWorld, h.inv]
  · have : R * Rᵀ = 1 := h
    simp [Pose.ofCameraToWorld, h.inv, Matrix.mulVec_neg, this]

/-- A consistent pose is determined by its world-to-camera part. -/
theorem Cons.ext {p q : Pose K} (hp : Cons p) (hq : Cons q) (hR : p.wcR = q.wcR)
    (ht : p.wcT = q.wcT) : p = q := by
  apply Pose.ext hR ht
  · rw [hp.rot, hq.rot, hR]
  · rw [hp.tr, hq.tr, hR, ht]

theorem Cons.eq_ofW2C {p : Pose K} (hp : Cons p) : p = Pose.ofWorldToCamera p.wcR p.wcT :=
  hp.ext (cons_ofW2C hp.orth _) rfl rfl

theorem cons_setTranslation {p : Pose K} (h : Orth p.wcR) (hr : p.cwR = p.wcRᵀ) (t : V3 K) :
    Cons (p.setTranslation t) :=
  ⟨h, hr, by simp [Pose.setTranslation, h.inv]⟩

theorem mulVec_ext {A B : M3 K} (h : ∀ x, A *ᵥ x = B *ᵥ x) : A = B :=
  Matrix.ext_of_mulVec_single (fun i => h _)

theorem rigid_iff_cons (p : Pose K) : Rigid p ↔ Cons p := by
  constructor
  · rintro ⟨ho, h1, h2⟩
    have ht : p.cwR *ᵥ p.wcT + p.cwT = 0 := by
      have := h1 0
      simpa [Pose.transform, Pose.transformInverse] using this
    have hR : p.cwR * p.wcR = 1 := by
      apply mulVec_ext
      intro x
      have := h1 x
      simp only [Pose.transform, Pose.transformInverse, Matrix.mulVec_add, add_assoc, ht, add_zero,
        Matrix.mulVec_mulVec] at this
      rw [this, Matrix.one_mulVec]
    have hR' : p.cwR = p.wcRᵀ := by
      have := congrArg (· * p.wcRᵀ) hR
      simp only [Matrix.mul_assoc, Matrix.one_mul] at this
      rw [show p.wcR * p.wcRᵀ = 1 from ho, Matrix.mul_one] at this
      exact this
    exact ⟨ho, hR', by rw [← hR']; exact eq_neg_of_add_eq_zero_right ht⟩
  · rintro ⟨ho, hr, ht⟩
    refine ⟨ho, ?_, ?_⟩
    · intro x
      simp [Pose.transform, Pose.transformInverse, hr, ht, Matrix.mulVec_add, ho.symm]
    · intro x
      have : p.wcR * p.wcRᵀ = 1 := ho
      simp [Pose.transform, Pose.transformInverse, hr, ht, Matrix.mulVec_add, Matrix.mulVec_neg,
        this]

theorem cons_identity : Cons (Pose.identity : Pose K) := cons_ofW2C orth_one 0

theorem Cons.compose {p q : Pose K} (hp : Cons p) (hq : Cons q) : Cons (p.compose q) :=
  cons_ofW2C (hp.orth.mul hq.orth) _

theorem Cons.inverse {p : Pose K} (hp : Cons p) : Cons p.inverse :=
  cons_ofW2C (by rw [hp.rot]; exact hp.orth.transpose) _

theorem Cons.relativeTo {p q : Pose K} (hp : Cons p) (hq : Cons q) : Cons (p.relativeTo q) :=
  cons_ofW2C (hp.orth.mul (by rw [hq.rot]; exact hq.orth.transpose)) _

theorem run_rot (ops : List (Pose.Op K)) (h : ∀ o ∈ ops, Op.Proper o) :
    Orth (Pose.run ops).wcR ∧ (Pose.run ops).cwR = (Pose.run ops).wcRᵀ := by
  unfold Pose.run
  suffices H : ∀ p : Pose K, Orth p.wcR ∧ p.cwR = p.wcRᵀ →
      Orth (ops.foldl Pose.step p).wcR ∧
        (ops.foldl Pose.step p).cwR = (ops.foldl Pose.step p).wcRᵀ from
    H _ ⟨cons_identity.orth, cons_identity.rot⟩
  induction ops with
  | nil => intro p hp; exact hp
  | cons o ops ih =>
    intro p hp
    apply ih (fun o' ho' => h o' (List.mem_cons_of_mem _ ho'))
    have ho := h o List.mem_cons_self
    cases o with
    | setFromWorldToCam R t => exact ⟨(cons_ofW2C ho t).orth, (cons_ofW2C ho t).rot⟩
    | setFromCamToWorld R t => exact ⟨(cons_ofC2W ho t).orth, (cons_ofC2W ho t).rot⟩
    | setRotation R => exact ⟨ho, rfl⟩
    | setTranslation t => exact hp
    | setOrigin o => exact hp

/-! ### C39 -/

/-- After any history of calls with rotation matrices that does not end with a rotation-only call,
the pose is rigid: its two directions are inverse of each other. -/
theorem C39_consistent (ops : List (Pose.Op K)) (last : Pose.Op K)
    (h : ∀ o ∈ ops ++ [last], Op.Proper o) (hl : ¬ Op.RotationOnly last) :
    Rigid (Pose.run (ops ++ [last])) := by
  rw [rigid_iff_cons]
  have hr := run_rot ops (fun o ho => h o (List.mem_append_left _ ho))
  have ho := h last (by simp)
  have : Pose.run (ops ++ [last]) = (Pose.run ops).step last := by
    simp [Pose.run, List.foldl_append]
  rw [this]
  cases last with
  | setFromWorldToCam R t => exact cons_ofW2C ho t
  | setFromCamToWorld R t => exact cons_ofC2W ho t
  | setRotation R => exact absurd trivial hl
  | setTranslation t => exact cons_setTranslation hr.1 hr.2 t
  | setOrigin o => exact cons_setTranslation hr.1 hr.2 _

/-- A quarter turn about the vertical axis (used by the examples). -/
def quarterTurn : M3 ℚ := !![0, -1, 0; 1, 0, 0; 0, 0, 1]

theorem orth_quarterTurn : Orth quarterTurn := by
  unfold Orth quarterTurn
  ext i j; fin_cases i <;> fin_cases j <;> simp [Matrix.mul_apply, Fin.sum_univ_three]

example : Rigid (Pose.run ([.setOrigin ![1, 2, 3], .setRotation quarterTurn] ++
    [.setTranslation ![4, 5, 6]])) :=
  C39_consistent _ _ (by simp [Op.Proper, orth_quarterTurn]) (by simp [Op.RotationOnly])

/-- The exclusion is necessary: setting the rotation alone leaves `get_origin` and
`transform_inverse` at their old value, so the two directions disagree. -/
theorem C39_rotation_only_stale :
    ¬ Rigid (Pose.run [.setTranslation ![1, 0, 0], .setRotation quarterTurn] : Pose ℚ) := by
  rw [rigid_iff_cons]
  intro h
  have := congrFun h.tr 0
  simp [Pose.run, Pose.step, Pose.setTranslation, Pose.setRotationMatrix, Pose.identity,
    Pose.ofWorldToCamera, quarterTurn, Matrix.mulVec, dotProduct, Fin.sum_univ_three] at this

/-- Composition, relative pose and inverse of rigid poses are rigid; composition acts on points as
composition of the maps, the inverse as the inverse map and `relative_to` as the change of frame. -/
theorem C39_actions (p q : Pose K) (hp : Rigid p) (hq : Rigid q) :
    (Rigid (p.compose q) ∧ ∀ x, (p.compose q).transform x = p.transform (q.transform x)) ∧
    (Rigid p.inverse ∧ ∀ x, p.inverse.transform x = p.transformInverse x) ∧
    (Rigid (p.relativeTo q) ∧ ∀ x, (p.relativeTo q).transform (q.transform x) = p.transform x) ∧
    (∀ x, (Pose.identity : Pose K).transform x = x) := by
  simp only [rigid_iff_cons] at *
  refine ⟨⟨hp.compose hq, ?_⟩, ⟨hp.inverse, ?_⟩, ⟨hp.relativeTo hq, ?_⟩, ?_⟩
  · intro x
    simp [Pose.transform, Pose.compose, Pose.ofWorldToCamera, Matrix.mulVec_add,
      Matrix.mulVec_mulVec, add_assoc]
  · intro x; rfl
  · intro x
    simp only [Pose.transform, Pose.relativeTo, Pose.ofWorldToCamera, hq.rot, hq.tr,
      Matrix.mulVec_add, Matrix.mulVec_mulVec, Matrix.mulVec_neg, Matrix.mul_assoc, hq.orth.symm,
      Matrix.mul_one]
    abel
  · intro x; simp [Pose.transform, Pose.identity, Pose.ofWorldToCamera]

/-- Group laws on the stored poses themselves. -/
theorem C39_group (p q r : Pose K) (hp : Rigid p) (hq : Rigid q) (hr : Rigid r) :
    (p.compose q).compose r = p.compose (q.compose r) ∧
    p.compose .identity = p ∧ Pose.identity.compose p = p ∧
    p.compose p.inverse = .identity ∧ p.inverse.compose p = .identity ∧
    (p.relativeTo q).compose q = p ∧ p.relativeTo q = p.compose q.inverse ∧
    p.inverse.inverse = p := by
  simp only [rigid_iff_cons] at *
  refine ⟨?_, ?_, ?_, ?_, ?_, ?_, ?_, ?_⟩
  · apply ((hp.compose hq).compose hr).ext (hp.compose (hq.compose hr))
    · simp [Pose.compose, Pose.ofWorldToCamera, Matrix.mul_assoc]
    · simp [Pose.compose, Pose.ofWorldToCamera, Matrix.mulVec_add, Matrix.mulVec_mulVec, add_assoc]
  · apply (hp.compose cons_identity).ext hp <;>
      simp [Pose.compose, Pose.ofWorldToCamera, Pose.identity]
  · apply (cons_identity.compose hp).ext hp <;>
      simp [Pose.compose, Pose.ofWorldToCamera, Pose.identity]
  · have h1 : p.wcR * p.wcRᵀ = 1 := hp.orth
    apply (hp.compose hp.inverse).ext cons_identity <;>
      simp [Pose.compose, Pose.inverse, Pose.ofWorldToCamera, Pose.identity, hp.rot, hp.tr, h1,
        Matrix.mulVec_neg]
  · have h1 : p.wcRᵀ * p.wcR = 1 := hp.orth.symm
    apply (hp.inverse.compose hp).ext cons_identity <;>
      simp [Pose.compose, Pose.inverse, Pose.ofWorldToCamera, Pose.identity, hp.rot, hp.tr, h1]
  · have h1 : q.wcRᵀ * q.wcR = 1 := hq.orth.symm
    apply ((hp.relativeTo hq).compose hq).ext hp <;>
      simp [Pose.compose, Pose.relativeTo, Pose.ofWorldToCamera, hq.rot, hq.tr, h1,
        Matrix.mul_assoc, Matrix.mulVec_neg]
  · rfl
  · apply hp.inverse.inverse.ext hp
    · simp [Pose.inverse, Pose.ofWorldToCamera, hp.rot, hp.orth.transpose.inv]
    · have h1 : p.wcR * p.wcRᵀ = 1 := hp.orth
      simp [Pose.inverse, Pose.ofWorldToCamera, hp.rot, hp.tr, hp.orth.transpose.inv,
        Matrix.mulVec_neg, h1]

/-- The origin of a rigid pose is the one point seen at the camera centre; setting the origin keeps
the rotation and is read back; the vectorised transforms act point by point; distances are
preserved; reading a pose back from its camera-to-world matrix (pickling) gives the same pose. -/
theorem C39_origin (p : Pose K) (hp : Rigid p) :
    (∀ x, p.transform x = 0 ↔ x = p.getOrigin) ∧
    (∀ o, Rigid (p.setOrigin o) ∧ (p.setOrigin o).getOrigin = o ∧ (p.setOrigin o).wcR = p.wcR) ∧
    (∀ xs, p.transformMany xs = xs.map p.transform ∧
      p.transformInverseMany xs = xs.map p.transformInverse) ∧
    (∀ x y, (p.transform x - p.transform y) ⬝ᵥ (p.transform x - p.transform y) =
      (x - y) ⬝ᵥ (x - y)) ∧
    Pose.ofCameraToWorld p.cwR p.cwT = p := by
  have hc := (rigid_iff_cons p).1 hp
  refine ⟨?_, ?_, ?_, ?_, ?_⟩
  · intro x
    constructor
    · intro h
      rw [← hp.2.1 x, h]; simp [Pose.transformInverse, Pose.getOrigin]
    · rintro rfl
      have := hp.2.2 0
      simpa [Pose.transformInverse, Pose.getOrigin] using this
  · intro o
    rw [rigid_iff_cons]
    refine ⟨cons_setTranslation hc.orth hc.rot _, ?_, rfl⟩
    simp [Pose.setOrigin, Pose.setTranslation, Pose.getOrigin, hc.orth.inv, Matrix.neg_mulVec,
      Matrix.mulVec_neg, hc.orth.symm]
  · intro xs
    constructor <;>
    · apply List.map_congr_left
      intro x _
      simp [Pose.transform, Pose.transformInverse, Matrix.vecMul_transpose]
  · intro x y
    have e : p.transform x - p.transform y = p.wcR *ᵥ (x - y) := by
      simp [Pose.transform, Matrix.mulVec_sub]
    rw [e, Matrix.dotProduct_mulVec, Matrix.vecMul_mulVec, hc.orth.symm, Matrix.vecMul_one]
  · have h := cons_ofC2W (R := p.cwR) (by rw [hc.rot]; exact hc.orth.transpose) p.cwT
    apply h.ext hc
    · simp [Pose.ofCameraToWorld, hc.rot, hc.orth.transpose.inv]
    · have h1 : p.wcR * p.wcRᵀ = 1 := hc.orth
      simp [Pose.ofCameraToWorld, hc.rot, hc.orth.transpose.inv, hc.tr, Matrix.mulVec_neg, h1]

example : Rigid (Pose.ofWorldToCamera quarterTurn ![4, 5, 6]) :=
  (rigid_iff_cons _).2 (cons_ofW2C orth_quarterTurn _)

/-! ### C19 instantiated by rigid poses -/

/-- Rigid poses, the pose type of the map. -/
def RPose (K : Type) [Field K] : Type := { p : Pose K // Rigid p }

theorem rigid_identity : Rigid (Pose.identity : Pose K) := (rigid_iff_cons _).2 cons_identity

noncomputable instance : DecidableEq (RPose K) := Classical.decEq _

/-- Rigid poses with `Compose` and `Inverse` are a group, so every theorem about the map applies. -/
noncomputable instance : Group (RPose K) where
  mul a b := ⟨a.1.compose b.1, (C39_actions a.1 b.1 a.2 b.2).1.1⟩
  one := ⟨.identity, rigid_identity⟩
  inv a := ⟨a.1.inverse, (C39_actions a.1 a.1 a.2 a.2).2.1.1⟩
  mul_assoc a b c := Subtype.ext (C39_group a.1 b.1 c.1 a.2 b.2 c.2).1
  one_mul a := Subtype.ext (C39_group a.1 a.1 a.1 a.2 a.2 a.2).2.2.1
  mul_one a := Subtype.ext (C39_group a.1 a.1 a.1 a.2 a.2 a.2).2.1
  inv_mul_cancel a := Subtype.ext (C39_group a.1 a.1 a.1 a.2 a.2 a.2).2.2.2.2.1

open SMap in
/-- In every disciplined history of map calls with rigid poses, a shot's camera coordinates of a
point are those of its rig camera applied to the coordinates in its instance. -/
theorem C19_coordinates {Id A X KK B : Type} [DecidableEq Id] (b0 : B)
    (ops : List (SMap.Op Id A X KK B (RPose K))) (hd : Disciplined b0 ops) (s : Id)
    (st : ShotSt Id A) (hs : (SMap.run b0 ops).shots.get? s = some st) :
    ∃ (inst : InstSt Id (RPose K)) (rp p : RPose K),
      (SMap.run b0 ops).rigInstances.get? st.rigInstance = some inst ∧
      (SMap.run b0 ops).rigCameras.get? st.rigCamera = some rp ∧
      (SMap.run b0 ops).shotPose s = .ok p ∧
      ∀ x, p.1.transform x = rp.1.transform (inst.pose.1.transform x) := by
  obtain ⟨inst, rp, h1, h2, h3⟩ := SMap.C19_pose b0 ops hd s st hs
  exact ⟨inst, rp, _, h1, h2, h3, (C39_actions rp.1 inst.pose.1 rp.2 inst.pose.2).1.2⟩

/-! ### C40 -/

theorem cons_apply {p : Pose K} (hp : Cons p) (s : K) {A : M3 K} (hA : Orth A) (b : V3 K) :
    Cons (applySimilarityPose p s A b) :=
  cons_setTranslation (hp.orth.mul hA.transpose) rfl _

/-- Moving one pose by `y = s A x + b`: it stays rigid, its camera coordinates of the moved point
are `s` times the old ones, and its origin moves like a point. -/
theorem C40_pose (p : Pose K) (hp : Rigid p) (s : K) (A : M3 K) (hA : Orth A) (b : V3 K) :
    Rigid (applySimilarityPose p s A b) ∧
    (∀ x, (applySimilarityPose p s A b).transform (s • (A *ᵥ x) + b) = s • p.transform x) ∧
    (applySimilarityPose p s A b).getOrigin = s • (A *ᵥ p.getOrigin) + b := by
  rw [rigid_iff_cons] at hp
  have hr := (rigid_iff_cons _).2 (cons_apply hp s hA b)
  have h2 : ∀ x, (applySimilarityPose p s A b).transform (s • (A *ᵥ x) + b) = s • p.transform x := by
    intro x
    simp only [Pose.transform, applySimilarityPose, Pose.setTranslation, Pose.setRotationMatrix,
      Matrix.mulVec_add, Matrix.mulVec_smul, Matrix.mulVec_mulVec, Matrix.mul_assoc, hA.symm,
      Matrix.mul_one, smul_add]
    abel
  refine ⟨hr, h2, ?_⟩
  rw [eq_comm, ← (C39_origin _ hr).1, h2]
  have := ((C39_origin p ((rigid_iff_cons _).2 hp)).1 _).2 rfl
  rw [this, smul_zero]

theorem get?_map {Id V W : Type} [DecidableEq Id] (f : V → W) (d : Dict Id V) (k : Id) :
    Dict.get? (d.map (fun e => (e.1, f e.2))) k = (d.get? k).map f := by
  induction d with
  | nil => rfl
  | cons e d ih =>
    obtain ⟨a, v⟩ := e
    by_cases h : a = k <;> simp [Dict.get?, h, ih]

/-- Aligning a reconstruction: the same shots and points exist afterwards; every shot sees every
point at `s` times the old camera coordinates (so in the same direction when `s > 0`), for single
shots and rigs alike; every shot's origin moves like a point; rig camera orientations are
untouched; poses stay rigid. -/
theorem C40_reconstruction {Id : Type} [DecidableEq Id] (r : Recon Id K)
    (hi : ∀ i p, r.rigInstances.get? i = some p → Rigid p)
    (hc : ∀ i p, r.rigCameras.get? i = some p → Rigid p)
    (s : K) (A : M3 K) (hA : Orth A) (b : V3 K) :
    let r' := applySimilarity r s A b
    (∀ l, r'.points.get? l = (r.points.get? l).map (fun x => s • (A *ᵥ x) + b)) ∧
    (∀ c, (r'.rigCameras.get? c).map (·.wcR) = (r.rigCameras.get? c).map (·.wcR)) ∧
    (∀ sh, (r'.shotPose sh).isSome = (r.shotPose sh).isSome) ∧
    ∀ sh p p', r.shotPose sh = some p → r'.shotPose sh = some p' →
      Rigid p ∧ Rigid p' ∧ p'.getOrigin = s • (A *ᵥ p.getOrigin) + b ∧
      ∀ l x x', r.points.get? l = some x → r'.points.get? l = some x' →
        p'.transform x' = s • p.transform x := by
  intro r'
  have e1 : ∀ l, r'.points.get? l = (r.points.get? l).map (fun x => s • (A *ᵥ x) + b) :=
    fun l => get?_map (fun x => s • (A *ᵥ x) + b) r.points l
  have e2 : ∀ i, r'.rigInstances.get? i =
      (r.rigInstances.get? i).map (fun p => applySimilarityPose p s A b) :=
    fun l => get?_map (fun p => applySimilarityPose p s A b) r.rigInstances l
  have e3 : ∀ i, r'.rigCameras.get? i =
      (r.rigCameras.get? i).map (fun p => applySimilarityPose p s 1 0) :=
    fun l => get?_map (fun p => applySimilarityPose p s 1 0) r.rigCameras l
  have e4 : r'.shots = r.shots := rfl
  refine ⟨e1, ?_, ?_, ?_⟩
  · intro c
    rw [e3]
    cases r.rigCameras.get? c <;>
      simp [applySimilarityPose, Pose.setTranslation, Pose.setRotationMatrix]
  · intro sh
    unfold Recon.shotPose
    rw [e4]
    cases hsh : r.shots.get? sh with
    | none => rfl
    | some ic =>
      obtain ⟨i, c⟩ := ic
      simp only [e2, e3]
      cases r.rigInstances.get? i <;> cases r.rigCameras.get? c <;> rfl
  · intro sh p p' hp hp'
    unfold Recon.shotPose at hp hp'
    rw [e4] at hp'
    cases hsh : r.shots.get? sh with
    | none => simp [hsh] at hp
    | some ic =>
      obtain ⟨i, c⟩ := ic
      simp only [hsh, e2, e3] at hp hp'
      cases h1 : r.rigInstances.get? i with
      | none => simp [h1] at hp
      | some qi =>
        cases h2 : r.rigCameras.get? c with
        | none => simp [h1, h2] at hp
        | some qc =>
          simp only [h1, h2, Option.map_some, Option.some.injEq] at hp hp'
          subst hp hp'
          have r1 := hi i qi h1
          have r2 := hc c qc h2
          have a1 := C40_pose qi r1 s A hA b
          have a2 := C40_pose qc r2 s 1 orth_one 0
          have c1 := (C39_actions qc qi r2 r1).1
          have c2 := (C39_actions _ _ a2.1 a1.1).1
          have key : ∀ x, (((applySimilarityPose qc s 1 0).compose
              (applySimilarityPose qi s A b))).transform (s • (A *ᵥ x) + b) =
              s • (qc.compose qi).transform x := by
            intro x
            rw [c2.2, c1.2, a1.2.1]
            have := a2.2.1 (qi.transform x)
            simpa using this
          refine ⟨c1.1, c2.1, ?_, ?_⟩
          · rw [eq_comm, ← (C39_origin _ c2.1).1, key,
              ((C39_origin _ c1.1).1 _).2 rfl, smul_zero]
          · intro l x x' hx hx'
            rw [e1, hx] at hx'
            simp only [Option.map_some, Option.some.injEq] at hx'
            subst hx'
            exact key x

/-- A two-camera rig meets the hypotheses. -/
example : let r : Recon Nat ℚ :=
      { points := [(0, ![1, 2, 3]), (1, ![0, 0, 5])]
        rigInstances := [(0, .ofWorldToCamera quarterTurn ![1, 1, 1])]
        rigCameras := [(0, .identity), (1, .ofWorldToCamera quarterTurn ![0, 2, 0])]
        shots := [(0, (0, 0)), (1, (0, 1))] }
    (∀ i p, r.rigInstances.get? i = some p → Rigid p) ∧
    (∀ i p, r.rigCameras.get? i = some p → Rigid p) ∧ (r.shotPose 1).isSome ∧ Orth quarterTurn := by
  intro r
  have hq : ∀ t, Rigid (Pose.ofWorldToCamera quarterTurn t) :=
    fun t => (rigid_iff_cons _).2 (cons_ofW2C orth_quarterTurn _)
  refine ⟨?_, ?_, rfl, orth_quarterTurn⟩
  · intro i p h
    by_cases hi : 0 = i
    · simp [r, Dict.get?, hi] at h; subst h; exact hq _
    · simp [r, Dict.get?, hi] at h
  · intro i p h
    by_cases hi : 0 = i
    · simp [r, Dict.get?, hi] at h; subst h; exact rigid_identity
    · by_cases hi' : 1 = i
      · subst hi'; simp [r, Dict.get?] at h; subst h; exact hq _
      · simp [r, Dict.get?, hi, hi'] at h

/-! ### C58 -/

/-- `inverse` undoes the similarity on both sides, provided converting a rotation matrix to an
axis-angle vector and back is the identity on the rotation at hand. -/
theorem C58_inverse {W : Type} (toVec : M3 K → W) (toMat : W → M3 K) (R : M3 K) (hR : Orth R)
    (hlog : toMat (toVec Rᵀ) = Rᵀ) (t : V3 K) (s : K) (hs : s ≠ 0) :
    let S := Similarity.mk' R t s
    (∀ x, (S.inverse toVec toMat).transform (S.transform x) = x) ∧
    (∀ x, S.transform ((S.inverse toVec toMat).transform x) = x) ∧
    (S.inverse toVec toMat).scale = 1 / s := by
  intro S
  have hc : S.Rt.cwR = Rᵀ := by simp [S, Similarity.mk', Pose.ofWorldToCamera, hR.inv]
  have ho : S.Rt.getOrigin = -(Rᵀ *ᵥ t) := by
    simp [S, Similarity.mk', Pose.ofWorldToCamera, Pose.getOrigin, hR.inv]
  have hRR : R * Rᵀ = 1 := hR
  have e1 : ∀ x, S.transform x = s • (R *ᵥ x) + t := by
    intro x; simp [S, Similarity.transform, Similarity.mk', Pose.ofWorldToCamera, Matrix.smul_mulVec]
  have e2 : ∀ x, (S.inverse toVec toMat).transform x = s⁻¹ • (Rᵀ *ᵥ x) - s⁻¹ • (Rᵀ *ᵥ t) := by
    intro x
    simp only [Similarity.inverse, hc, hlog, ho, Similarity.transform, Similarity.mk',
      Pose.ofWorldToCamera, Matrix.smul_mulVec]
    simp [S, Similarity.mk', sub_eq_add_neg]
  refine ⟨?_, ?_, rfl⟩
  · intro x
    rw [e2, e1, Matrix.mulVec_add, Matrix.mulVec_smul, Matrix.mulVec_mulVec, hR.symm,
      Matrix.one_mulVec, smul_add, smul_smul, inv_mul_cancel₀ hs, one_smul, add_sub_cancel_right]
  · intro x
    rw [e1, e2, Matrix.mulVec_sub, Matrix.mulVec_smul, Matrix.mulVec_smul, Matrix.mulVec_mulVec,
      Matrix.mulVec_mulVec, hRR, Matrix.one_mulVec, Matrix.one_mulVec, smul_sub, smul_smul,
      smul_smul, mul_inv_cancel₀ hs, one_smul, one_smul, sub_add_cancel]

example : Orth quarterTurn ∧ (2 : ℚ) ≠ 0 ∧ (id (id quarterTurnᵀ) : M3 ℚ) = quarterTurnᵀ :=
  ⟨orth_quarterTurn, by norm_num, rfl⟩

end Verif.Pose
