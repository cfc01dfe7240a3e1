import Verif.Model.Geocoords
import Verif.Props.Pose
import Verif.Props.ExportColmap

/-!
Property C116: the export in geographic coordinates.
-/
set_option linter.unusedSectionVars false
set_option linter.unusedSimpArgs false
set_option linter.unusedVariables false
namespace Verif.Geocoords
open Matrix
open Verif.Pose (Pose M3 V3 Recon Rigid Orth Cons rigid_iff_cons)

/-! ### Specification -/

/-- The things asked for, in the order in which they are written. -/
def Asked (t p r d : Bool) : List Product :=
  [(t, Product.transformation), (p, .positions), (r, .reconstruction), (d, .dense)].filterMap (fun e => if e.1 then some e.2 else none)

/-- The documented file of each thing. -/
def Documented : Product → String
  | .transformation => "geocoords_transformation.txt"
  | .positions => "image_geocoords.tsv"
  | .reconstruction => "reconstruction.geocoords.json"
  | .dense => "undistorted/depthmaps/merged.geocoords.ply"

variable {K : Type} [Field K] {Id : Type} [DecidableEq Id]

/-- A shot that does not share its rig: the camera of the rig is at the identity and no other shot belongs to the instance. -/
def Alone (r : Recon Id K) (s : Id) : Prop :=
  ∃ i c pc, r.shots.get? s = some (i, c) ∧ r.rigCameras.get? c = some pc ∧ pc.cwT = 0 ∧ pc.wcR = 1 ∧
    ∀ s' c', r.shots.get? s' = some (i, c') → s' = s

/-- The instances and the rig cameras of all shots exist. -/
def Linked (r : Recon Id K) : Prop :=
  ∀ s i c, r.shots.get? s = some (i, c) → (r.rigInstances.get? i).isSome ∧ (r.rigCameras.get? c).isSome

/-! ### Files -/

/-- C116: everything goes to one file, named after the first thing asked for when no name was given. -/
theorem C116_files (t p r d : Bool) (output : String) :
    ∃ name, planned t p r d output = (Asked t p r d).map (fun x => (x, name)) ∧
      (output ≠ "" → name = output) ∧ (output = "" → ∀ x ∈ (Asked t p r d).head?, name = Documented x) := by
  by_cases ho : output = ""
  · subst ho
    refine ⟨((Asked t p r d).head?.map Documented).getD "", ?_, fun h => absurd rfl h, fun _ x hx => ?_⟩
    · cases t <;> cases p <;> cases r <;> cases d <;> decide
    · rw [Option.mem_def.1 hx]; rfl
  · refine ⟨output, ?_, fun _ => rfl, fun h => absurd h ho⟩
    cases t <;> cases p <;> cases r <;> cases d <;>
      simp [planned, block, orDefault, Asked, ho]

/-- C116: one thing at a time goes to the name given, or to its documented file. -/
theorem C116_one (x : Product) (output : String) :
    planned (decide (x = .transformation)) (decide (x = .positions)) (decide (x = .reconstruction)) (decide (x = .dense)) output =
      [(x, if output = "" then Documented x else output)] := by
  by_cases ho : output = ""
  · subst ho
    cases x <;> decide
  · cases x <;> simp [planned, block, orDefault, ho]

theorem runAll_ok {C : Type} (attempt : Product → Attempt C) (name : String) : ∀ (L : List Product) (fs : Dict String C),
    (∀ x ∈ L, (attempt x).ok = true ∧ ((attempt x).left).isSome) →
    (runAll attempt (L.map fun x => (x, name)) fs).2 = true ∧
    (∀ n, n ≠ name → (runAll attempt (L.map fun x => (x, name)) fs).1.get? n = fs.get? n) ∧
    ∀ x, L.getLast? = some x → (runAll attempt (L.map fun x => (x, name)) fs).1.get? name = (attempt x).left := by
  intro L
  induction L with
  | nil => intro fs _; exact ⟨rfl, fun _ _ => rfl, fun x hx => by simp at hx⟩
  | cons y t ih =>
    intro fs h
    obtain ⟨c, hc⟩ := Option.isSome_iff_exists.1 (h y (by simp)).2
    have hy := (h y (by simp)).1
    have hstep : runAll attempt ((y :: t).map fun x => (x, name)) fs = runAll attempt (t.map fun x => (x, name)) (fs.set name c) := by
      simp [runAll, hy, hc, written]
    rw [hstep]
    obtain ⟨h1, h2, h3⟩ := ih (fs.set name c) (fun x hx => h x (by simp [hx]))
    refine ⟨h1, fun n hn => ?_, fun x hx => ?_⟩
    · rw [h2 n hn, Dict.get?_set_ne _ _ (Ne.symm hn)]
    · cases t with
      | nil =>
        have : y = x := by simpa using hx
        subst this
        simp [runAll, hc]
      | cons z u => exact h3 x (by simpa using hx)

/-- C116: when nothing fails, one file is written, and it holds the last thing asked for: the others are lost. -/
theorem C116_last {C : Type} (attempt : Product → Attempt C) (t p r d : Bool) (output : String) (fs : Dict String C)
    (h : ∀ x ∈ Asked t p r d, (attempt x).ok = true ∧ ((attempt x).left).isSome) (x : Product) (hx : (Asked t p r d).getLast? = some x) :
    ∃ name, (runAll attempt (planned t p r d output) fs).2 = true ∧ (runAll attempt (planned t p r d output) fs).1.get? name = (attempt x).left ∧
      ∀ n, n ≠ name → (runAll attempt (planned t p r d output) fs).1.get? n = fs.get? n := by
  obtain ⟨name, hn, _⟩ := C116_files t p r d output
  rw [hn]
  obtain ⟨h1, h2, h3⟩ := runAll_ok attempt name (Asked t p r d) fs h
  exact ⟨name, h1, h3 x hx, h2⟩

/-- C116: when something fails, nothing after it is tried, and the file holds what the failure left of it. -/
theorem C116_failure {C : Type} (attempt : Product → Attempt C) (name : String) (L : List Product) (x : Product)
    (rest : List (Product × String)) (fs : Dict String C)
    (h : ∀ y ∈ L, (attempt y).ok = true ∧ ((attempt y).left).isSome) (hx : (attempt x).ok = false) (c : C)
    (hc : (attempt x).left = some c) :
    (runAll attempt (L.map (fun y => (y, name)) ++ (x, name) :: rest) fs).2 = false ∧
    (runAll attempt (L.map (fun y => (y, name)) ++ (x, name) :: rest) fs).1.get? name = some c ∧
    ∀ n, n ≠ name → (runAll attempt (L.map (fun y => (y, name)) ++ (x, name) :: rest) fs).1.get? n = fs.get? n := by
  induction L generalizing fs with
  | nil =>
    simp only [List.map_nil, List.nil_append, runAll, hx, Bool.false_eq_true, if_false, written, hc]
    exact ⟨trivial, by rw [Dict.get?_set, if_pos rfl], fun n hn => Dict.get?_set_ne _ _ (Ne.symm hn)⟩
  | cons y t ih =>
    obtain ⟨d, hd⟩ := Option.isSome_iff_exists.1 (h y (by simp)).2
    have hy := (h y (by simp)).1
    have hstep : runAll attempt ((y :: t).map (fun y => (y, name)) ++ (x, name) :: rest) fs =
        runAll attempt (t.map (fun y => (y, name)) ++ (x, name) :: rest) (fs.set name d) := by
      simp [runAll, hy, hd, written]
    rw [hstep]
    obtain ⟨h1, h2, h3⟩ := ih (fs.set name d) (fun z hz => h z (by simp [hz]))
    exact ⟨h1, h2, fun n hn => by rw [h3 n hn, Dict.get?_set_ne _ _ (Ne.symm hn)]⟩

/-- The transformation and the positions in one run: the file of the transformation holds the positions. -/
example : planned true true false false "" =
    [(.transformation, "geocoords_transformation.txt"), (.positions, "geocoords_transformation.txt")] := by decide

/-! ### The transformation -/

theorem apply_single (A : M3 K) (b : V3 K) (i j : Fin 3) : apply A b (Pi.single j 1) i = A i j + b i := by
  simp [apply, Matrix.mulVec_single]

/-- C116: the transformation is exact at the origin and at the three unit vectors. -/
theorem C116_exact (q : V3 K → V3 K) :
    apply (linearPart q) (offset q) 0 = q 0 ∧ ∀ j, apply (linearPart q) (offset q) (Pi.single j 1) = q (Pi.single j 1) := by
  refine ⟨?_, fun j => ?_⟩
  · funext i
    simp [apply, offset]
  · funext i
    rw [apply_single]
    simp [linearPart, offset]

/-- C116: no other affine transformation is. -/
theorem C116_unique (q : V3 K → V3 K) (A : M3 K) (b : V3 K) (h0 : A *ᵥ 0 + b = q 0) (h1 : ∀ j, A *ᵥ Pi.single j 1 + b = q (Pi.single j 1)) :
    A = linearPart q ∧ b = offset q := by
  have hb : b = q 0 := by simpa using h0
  refine ⟨?_, ?_⟩
  · ext i j
    have := congrFun (h1 j) i
    have h2 : A i j + b i = q (Pi.single j 1) i := by rw [← this, ← apply_single]; rfl
    rw [hb] at h2
    simp only [linearPart]
    rw [← h2]
    ring
  · rw [hb]; rfl

/-- C116: it is right everywhere if and only if the projection is affine. -/
theorem C116_affine (q : V3 K → V3 K) :
    (∀ x, apply (linearPart q) (offset q) x = q x) ↔ ∃ (A : M3 K) (b : V3 K), ∀ x, q x = A *ᵥ x + b := by
  constructor
  · intro h
    exact ⟨linearPart q, offset q, fun x => (h x).symm⟩
  · rintro ⟨A, b, h⟩ x
    obtain ⟨h1, h2⟩ := C116_unique q A b (h 0).symm (fun j => (h _).symm)
    rw [← h1, ← h2, h x]
    rfl

/-- C116: the table of positions has one row for each shot of each reconstruction, in their order, with the transformed origin. -/
theorem C116_positions (A : M3 K) (b : V3 K) (recs : List (List (Id × Pose K))) :
    List.Forall₂ (fun (e : Id × Pose K) (row : Id × V3 K) => row.1 = e.1 ∧ row.2 = A *ᵥ e.2.cwT + b) recs.flatten (positionRows A b recs) := by
  have : positionRows A b recs = recs.flatten.map (fun e => (e.1, apply A b e.2.getOrigin)) := by
    unfold positionRows
    rw [List.map_flatten, List.flatMap]
  rw [this, List.forall₂_map_right_iff]
  exact List.forall₂_same.2 (fun _ _ => ⟨rfl, rfl⟩)

/-! ### Poses -/

/-- C116: the pose of a shot acts like the pose of its rig camera after that of its instance. -/
theorem C116_shot_pose (r : Recon Id K) (s i c : Id) (pi pc : Pose K) (hs : r.shots.get? s = some (i, c))
    (hi : r.rigInstances.get? i = some pi) (hc : r.rigCameras.get? c = some pc) (h1 : Rigid pi) (h2 : Rigid pc) :
    ∃ p, shotPose r s = some p ∧ ∀ x, p.transform x = pc.transform (pi.transform x) := by
  classical
  unfold shotPose
  rw [hs]
  simp only [hi, hc]
  by_cases h : SingleShot r i pc
  · refine ⟨pi, by rw [if_pos h], fun x => ?_⟩
    obtain ⟨⟨ho, hr⟩, _⟩ := h
    have hcons := (rigid_iff_cons pc).1 h2
    have ht : pc.wcT = 0 := by
      have h3 := hcons.tr
      have h4 : pc.cwT = 0 := ho
      have h5 := hcons.rot
      rw [h4, hr] at h3
      first
        | simpa using h3.symm
        | simpa using h3
        | (rw [hr] at h5; simp_all)
    simp only [Verif.Pose.Pose.transform, hr, ht]
    simp
  · exact ⟨pc.compose pi, by rw [if_neg h], (Verif.Pose.C39_actions pc pi h2 h1).1.2⟩

/-- C116: points keep their coordinates in the camera and the origin moves with the world, for every invertible transformation. -/
theorem moved_transform (A : M3 K) (b : V3 K) (hA : A.det ≠ 0) (p : Pose K) (hp : Rigid p) :
    (∀ x, (movedPose A b p).transform (A *ᵥ x + b) = p.transform x) ∧ (movedPose A b p).cwT = A *ᵥ p.cwT + b := by
  have hc := (rigid_iff_cons p).1 hp
  have hu : IsUnit A.det := isUnit_iff_ne_zero.2 hA
  have hR : p.wcR.det ≠ 0 := by
    have := congrArg Matrix.det (show p.wcR * p.wcRᵀ = 1 from hc.orth)
    rw [Matrix.det_mul, Matrix.det_one] at this
    exact left_ne_zero_of_mul_eq_one this
  have hu' : IsUnit (p.wcR * A⁻¹).det := by
    rw [Matrix.det_mul, Matrix.det_nonsing_inv]
    exact (isUnit_iff_ne_zero.2 hR).mul (by simpa using hu)
  refine ⟨fun x => ?_, ?_⟩
  · have ht : p.wcT = -(p.wcR *ᵥ p.cwT) := by
      rw [hc.tr, Matrix.mulVec_neg, Matrix.mulVec_mulVec, show p.wcR * p.wcRᵀ = 1 from hc.orth]
      simp
    have e : ∀ y, (p.wcR * A⁻¹) *ᵥ (A *ᵥ y) = p.wcR *ᵥ y := by
      intro y
      rw [Matrix.mulVec_mulVec, Matrix.mul_assoc, Matrix.nonsing_inv_mul _ hu, Matrix.mul_one]
    simp only [movedPose, Pose.setOrigin, Pose.setTranslation, Pose.setRotationMatrix, Pose.transform, Pose.getOrigin, apply,
      Matrix.mulVec_add, Matrix.neg_mulVec, e, ht]
    abel
  · simp only [movedPose, Pose.setOrigin, Pose.setTranslation, Pose.setRotationMatrix, Pose.getOrigin, apply, Matrix.neg_mulVec,
      Matrix.mulVec_neg, neg_neg, Matrix.mulVec_mulVec, Matrix.nonsing_inv_mul _ hu', Matrix.one_mulVec]

/-- The stored inverse of a moved pose. -/
theorem moved_inverse (A : M3 K) (b : V3 K) (hA : A.det ≠ 0) (p : Pose K) (hp : Rigid p) :
    (∀ x, (movedPose A b p).transformInverse ((movedPose A b p).transform x) = x) ↔ A * Aᵀ = 1 := by
  have hc := (rigid_iff_cons p).1 hp
  have hu : IsUnit A.det := isUnit_iff_ne_zero.2 hA
  obtain ⟨h1, h2⟩ := moved_transform A b hA p hp
  have hcw : (movedPose A b p).cwR = (p.wcR * A⁻¹)ᵀ := rfl
  have hwc : (movedPose A b p).wcR = p.wcR * A⁻¹ := rfl
  have hwt : (movedPose A b p).wcT = -((p.wcR * A⁻¹) *ᵥ (A *ᵥ p.cwT + b)) := by
    simp only [movedPose, Pose.setOrigin, Pose.setTranslation, Pose.setRotationMatrix, Pose.getOrigin, apply, Matrix.neg_mulVec]
  have hG : (p.wcR * A⁻¹)ᵀ * (p.wcR * A⁻¹) = (A⁻¹)ᵀ * A⁻¹ := by
    rw [Matrix.transpose_mul, Matrix.mul_assoc, ← Matrix.mul_assoc p.wcRᵀ, hc.orth.symm, Matrix.one_mul]
  have hform : ∀ x, (movedPose A b p).transformInverse ((movedPose A b p).transform x) =
      ((A⁻¹)ᵀ * A⁻¹) *ᵥ (x - (A *ᵥ p.cwT + b)) + (A *ᵥ p.cwT + b) := by
    intro x
    rw [← hG]
    simp only [Pose.transformInverse, Pose.transform, h2, hcw, hwc, hwt, Matrix.mulVec_add, Matrix.mulVec_neg, Matrix.mulVec_sub, Matrix.mulVec_mulVec,
      Matrix.mul_assoc]
    abel
  have hkey : (A⁻¹)ᵀ * A⁻¹ = 1 ↔ A * Aᵀ = 1 := by
    rw [Matrix.transpose_nonsing_inv, ← Matrix.mul_inv_rev]
    constructor
    · intro h
      have hd : IsUnit (A * Aᵀ).det := by rw [Matrix.det_mul, Matrix.det_transpose]; exact hu.mul hu
      have := Matrix.mul_nonsing_inv _ hd
      rwa [h, Matrix.mul_one] at this
    · intro h
      rw [h, inv_one]
  rw [← hkey]
  constructor
  · intro h
    apply Verif.Pose.mulVec_ext
    intro y
    have := h (y + (A *ᵥ p.cwT + b))
    rw [hform, add_sub_cancel_right] at this
    rw [Matrix.one_mulVec]
    exact add_right_cancel this
  · intro h x
    rw [hform, h, Matrix.one_mulVec]
    abel

/-! ### The loop -/

theorem single_iff (r : Recon Id K) (hw : r.shots.Wf) (s i c : Id) (pc : Pose K) (hs : r.shots.get? s = some (i, c)) (hc : r.rigCameras.get? c = some pc) :
    SingleShot r i pc ↔ Alone r s := by
  have hnum : numberOfShots r i = 1 ↔ ∀ s' c', r.shots.get? s' = some (i, c') → s' = s := by
    have h0 : numberOfShots r i = (r.shots.filter (fun e => e.2.1 = i)).length := by
      unfold numberOfShots Dict.vals
      rw [List.filter_map, List.length_map]
      rfl
    have hmem : (s, (i, c)) ∈ r.shots.filter (fun e => e.2.1 = i) := by simp [Dict.mem_of_get? hs]
    rw [h0]
    constructor
    · intro h s' c' hs'
      obtain ⟨y, hy⟩ := List.length_eq_one_iff.1 h
      have hm' : (s', (i, c')) ∈ r.shots.filter (fun e => e.2.1 = i) := by simp [Dict.mem_of_get? hs']
      rw [hy] at hmem hm'
      have e1 := List.mem_singleton.1 hmem
      have e2 := List.mem_singleton.1 hm'
      rw [← e1] at e2
      exact congrArg Prod.fst e2
    · intro h
      have hall : ∀ e ∈ r.shots.filter (fun e => e.2.1 = i), e = (s, (i, c)) := by
        rintro ⟨s', i', c'⟩ he
        rw [List.mem_filter] at he
        have hi : i' = i := by simpa using he.2
        subst hi
        have hg := Dict.get?_of_mem hw he.1
        have := h s' c' hg
        subst this
        rw [hs] at hg
        obtain rfl := (Prod.mk.inj (Option.some.inj hg)).2
        rfl
      have hnd : (r.shots.filter (fun e => e.2.1 = i)).Nodup := by
        apply List.Nodup.filter
        exact List.Nodup.of_map _ hw
      rw [List.eq_replicate_of_mem hall] at hnd ⊢
      rw [List.length_replicate]
      have hle := List.nodup_replicate.1 hnd
      have hpos : 0 < (r.shots.filter (fun e => e.2.1 = i)).length := List.length_pos_of_mem hmem
      omega
  constructor
  · rintro ⟨⟨h1, h2⟩, h3⟩
    exact ⟨i, c, pc, hs, hc, h1, h2, hnum.1 h3⟩
  · rintro ⟨i', c', pc', hs', hc', h1, h2, h3⟩
    rw [hs] at hs'
    obtain ⟨rfl, rfl⟩ := Prod.mk.inj (Option.some.inj hs')
    rw [hc] at hc'
    obtain rfl := Option.some.inj hc'
    exact ⟨⟨h1, h2⟩, hnum.2 h3⟩

theorem moveShot_some (A : M3 K) (b : V3 K) (r r' : Recon Id K) (s : Id) (h : moveShot A b r s = some r') :
    ∃ i c pi pc, r.shots.get? s = some (i, c) ∧ r.rigInstances.get? i = some pi ∧ r.rigCameras.get? c = some pc ∧ SingleShot r i pc ∧
      r' = { r with rigInstances := r.rigInstances.set i (movedPose A b pi) } := by
  unfold moveShot at h
  cases hs : r.shots.get? s with
  | none => rw [hs] at h; exact absurd h (by simp)
  | some ic =>
    obtain ⟨i, c⟩ := ic
    rw [hs] at h
    cases hi : r.rigInstances.get? i with
    | none => simp [hi] at h
    | some pi =>
      cases hc : r.rigCameras.get? c with
      | none => simp [hi, hc] at h
      | some pc =>
        simp only [hi, hc] at h
        split at h
        · rename_i hsing
          exact ⟨i, c, pi, pc, rfl, hi, hc, hsing, (Option.some.inj h).symm⟩
        · exact absurd h (by simp)

/-- What holds after the shots `D`. -/
structure LoopInv (A : M3 K) (b : V3 K) (r : Recon Id K) (D : List Id) (a : Recon Id K) : Prop where
  points : a.points = r.points
  cameras : a.rigCameras = r.rigCameras
  shots : a.shots = r.shots
  keys : a.rigInstances.keys = r.rigInstances.keys
  alone : ∀ s ∈ D, Alone r s
  moved : ∀ s ∈ D, ∀ i c, r.shots.get? s = some (i, c) → a.rigInstances.get? i = (r.rigInstances.get? i).map (movedPose A b)
  kept : ∀ i, (∀ s ∈ D, ∀ c, r.shots.get? s ≠ some (i, c)) → a.rigInstances.get? i = r.rigInstances.get? i

theorem loop_step (A : M3 K) (b : V3 K) (r : Recon Id K) (hw : r.shots.Wf) (D : List Id) (a : Recon Id K) (s : Id) (a' : Recon Id K)
    (h : D.Nodup → LoopInv A b r D a) (hs : moveShot A b a s = some a') : (D ++ [s]).Nodup → LoopInv A b r (D ++ [s]) a' := by
  intro hnd
  have hD := (List.nodup_append.1 hnd).1
  have hsD : s ∉ D := fun hm => (List.nodup_append.1 hnd).2.2 s hm s (by simp) rfl
  have I := h hD
  obtain ⟨i, c, pi, pc, h1, h2, h3, h4, rfl⟩ := moveShot_some A b a a' s hs
  have hal : Alone r s := by
    have hs1 : SingleShot r i pc := by
      unfold SingleShot numberOfShots at h4 ⊢
      rwa [I.shots] at h4
    rw [I.shots] at h1
    rw [I.cameras] at h3
    exact (single_iff r hw s i c pc h1 h3).1 hs1
  rw [I.shots] at h1
  have huniq : ∀ s' c', r.shots.get? s' = some (i, c') → s' = s := by
    obtain ⟨i', c', pc', hh, _, _, _, hu⟩ := hal
    rw [h1] at hh
    obtain ⟨rfl, rfl⟩ := Prod.mk.inj (Option.some.inj hh)
    exact hu
  have hkeep : a.rigInstances.get? i = r.rigInstances.get? i := by
    apply I.kept
    intro s' hs' c' hc'
    exact hsD (huniq s' c' hc' ▸ hs')
  refine ⟨I.points, I.cameras, I.shots, ?_, ?_, ?_, ?_⟩
  · show (a.rigInstances.set i _).keys = _
    rw [Dict.keys_set, if_pos ((Dict.mem_keys_iff _ _).2 (by rw [h2]; rfl)), I.keys]
  · intro s' hs'
    rcases List.mem_append.1 hs' with h5 | h5
    · exact I.alone s' h5
    · rw [List.mem_singleton.1 h5]; exact hal
  · intro s' hs' i' c' hg
    show (a.rigInstances.set i (movedPose A b pi)).get? i' = _
    rcases List.mem_append.1 hs' with h5 | h5
    · have hne : i ≠ i' := by
        rintro rfl
        exact hsD (huniq s' c' hg ▸ h5)
      rw [Dict.get?_set_ne _ _ hne]
      exact I.moved s' h5 i' c' hg
    · rw [List.mem_singleton.1 h5, h1] at hg
      obtain ⟨rfl, rfl⟩ := Prod.mk.inj (Option.some.inj hg)
      rw [Dict.get?_set_self, ← hkeep, h2]
      rfl
  · intro i' hi'
    show (a.rigInstances.set i (movedPose A b pi)).get? i' = _
    have hne : i ≠ i' := by
      rintro rfl
      exact hi' s (by simp) c h1
    rw [Dict.get?_set_ne _ _ hne]
    exact I.kept i' (fun s' hs' => hi' s' (by simp [hs']))

theorem loop_inv (A : M3 K) (b : V3 K) (r : Recon Id K) (hw : r.shots.Wf) (a : Recon Id K) (h : r.shots.keys.foldlM (moveShot A b) r = some a) :
    LoopInv A b r r.shots.keys a := by
  have := ExportColmap.foldlM_inv (moveShot A b) (fun D a => D.Nodup → LoopInv A b r D a) (fun D a x a' => loop_step A b r hw D a x a') r.shots.keys [] r a
    (fun _ => ⟨rfl, rfl, rfl, rfl, by simp, by simp, fun _ _ => rfl⟩) h
  rw [List.nil_append] at this
  exact this hw

theorem loop_ok (A : M3 K) (b : V3 K) (r : Recon Id K) (hw : r.shots.Wf) (hl : Linked r) : ∀ (L : List Id) (a : Recon Id K), (∀ s ∈ L, Alone r s) →
    a.shots = r.shots → a.rigCameras = r.rigCameras → a.rigInstances.keys = r.rigInstances.keys → (L.foldlM (moveShot A b) a).isSome := by
  intro L
  induction L with
  | nil => intro a _ _ _ _; simp
  | cons s t ih =>
    intro a hL h1 h2 h3
    have hal := hL s (by simp)
    obtain ⟨i, c, pc, hs, hc, _⟩ := id hal
    have hsing : SingleShot a i pc := by
      have := (single_iff r hw s i c pc hs hc).2 hal
      unfold SingleShot numberOfShots at this ⊢
      rwa [h1]
    have hi : (a.rigInstances.get? i).isSome := by
      rw [← Dict.mem_keys_iff, h3, Dict.mem_keys_iff]
      exact (hl s i c hs).1
    obtain ⟨pi, hpi⟩ := Option.isSome_iff_exists.1 hi
    have hm : moveShot A b a s = some { a with rigInstances := a.rigInstances.set i (movedPose A b pi) } := by
      unfold moveShot
      rw [h1, hs]
      simp only [hpi, h2, hc]
      rw [if_pos hsing]
    rw [List.foldlM_cons, hm]
    refine ih _ (fun s' hs' => hL s' (by simp [hs'])) h1 h2 ?_
    show (a.rigInstances.set i _).keys = _
    rw [Dict.keys_set, if_pos ((Dict.mem_keys_iff _ _).2 hi), h3]

/-- C116: the export of a reconstruction goes through if and only if the transformation is invertible and no shot shares a rig. -/
theorem C116_possible (A : M3 K) (b : V3 K) (r : Recon Id K) (hw : r.shots.Wf) (hl : Linked r) :
    (transformReconstruction A b r).isSome ↔ A.det ≠ 0 ∧ ∀ s ∈ r.shots.keys, Alone r s := by
  unfold transformReconstruction
  by_cases hA : A.det = 0
  · simp [hA]
  · rw [if_neg hA, Option.isSome_map]
    constructor
    · intro h
      obtain ⟨a, ha⟩ := Option.isSome_iff_exists.1 h
      exact ⟨hA, (loop_inv A b r hw a ha).alone⟩
    · rintro ⟨_, h⟩
      exact loop_ok A b r hw hl _ r h rfl rfl rfl

theorem shotPose_alone (r : Recon Id K) (hw : r.shots.Wf) (s : Id) (h : Alone r s) (i c : Id) (hs : r.shots.get? s = some (i, c)) :
    shotPose r s = r.rigInstances.get? i := by
  obtain ⟨i', c', pc, h1, h2, _⟩ := id h
  rw [hs] at h1
  obtain ⟨rfl, rfl⟩ := Prod.mk.inj (Option.some.inj h1)
  unfold shotPose
  rw [hs]
  cases hi : r.rigInstances.get? i with
  | none => simp [hi]
  | some pi => simp only [hi, h2]; rw [if_pos ((single_iff r hw s i c pc hs h2).2 h)]

theorem shotPose_moved (A : M3 K) (b : V3 K) (r r' : Recon Id K) (hw : r.shots.Wf) (h : transformReconstruction A b r = some r') (s : Id) (p : Pose K)
    (hp : shotPose r s = some p) : A.det ≠ 0 ∧ shotPose r' s = some (movedPose A b p) := by
  unfold transformReconstruction at h
  by_cases hA : A.det = 0
  · simp [hA] at h
  · rw [if_neg hA] at h
    refine ⟨hA, ?_⟩
    obtain ⟨a, ha, rfl⟩ := Option.map_eq_some_iff.1 h
    have I := loop_inv A b r hw a ha
    have hs : (r.shots.get? s).isSome := by
      cases hg : r.shots.get? s with
      | some x => rfl
      | none =>
        unfold shotPose at hp
        rw [hg] at hp
        exact absurd hp (by simp)
    obtain ⟨⟨i, c⟩, hic⟩ := Option.isSome_iff_exists.1 hs
    have hmem : s ∈ r.shots.keys := (Dict.mem_keys_iff _ _).2 hs
    have hal := I.alone s hmem
    have hal' : Alone (movePoints A b a) s := by
      obtain ⟨i', c', pc, h1, h2, h3⟩ := hal
      refine ⟨i', c', pc, ?_, ?_, h3.1, h3.2.1, ?_⟩
      · show a.shots.get? s = _
        rw [I.shots, h1]
      · show a.rigCameras.get? c' = _
        rw [I.cameras, h2]
      · intro s' c''
        show a.shots.get? s' = _ → _
        rw [I.shots]
        exact h3.2.2 s' c''
    have hic' : (movePoints A b a).shots.get? s = some (i, c) := by
      show a.shots.get? s = _
      rw [I.shots, hic]
    have hw' : (movePoints A b a).shots.Wf := by
      show a.shots.Wf
      rw [I.shots]; exact hw
    rw [shotPose_alone _ hw' s hal' i c hic']
    rw [shotPose_alone r hw s hal i c hic] at hp
    show a.rigInstances.get? i = _
    rw [I.moved s hmem i c hic, hp]
    rfl

/-- C116: the shots, the points, the rig cameras and the instances stay the same ones; every point is transformed. -/
theorem C116_points (A : M3 K) (b : V3 K) (r r' : Recon Id K) (hw : r.shots.Wf) (h : transformReconstruction A b r = some r') :
    r'.points = r.points.map (fun e => (e.1, A *ᵥ e.2 + b)) ∧ r'.shots = r.shots ∧ r'.rigCameras = r.rigCameras ∧
      r'.rigInstances.keys = r.rigInstances.keys := by
  unfold transformReconstruction at h
  by_cases hA : A.det = 0
  · simp [hA] at h
  · rw [if_neg hA] at h
    obtain ⟨a, ha, rfl⟩ := Option.map_eq_some_iff.1 h
    have I := loop_inv A b r hw a ha
    refine ⟨?_, I.shots, I.cameras, I.keys⟩
    show Dict.mapVals (fun _ x => apply A b x) a.points = _
    rw [I.points]
    rfl

/-- C116: every point keeps its coordinates in every camera, and the camera centres move with the world, for every invertible transformation. -/
theorem C116_camera_coordinates (A : M3 K) (b : V3 K) (r r' : Recon Id K) (hw : r.shots.Wf) (h : transformReconstruction A b r = some r') (s : Id) (p : Pose K)
    (hp : shotPose r s = some p) (hr : Rigid p) :
    ∃ p', shotPose r' s = some p' ∧ (∀ x, p'.transform (A *ᵥ x + b) = p.transform x) ∧ p'.getOrigin = A *ᵥ p.getOrigin + b := by
  obtain ⟨hA, h1⟩ := shotPose_moved A b r r' hw h s p hp
  exact ⟨_, h1, (moved_transform A b hA p hr).1, (moved_transform A b hA p hr).2⟩

/-- C116: but going to the camera and back is the identity if and only if the transformation is orthogonal: with another one (a projection that
scales or shears) the exported poses are not rigid and their two directions disagree. -/
theorem C116_round_trip (A : M3 K) (b : V3 K) (r r' : Recon Id K) (hw : r.shots.Wf) (h : transformReconstruction A b r = some r') (s : Id) (p : Pose K)
    (hp : shotPose r s = some p) (hr : Rigid p) :
    ∃ p', shotPose r' s = some p' ∧ ((∀ x, p'.transformInverse (p'.transform x) = x) ↔ A * Aᵀ = 1) := by
  obtain ⟨hA, h1⟩ := shotPose_moved A b r r' hw h s p hp
  exact ⟨_, h1, moved_inverse A b hA p hr⟩

/-! ### A small reconstruction -/

/-- One shot at the origin and one point. -/
noncomputable def example₁ : Recon ℕ ℚ :=
  ⟨[(0, 1)], [(7, Pose.identity)], [(8, Pose.identity)], [(1, (7, 8))]⟩

theorem example₁_alone : ∀ s ∈ example₁.shots.keys, Alone example₁ s := by
  intro s hs
  have : s = 1 := by simpa [example₁, Dict.keys] using hs
  subst this
  refine ⟨7, 8, Pose.identity, rfl, rfl, ?_, rfl, ?_⟩
  · simp [Pose.identity, Pose.ofWorldToCamera]
  · intro s' c' h'
    by_contra hne
    have : example₁.shots.get? s' = none := by
      simp [example₁, Dict.get?, Ne.symm hne]
    rw [this] at h'
    exact absurd h' (by simp)

/-- With the scale two the export goes through. -/
example : (transformReconstruction ((2 : ℚ) • (1 : M3 ℚ)) 1 example₁).isSome := by
  rw [C116_possible]
  · exact ⟨by simp [Matrix.det_smul], example₁_alone⟩
  · unfold Dict.Wf; decide
  · intro s i c h
    have : s = 1 := by
      have hm := (Dict.mem_keys_iff _ _).2 (by rw [h]; rfl : (example₁.shots.get? s).isSome)
      simpa [example₁, Dict.keys] using hm
    subst this
    have : (7, 8) = (i, c) := Option.some.inj h
    obtain ⟨rfl, rfl⟩ := Prod.mk.inj this
    exact ⟨rfl, rfl⟩

/-- Its shot has a rigid pose. -/
example : ∃ p, shotPose example₁ 1 = some p ∧ Rigid p := by
  refine ⟨Pose.identity, ?_, Verif.Pose.rigid_identity⟩
  rw [shotPose_alone example₁ (by unfold Dict.Wf; decide) 1 (example₁_alone 1 (by decide)) 7 8 rfl]
  rfl

/-! ### The dense point cloud -/

theorem dense_go (L : List String) : ∀ i, i ≤ 13 → transformDense i L = (L.take (13 - i), decide (i + L.length ≤ 13)) := by
  induction L with
  | nil => intro i hi; simp [transformDense, hi]
  | cons l t ih =>
    intro i hi
    by_cases h : i < 13
    · obtain ⟨k, hk⟩ : ∃ k, 13 - i = k + 1 := ⟨13 - i - 1, by omega⟩
      have hk' : 13 - (i + 1) = k := by omega
      have : transformDense i (l :: t) = (l :: (transformDense (i + 1) t).1, (transformDense (i + 1) t).2) := by
        simp [transformDense, denseLine, h]
      rw [this, ih (i + 1) (by omega), hk, hk']
      simp [List.take_succ_cons]
      omega
    · have : i = 13 := by omega
      subst this
      simp [transformDense, denseLine]

/-- C116: the export of the dense point cloud stops at its first point: the file then holds the thirteen lines of the header. -/
theorem C116_dense (lines : List String) :
    (transformDense 0 lines).1 = lines.take 13 ∧ ((transformDense 0 lines).2 = true ↔ lines.length ≤ 13) := by
  rw [dense_go lines 0 (by omega)]
  simp

/-- A point cloud of one point. -/
example : (transformDense 0 (List.replicate 14 "0 0 0 0 0 1 255 255 255")).2 = false := by decide

end Verif.Geocoords
