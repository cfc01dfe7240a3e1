import Verif.Spec.CameraDomain
import Verif.Lemmas.CameraProj

/-! C42: the analytic jacobians of the cameras, of the posed cameras and of the reprojection residuals are
the derivatives; C62: the pose jacobian at tiny rotations. -/
set_option linter.unusedSectionVars false
set_option linter.unusedSimpArgs false
namespace Verif.Camera

theorem Smooth.fisheyeOk_of {x : Fin 3 → ℝ}
    (h : 1 / 100000000 < Real.sqrt (x 0 * x 0 + x 1 * x 1) ∨
      (Real.sqrt (x 0 * x 0 + x 1 * x 1) < 1 / 100000000 ∧ x 2 ≠ 0)) : FisheyeOk x := h

theorem local_generic {Q D A : ℕ} {proj : Functor 3 Q 2} {disto : Functor 2 D 2}
    {aff : Functor 2 A 2} (h1 : proj.Local) (h2 : disto.Local) (h3 : aff.Local) :
    (generic proj disto aff).Local :=
  Functor.Local.compose h3 (Functor.Local.compose h2 h1)

theorem jac_generic {Q D A : ℕ} {proj : Functor 3 Q 2} {disto : Functor 2 D 2}
    {aff : Functor 2 A 2} (h1 : proj.Local) (h2 : disto.Local)
    (j2 : ∀ x p, disto.JacobianAt x p) (j3 : ∀ x p, aff.JacobianAt x p) {x : Fin 3 → ℝ} {p : Ptr}
    (j1 : proj.JacobianAt x p) : (generic proj disto aff).JacobianAt x p := by
  have h := Functor.JacobianAt.compose (f := aff) (Functor.Local.compose h2 h1)
    (Functor.JacobianAt.compose (f := disto) h1 j1 (j2 _ _)) (j3 _ _)
  exact h

theorem local_camera (t : ProjType) : (camera t).Local := by
  cases t
  · exact local_generic local_perspective local_disto24 local_scale
  · exact local_generic local_perspective local_brown local_affine
  · exact local_generic local_fisheye local_disto24 local_scale
  · exact local_generic local_fisheye local_disto2468 local_affine
  · exact local_generic local_fisheye local_disto62 local_affine
  · exact local_generic local_fisheye local_disto624 local_affine
  · exact local_generic local_spherical local_identity local_identity
  · exact local_generic local_dual local_disto24 local_scale
  · exact local_generic local_perspective local_disto24 local_affine
  · exact local_generic local_perspective local_disto2 local_affine

/-- C42. The jacobians of the distortions and of the planar transformations are the derivatives, at
every point and for all parameters. -/
theorem C42_stages (x : Fin 2 → ℝ) (p : Ptr) :
    disto2.JacobianAt x p ∧ disto24.JacobianAt x p ∧ disto2468.JacobianAt x p ∧
    disto62.JacobianAt x p ∧ disto624.JacobianAt x p ∧ brown.JacobianAt x p ∧
    affine.JacobianAt x p ∧ uniformScale.JacobianAt x p ∧ identity.JacobianAt x p :=
  ⟨jac_disto2 x p, jac_disto24 x p, jac_disto2468 x p, jac_disto62 x p, jac_disto624 x p,
    jac_brown x p, jac_affine x p, jac_scale x p, jac_identity x p⟩

/-- C42. The jacobian of every camera with respect to the point and to all its parameters is the
derivative of the projection, wherever the projection is differentiable. -/
theorem C42_camera (t : ProjType) (x : Fin 3 → ℝ) (p : Ptr) (h : Smooth t x) :
    (camera t).JacobianAt x p := by
  cases t
  · exact jac_generic local_perspective local_disto24 jac_disto24 jac_scale (jac_perspective x p h)
  · exact jac_generic local_perspective local_brown jac_brown jac_affine (jac_perspective x p h)
  · exact jac_generic local_fisheye local_disto24 jac_disto24 jac_scale (jac_fisheye x p h)
  · exact jac_generic local_fisheye local_disto2468 jac_disto2468 jac_affine (jac_fisheye x p h)
  · exact jac_generic local_fisheye local_disto62 jac_disto62 jac_affine (jac_fisheye x p h)
  · exact jac_generic local_fisheye local_disto624 jac_disto624 jac_affine (jac_fisheye x p h)
  · exact jac_generic local_spherical local_identity jac_identity jac_identity
      (jac_spherical x p h)
  · refine jac_generic local_dual local_disto24 jac_disto24 jac_scale (jac_dual x p h.1 ?_)
    rcases lt_or_gt_of_ne h.2 with h' | h'
    · exact Or.inr ⟨h', h.1⟩
    · exact Or.inl h'
  · exact jac_generic local_perspective local_disto24 jac_disto24 jac_affine (jac_perspective x p h)
  · exact jac_generic local_perspective local_disto2 jac_disto2 jac_affine (jac_perspective x p h)

theorem Turned.lt {rt : Ptr} (h : Turned rt) : machEps < angleSq rt := by
  have e : machEps = 1 / 2 ^ 52 := by norm_num [machEps]
  rw [e]
  simpa [Turned, angleSq, pow_two] using h

/-- C62. The pose stage: above the threshold its jacobian is the derivative of the transformed point. -/
theorem C62_pose (x : Fin 3 → ℝ) (rt : Ptr) (h : Turned rt) : pose.JacobianAt x rt :=
  jac_pose x rt h.lt

/-- C42. A camera with a pose (no rig). The spherical camera is excluded: bundle adjustment uses the 3D
residual for it. -/
theorem C42_posed (t : ProjType) (_ht : t ≠ .spherical) (x : Fin 3 → ℝ) (p : Ptr) (h1 : Turned p)
    (h2 : Smooth t (pose.fwd x p)) : (projectPose t).JacobianAt x p :=
  Functor.JacobianAt.compose local_pose (C62_pose x p h1) (C42_camera t _ _ h2)

/-- C42. A camera in a rig: rig instance pose, rig camera pose, camera. -/
theorem C42_rig_posed (t : ProjType) (_ht : t ≠ .spherical) (x : Fin 3 → ℝ) (p : Ptr)
    (h1 : Turned p) (h2 : Turned (p.shift 6))
    (h3 : Smooth t (pose.fwd (pose.fwd x p) (p.shift 6))) : (projectRigPose t).JacobianAt x p :=
  Functor.JacobianAt.compose (Functor.Local.compose local_pose local_pose)
    (Functor.JacobianAt.compose local_pose (C62_pose x p h1) (C62_pose _ _ h2)) (C42_camera t _ _ h3)

/-- C42. The normalised bearing of a posed point. -/
theorem C42_normalized (x : Fin 3 → ℝ) (p : Ptr) (h1 : Turned p) (h2 : pose.fwd x p ≠ 0) :
    poseNormalized.JacobianAt x p :=
  Functor.JacobianAt.compose local_pose (C62_pose x p h1) (jac_normalize _ _ h2)

theorem C42_rig_normalized (x : Fin 3 → ℝ) (p : Ptr) (h1 : Turned p) (h2 : Turned (p.shift 6))
    (h3 : pose.fwd (pose.fwd x p) (p.shift 6) ≠ 0) : rigPoseNormalized.JacobianAt x p :=
  Functor.JacobianAt.compose (Functor.Local.compose local_pose local_pose)
    (Functor.JacobianAt.compose local_pose (C62_pose x p h1) (C62_pose _ _ h2)) (jac_normalize _ _ h3)

/-! ### Blocks -/

/-- The input `w` with the entries `off .. off + a` replaced by `v`. -/
def embed {N : ℕ} (off a : ℕ) (w : Fin N → ℝ) (v : Fin a → ℝ) : Fin N → ℝ :=
  fun c => if h : off ≤ c.val ∧ c.val < off + a then v ⟨c.val - off, by omega⟩ else w c

theorem IsGrad.block {N : ℕ} {f : (Fin N → ℝ) → ℝ} {g w : Fin N → ℝ} (h : IsGrad f g w)
    (off a : ℕ) (hle : off + a ≤ N) :
    IsGrad (fun v : Fin a → ℝ => f (embed off a w v)) (fun j => g ⟨off + j.val, by omega⟩)
      (fun j => w ⟨off + j.val, by omega⟩) := by
  have he : embed off a w (fun j => w ⟨off + j.val, by omega⟩) = w := by
    funext c
    simp only [embed]
    split
    · congr 1; apply Fin.ext; simp; omega
    · rfl
  have h1 : ∀ c : Fin N, IsGrad (fun v : Fin a → ℝ => embed off a w v c)
      (fun j => if c.val = off + j.val then 1 else 0) (fun j => w ⟨off + j.val, by omega⟩) := by
    intro c
    by_cases hc : off ≤ c.val ∧ c.val < off + a
    · have := isGrad_var (⟨c.val - off, by omega⟩ : Fin a) (fun j => w ⟨off + j.val, by omega⟩)
      simp only [embed, dif_pos hc]
      refine this.congr (fun j => ?_)
      have : (j = ⟨c.val - off, by omega⟩) ↔ (c.val = off + j.val) := by
        rw [Fin.ext_iff]; simp; omega
      simp only [this]
    · simp only [embed, dif_neg hc]
      refine (isGrad_const _ _).congr (fun j => ?_)
      rw [if_neg]; omega
  have h2 := IsGrad.chain (f := f) (f' := g) (G := embed off a w) h1 (by rw [he]; exact h)
  refine h2.congr (fun j => ?_)
  rw [Finset.sum_eq_single (⟨off + j.val, by omega⟩ : Fin N)]
  · simp
  · intro c _ hc
    rw [if_neg, mul_zero]
    intro e; apply hc; exact Fin.ext e
  · simp

theorem IsGrad.scaled {a : ℕ} {f : (Fin a → ℝ) → ℝ} {g v : Fin a → ℝ} (h : IsGrad f g v) (s o : ℝ) :
    IsGrad (fun v => s * (f v - o)) (fun c => s * g c) v := by
  have := (isGrad_const s v).mul (h.sub (isGrad_const o v))
  refine this.congr (fun c => ?_)
  ring

/-- One block of the residual of a functor. -/
theorem block_of_jacobian {n P m : ℕ} {F : Functor n P m} (hl : F.Local) {x : Fin n → ℝ} {p : Ptr}
    (h : F.JacobianAt x p) (s o : ℝ) (i : Fin m) (off a : ℕ) (hle : n + off + a ≤ n + P)
    (R : (Fin a → ℝ) → ℝ)
    (hR : ∀ v : Fin a → ℝ, R v =
      s * (F.fwd x (fun k => if off ≤ k ∧ k < off + a then ptrOf v (k - off) else p k) i - o)) :
    IsGrad R (fun j => s * F.jac x p i (n + off + j.val)) (block a (p.shift off)) := by
  have h1 := ((h i).block (n + off) a hle).scaled s o
  have e1 : (fun j : Fin a => join P x p ⟨n + off + j.val, by omega⟩) = block a (p.shift off) := by
    funext j
    simp only [join, block, Ptr.shift]
    rw [dif_neg (by omega)]
    congr 1; omega
  rw [e1] at h1
  refine HasFDerivAt.congr_of_eventuallyEq h1 (Filter.Eventually.of_forall (fun v => ?_))
  simp only [hR]
  have hx : pointOf (embed (n + off) a (join P x p) v) = x := by
    funext k
    simp only [pointOf, embed, join]
    rw [dif_neg (by omega), dif_pos k.isLt]
  rw [hx]
  congr 2
  refine congrFun (hl _ _ _ ?_) i
  intro k hk
  simp only [paramsOf, embed, join, dif_pos hk, ptrOf]
  by_cases hb : off ≤ k ∧ k < off + a
  · rw [if_pos hb, dif_pos (by omega), dif_pos (by omega)]
    congr 1; apply Fin.ext; simp; omega
  · rw [if_neg hb, dif_neg (by omega), dif_neg (by omega)]
    congr 1; omega

theorem point_of_jacobian {n P m : ℕ} {F : Functor n P m} (hl : F.Local) {x : Fin n → ℝ} {p : Ptr}
    (h : F.JacobianAt x p) (s o : ℝ) (i : Fin m) (R : (Fin n → ℝ) → ℝ)
    (hR : ∀ v : Fin n → ℝ, R v = s * (F.fwd v p i - o)) :
    IsGrad R (fun j => s * F.jac x p i j.val) x := by
  have h1 := ((h i).block 0 n (by omega)).scaled s o
  have e1 : (fun j : Fin n => join P x p ⟨0 + j.val, by omega⟩) = x := by
    funext j
    simp [join]
  rw [e1] at h1
  have e2 : (fun j : Fin n => s * F.jac x p i (0 + j.val)) = fun j : Fin n => s * F.jac x p i j.val := by
    funext j; rw [Nat.zero_add]
  simp only [e2] at h1
  refine HasFDerivAt.congr_of_eventuallyEq h1 (Filter.Eventually.of_forall (fun v => ?_))
  simp only [hR]
  have hx : pointOf (embed 0 n (join P x p) v) = v := by
    funext k
    simp only [pointOf, embed, join]
    rw [dif_pos (by omega)]
    simp
  rw [hx]
  congr 2
  refine congrFun (hl _ _ _ ?_) i
  intro k hk
  simp only [paramsOf, embed, join, dif_pos hk]
  rw [dif_neg (by omega), dif_neg (by omega)]
  congr 1; omega

theorem rig_fwd {t : ProjType} (x : Fin 3 → ℝ) (a b c : Ptr) :
    (projectRigPose t).fwd x (rigParams a b c) = (camera t).fwd (pose.fwd (pose.fwd x a) b) c := by
  simp only [projectRigPose, compose]
  rw [local_pose x (rigParams a b c) a (fun i hi => by simp [rigParams, hi])]
  rw [local_pose _ ((rigParams a b c).shift 6) b
    (fun i hi => by
      simp only [rigParams, Ptr.shift]; rw [if_neg (by omega), if_pos (by omega)]; congr 1; omega)]
  rw [local_camera t _ ((rigParams a b c).shift (6 + 6)) c
    (fun i hi => by
      simp only [rigParams, Ptr.shift]; rw [if_neg (by omega), if_neg (by omega)]; congr 1; omega)]

theorem inst_fwd {t : ProjType} (x : Fin 3 → ℝ) (a c : Ptr) :
    (projectPose t).fwd x (instParams a c) = (camera t).fwd (pose.fwd x a) c := by
  simp only [projectPose, compose]
  rw [local_pose x (instParams a c) a (fun i hi => by simp [instParams, hi])]
  rw [local_camera t _ ((instParams a c).shift 6) c
    (fun i hi => by simp [instParams, Ptr.shift])]

theorem normalize_fwd (q : Fin 3 → ℝ) (p : Ptr) (i : Fin 3) :
    normalize.fwd q p i = q i / Real.sqrt (q 0 * q 0 + q 1 * q 1 + q 2 * q 2) := by
  fin_cases i <;> simp [normalize, sqNorm, div_eq_mul_inv]

theorem rig_normalized_fwd (x : Fin 3 → ℝ) (a b c : Ptr) (i : Fin 3) :
    rigPoseNormalized.fwd x (rigParams a b c) i =
      (pose.fwd (pose.fwd x a) b) i / Real.sqrt ((pose.fwd (pose.fwd x a) b) 0 * (pose.fwd (pose.fwd x a) b) 0 +
        (pose.fwd (pose.fwd x a) b) 1 * (pose.fwd (pose.fwd x a) b) 1 +
        (pose.fwd (pose.fwd x a) b) 2 * (pose.fwd (pose.fwd x a) b) 2) := by
  rw [← normalize_fwd _ ((rigParams a b c).shift (6 + 6))]
  simp only [rigPoseNormalized, compose]
  rw [local_pose x (rigParams a b c) a (fun i hi => by simp [rigParams, hi])]
  rw [local_pose _ ((rigParams a b c).shift 6) b
    (fun i hi => by
      simp only [rigParams, Ptr.shift]; rw [if_neg (by omega), if_pos (by omega)]; congr 1; omega)]

theorem inst_normalized_fwd (x : Fin 3 → ℝ) (a c : Ptr) (i : Fin 3) :
    poseNormalized.fwd x (instParams a c) i =
      (pose.fwd x a) i / Real.sqrt ((pose.fwd x a) 0 * (pose.fwd x a) 0 +
        (pose.fwd x a) 1 * (pose.fwd x a) 1 + (pose.fwd x a) 2 * (pose.fwd x a) 2) := by
  rw [← normalize_fwd _ ((instParams a c).shift 6)]
  simp only [poseNormalized, compose]
  rw [local_pose x (instParams a c) a (fun i hi => by simp [instParams, hi])]

/-- C42. Evaluating the 2D residual with and without jacobians gives the same residual. -/
theorem C42_residual2D_value (t : ProjType) (_ht : t ≠ .spherical) (obs : Fin 2 → ℝ) (scale : ℝ)
    (useRig : Bool) (b : Blocks) :
    (evaluate2D t obs scale useRig b).1 = residual2D t obs scale useRig b := by
  funext i
  cases useRig
  · simp [evaluate2D, residual2D, inst_fwd, project]
  · simp [evaluate2D, residual2D, rig_fwd, project]

theorem C42_residual3D_value (obs : Fin 2 → ℝ) (scale : ℝ) (useRig : Bool) (b : Blocks) :
    (evaluate3D obs scale useRig b).1 = residual3D obs scale useRig b := by
  funext i
  cases useRig
  · simp [evaluate3D, residual3D, inst_normalized_fwd]
  · simp [evaluate3D, residual3D, rig_normalized_fwd]

/-- C42. The bearing that the 3D residual compares with is the bearing that the spherical camera gives to the observed point. -/
theorem C42_observed_bearing (obs : Fin 2 → ℝ) (k : Ptr) : bearing3D obs = spherical.bwd obs k := rfl

theorem block_congr {a : ℕ} {p q : Ptr} (h : ∀ i < a, p i = q i) : block a p = block a q := by
  funext i; exact h i i.isLt

/-- C42. Every jacobian block given to the solver for a 2D reprojection residual holds the partial
derivatives of that residual. -/
theorem C42_residual2D (t : ProjType) (_ht : t ≠ .spherical) (obs : Fin 2 → ℝ) (scale : ℝ)
    (useRig : Bool) (b : Blocks) (h1 : Turned b.rigInstance) (h2 : useRig → Turned b.rigCamera)
    (h3 : Smooth t (if useRig then pose.fwd (pose.fwd b.point b.rigInstance) b.rigCamera
      else pose.fwd b.point b.rigInstance)) :
    BlockJacobian t.size (residual2D t obs scale useRig) b (evaluate2D t obs scale useRig b).2 := by
  cases useRig
  · -- no rig camera
    have hl : (projectPose t).Local := Functor.Local.compose (local_camera t) local_pose
    set all := instParams b.rigInstance b.camera with hall
    have hT : Turned all := by simpa [Turned, hall, instParams] using h1
    have hp : pose.fwd b.point all = pose.fwd b.point b.rigInstance :=
      local_pose _ _ _ (fun i hi => by simp [hall, instParams, hi])
    have hJ : (projectPose t).JacobianAt b.point all :=
      C42_posed t _ht _ _ hT (by rw [hp]; simpa using h3)
    refine ⟨fun i => ?_, fun i => ?_, fun i => ?_, fun i => ?_⟩
    · have := block_of_jacobian hl hJ scale (obs i) i 6 t.size (by omega)
        (fun v => residual2D t obs scale false { b with camera := ptrOf v } i) (by
          intro v
          simp only [residual2D]
          rw [hl b.point _ (instParams b.rigInstance (ptrOf v)) ?_, inst_fwd]
          · simp [project]
          · intro k hk
            simp only [instParams, hall]
            by_cases h6 : k < 6
            · rw [if_neg (by omega), if_pos h6, if_pos h6]
            · rw [if_pos (by omega), if_neg h6])
      have e : block t.size (all.shift 6) = block t.size b.camera :=
        block_congr (fun i hi => by simp [hall, instParams, Ptr.shift])
      rw [e] at this
      simpa [evaluate2D, hall] using this
    · have := block_of_jacobian hl hJ scale (obs i) i 0 6 (by omega)
        (fun v => residual2D t obs scale false { b with rigInstance := ptrOf v } i) (by
          intro v
          simp only [residual2D]
          rw [hl b.point _ (instParams (ptrOf v) b.camera) ?_, inst_fwd]
          · simp [project]
          · intro k hk
            simp only [instParams, hall]
            by_cases h6 : k < 6
            · rw [if_pos (by omega), if_pos h6]; rfl
            · rw [if_neg (by omega), if_neg h6, if_neg h6])
      have e : block 6 (all.shift 0) = block 6 b.rigInstance :=
        block_congr (fun i hi => by simp [hall, instParams, Ptr.shift, hi])
      rw [e] at this
      simpa [evaluate2D, hall] using this
    · simp only [residual2D, evaluate2D, Bool.false_eq_true, if_false]
      exact isGrad_const _ _
    · have := point_of_jacobian hl hJ scale (obs i) i
        (fun v => residual2D t obs scale false { b with point := v } i) (by
          intro v
          simp only [residual2D, hall, inst_fwd]
          simp [project])
      simpa [evaluate2D, hall] using this
  · -- rig camera
    have hl : (projectRigPose t).Local :=
      Functor.Local.compose (local_camera t) (Functor.Local.compose local_pose local_pose)
    set all := rigParams b.rigInstance b.rigCamera b.camera with hall
    have hT : Turned all := by simpa [Turned, hall, rigParams] using h1
    have hT2 : Turned (all.shift 6) := by simpa [Turned, hall, rigParams, Ptr.shift] using h2 rfl
    have hp : pose.fwd b.point all = pose.fwd b.point b.rigInstance :=
      local_pose _ _ _ (fun i hi => by simp [hall, rigParams, hi])
    have hp2 : ∀ y, pose.fwd y (all.shift 6) = pose.fwd y b.rigCamera := fun y =>
      local_pose _ _ _ (fun i hi => by
        simp only [hall, rigParams, Ptr.shift]; rw [if_neg (by omega), if_pos (by omega)]; congr 1; omega)
    have hJ : (projectRigPose t).JacobianAt b.point all :=
      C42_rig_posed t _ht _ _ hT hT2 (by rw [hp, hp2]; simpa using h3)
    refine ⟨fun i => ?_, fun i => ?_, fun i => ?_, fun i => ?_⟩
    · have := block_of_jacobian hl hJ scale (obs i) i 12 t.size (by omega)
        (fun v => residual2D t obs scale true { b with camera := ptrOf v } i) (by
          intro v
          simp only [residual2D]
          rw [hl b.point _ (rigParams b.rigInstance b.rigCamera (ptrOf v)) ?_, rig_fwd]
          · simp [project]
          · intro k hk
            simp only [rigParams, hall]
            by_cases h6 : k < 12
            · rw [if_neg (by omega)]
              by_cases h5 : k < 6
              · rw [if_pos h5, if_pos h5]
              · rw [if_neg h5, if_neg h5, if_pos h6, if_pos h6]
            · rw [if_pos (by omega), if_neg (by omega), if_neg h6])
      have e : block t.size (all.shift 12) = block t.size b.camera :=
        block_congr (fun i hi => by
          simp only [hall, rigParams, Ptr.shift]; rw [if_neg (by omega), if_neg (by omega)]; congr 1; omega)
      rw [e] at this
      simpa [evaluate2D, hall] using this
    · have := block_of_jacobian hl hJ scale (obs i) i 0 6 (by omega)
        (fun v => residual2D t obs scale true { b with rigInstance := ptrOf v } i) (by
          intro v
          simp only [residual2D]
          rw [hl b.point _ (rigParams (ptrOf v) b.rigCamera b.camera) ?_, rig_fwd]
          · simp [project]
          · intro k hk
            simp only [rigParams, hall]
            by_cases h6 : k < 6
            · rw [if_pos (by omega), if_pos h6]; rfl
            · rw [if_neg (by omega), if_neg h6, if_neg h6])
      have e : block 6 (all.shift 0) = block 6 b.rigInstance :=
        block_congr (fun i hi => by simp [hall, rigParams, Ptr.shift, hi])
      rw [e] at this
      simpa [evaluate2D, hall] using this
    · have := block_of_jacobian hl hJ scale (obs i) i 6 6 (by omega)
        (fun v => residual2D t obs scale true { b with rigCamera := ptrOf v } i) (by
          intro v
          simp only [residual2D]
          rw [hl b.point _ (rigParams b.rigInstance (ptrOf v) b.camera) ?_, rig_fwd]
          · simp [project]
          · intro k hk
            simp only [rigParams, hall]
            by_cases h6 : k < 6
            · rw [if_neg (by omega), if_pos h6, if_pos h6]
            · rw [if_neg h6, if_neg h6]
              by_cases h12 : k < 12
              · rw [if_pos (by omega), if_pos h12]
              · rw [if_neg (by omega), if_neg h12, if_neg h12])
      have e : block 6 (all.shift 6) = block 6 b.rigCamera :=
        block_congr (fun i hi => by
          simp only [hall, rigParams, Ptr.shift]; rw [if_neg (by omega), if_pos (by omega)]; congr 1; omega)
      rw [e] at this
      simpa [evaluate2D, hall] using this
    · have := point_of_jacobian hl hJ scale (obs i) i
        (fun v => residual2D t obs scale true { b with point := v } i) (by
          intro v
          simp only [residual2D, hall, rig_fwd]
          simp [project])
      simpa [evaluate2D, hall] using this

/-- C42. The same for the 3D residual (spherical images); its camera block has one, unused, parameter. -/
theorem C42_residual3D (obs : Fin 2 → ℝ) (scale : ℝ)
    (useRig : Bool) (b : Blocks) (h1 : Turned b.rigInstance) (h2 : useRig → Turned b.rigCamera)
    (h3 : (if useRig then pose.fwd (pose.fwd b.point b.rigInstance) b.rigCamera
      else pose.fwd b.point b.rigInstance) ≠ 0) :
    BlockJacobian 1 (residual3D obs scale useRig) b (evaluate3D obs scale useRig b).2 := by
  cases useRig
  · have hl : poseNormalized.Local := Functor.Local.compose local_normalize local_pose
    set all := instParams b.rigInstance (fun _ => 0) with hall
    have hT : Turned all := by simpa [Turned, hall, instParams] using h1
    have hp : pose.fwd b.point all = pose.fwd b.point b.rigInstance :=
      local_pose _ _ _ (fun i hi => by simp [hall, instParams, hi])
    have hJ : poseNormalized.JacobianAt b.point all :=
      C42_normalized _ _ hT (by rw [hp]; simpa using h3)
    refine ⟨fun i => ?_, fun i => ?_, fun i => ?_, fun i => ?_⟩
    · simp only [residual3D, evaluate3D, Bool.false_eq_true, if_false, if_true]
      exact isGrad_const _ _
    · have := block_of_jacobian hl hJ scale (bearing3D obs i) i 0 6 (by omega)
        (fun v => residual3D obs scale false { b with rigInstance := ptrOf v } i) (by
          intro v
          simp only [residual3D]
          rw [hl b.point _ (instParams (ptrOf v) (fun _ => 0)) ?_, inst_normalized_fwd]
          · simp
          · intro k hk
            simp only [instParams, hall]
            by_cases h6 : k < 6
            · rw [if_pos (by omega), if_pos h6]; rfl
            · rw [if_neg (by omega), if_neg h6, if_neg h6])
      have e : block 6 (all.shift 0) = block 6 b.rigInstance :=
        block_congr (fun i hi => by simp [hall, instParams, Ptr.shift, hi])
      rw [e] at this
      simpa [evaluate3D, hall] using this
    · simp only [residual3D, evaluate3D, Bool.false_eq_true, if_false, if_true]
      exact isGrad_const _ _
    · have := point_of_jacobian hl hJ scale (bearing3D obs i) i
        (fun v => residual3D obs scale false { b with point := v } i) (by
          intro v
          simp only [residual3D, hall, inst_normalized_fwd]
          simp)
      simpa [evaluate3D, hall] using this
  · have hl : rigPoseNormalized.Local :=
      Functor.Local.compose local_normalize (Functor.Local.compose local_pose local_pose)
    set all := rigParams b.rigInstance b.rigCamera (fun _ => 0) with hall
    have hT : Turned all := by simpa [Turned, hall, rigParams] using h1
    have hT2 : Turned (all.shift 6) := by simpa [Turned, hall, rigParams, Ptr.shift] using h2 rfl
    have hp : pose.fwd b.point all = pose.fwd b.point b.rigInstance :=
      local_pose _ _ _ (fun i hi => by simp [hall, rigParams, hi])
    have hp2 : ∀ y, pose.fwd y (all.shift 6) = pose.fwd y b.rigCamera := fun y =>
      local_pose _ _ _ (fun i hi => by
        simp only [hall, rigParams, Ptr.shift]; rw [if_neg (by omega), if_pos (by omega)]; congr 1; omega)
    have hJ : rigPoseNormalized.JacobianAt b.point all :=
      C42_rig_normalized _ _ hT hT2 (by rw [hp, hp2]; simpa using h3)
    refine ⟨fun i => ?_, fun i => ?_, fun i => ?_, fun i => ?_⟩
    · simp only [residual3D, evaluate3D, Bool.false_eq_true, if_false, if_true]
      exact isGrad_const _ _
    · have := block_of_jacobian hl hJ scale (bearing3D obs i) i 0 6 (by omega)
        (fun v => residual3D obs scale true { b with rigInstance := ptrOf v } i) (by
          intro v
          simp only [residual3D]
          rw [hl b.point _ (rigParams (ptrOf v) b.rigCamera (fun _ => 0)) ?_, rig_normalized_fwd]
          · simp
          · intro k hk
            simp only [rigParams, hall]
            by_cases h6 : k < 6
            · rw [if_pos (by omega), if_pos h6]; rfl
            · rw [if_neg (by omega), if_neg h6, if_neg h6])
      have e : block 6 (all.shift 0) = block 6 b.rigInstance :=
        block_congr (fun i hi => by simp [hall, rigParams, Ptr.shift, hi])
      rw [e] at this
      simpa [evaluate3D, hall] using this
    · have := block_of_jacobian hl hJ scale (bearing3D obs i) i 6 6 (by omega)
        (fun v => residual3D obs scale true { b with rigCamera := ptrOf v } i) (by
          intro v
          simp only [residual3D]
          rw [hl b.point _ (rigParams b.rigInstance (ptrOf v) (fun _ => 0)) ?_, rig_normalized_fwd]
          · simp
          · intro k hk
            simp only [rigParams, hall]
            by_cases h6 : k < 6
            · rw [if_neg (by omega), if_pos h6, if_pos h6]
            · rw [if_neg h6, if_neg h6]
              by_cases h12 : k < 12
              · rw [if_pos (by omega), if_pos h12]
              · rw [if_neg (by omega), if_neg h12, if_neg h12])
      have e : block 6 (all.shift 6) = block 6 b.rigCamera :=
        block_congr (fun i hi => by
          simp only [hall, rigParams, Ptr.shift]; rw [if_neg (by omega), if_pos (by omega)]; congr 1; omega)
      rw [e] at this
      simpa [evaluate3D, hall] using this
    · have := point_of_jacobian hl hJ scale (bearing3D obs i) i
        (fun v => residual3D obs scale true { b with point := v } i) (by
          intro v
          simp only [residual3D, hall, rig_normalized_fwd]
          simp)
      simpa [evaluate3D, hall] using this

/-! ### Tiny rotations -/

/-- Below the threshold: squared angle less than 2^-52. -/
def Still (rt : Ptr) : Prop := rt 0 ^ 2 + rt 1 ^ 2 + rt 2 ^ 2 < 1 / 2 ^ 52

theorem Still.lt {rt : Ptr} (h : Still rt) : angleSq rt < machEps := by
  have e : machEps = 1 / 2 ^ 52 := by norm_num [machEps]
  rw [e]
  simpa [Still, angleSq, pow_two] using h

/-- C62. Below the threshold the transformed point is differentiable, but the columns that the code
returns for the three rotation parameters are the opposite of the derivatives. -/
theorem C62_tiny_rotation_sign (x : Fin 3 → ℝ) (rt : Ptr) (h : Still rt) :
    ∃ J : Fin 3 → Fin (3 + 6) → ℝ,
      (∀ r, IsGrad (fun v : Fin (3 + 6) → ℝ => pose.fwd (pointOf v) (paramsOf v) r) (J r)
        (join 6 x rt)) ∧
      ∀ r, ∀ c : Fin (3 + 6), 3 ≤ c.val → c.val < 6 → pose.jac x rt r c.val = -J r c := by
  refine ⟨_, fun r => grad_pose_small x rt h.lt r, fun r c h3 h6 => ?_⟩
  rw [dif_neg (by omega), if_pos h6, neg_neg]

theorem pose_jac_rot (x : Fin 3 → ℝ) (rt : Ptr) (h : Still rt) :
    pose.jac x rt 0 4 = x 2 - rt 5 ∧ pose.jac x rt 0 5 = -(x 1 - rt 4) ∧
      pose.jac x rt 1 5 = x 0 - rt 3 := by
  have hr : angleAxisToRotation (rotPart rt) = rotSmall := by
    unfold angleAxisToRotation
    exact if_pos h.lt
  refine ⟨?_, ?_, ?_⟩
  all_goals
    simp only [pose, hr, Fin.sum_univ_three, rotSmall, skewExpr, Expr.neg_def, Expr.zero_def,
      Expr.one_def]
    simp [Expr.grad]

/-- C62. So the jacobian of the pose is wrong for every rotation below the threshold, in particular the
identity, unless the point is exactly at the camera centre. -/
theorem C62_tiny_rotation_wrong (x : Fin 3 → ℝ) (rt : Ptr) (h : Still rt)
    (hx : ∃ j : Fin 3, x j ≠ rt (3 + j.val)) : ¬ pose.JacobianAt x rt := by
  intro hJ
  obtain ⟨J, hJ1, hJ2⟩ := C62_tiny_rotation_sign x rt h
  have key : ∀ r, ∀ c : Fin (3 + 6), 3 ≤ c.val → c.val < 6 → pose.jac x rt r c.val = 0 := by
    intro r c h3 h6
    have e := congrFun (IsGrad.unique (hJ r) (hJ1 r)) c
    have e2 := hJ2 r c h3 h6
    beta_reduce at e
    linarith
  obtain ⟨k1, k2, k3⟩ := pose_jac_rot x rt h
  have h1 := key 0 ⟨4, by omega⟩ (by simp) (by simp)
  have h2 := key 0 ⟨5, by omega⟩ (by simp) (by simp)
  have h3 := key 1 ⟨5, by omega⟩ (by simp) (by simp)
  simp only [k1, k2, k3] at h1 h2 h3
  obtain ⟨j, hj⟩ := hx
  apply hj
  fin_cases j
  · show x 0 = rt 3; linarith
  · show x 1 = rt 4; linarith
  · show x 2 = rt 5; linarith

/-- The identity pose and a point in front of the camera: the jacobian is wrong there. -/
example : ¬ pose.JacobianAt ![1, 2, 3] (fun _ => 0) :=
  C62_tiny_rotation_wrong _ _ (by norm_num [Still]) ⟨0, by simp⟩

/-! ### Non-vacuity -/

/-- A quarter of radian around z, translated. -/
noncomputable def samplePose : Ptr := fun i => if i = 2 then 1 / 4 else if i = 5 then -2 else 0

theorem samplePose_turned : Turned samplePose := by norm_num [Turned, samplePose]

theorem samplePose_z : pose.fwd ![1, 2, 3] samplePose 2 = 5 := by
  simp only [pose, samplePose]
  norm_num [machEps, Matrix.cons_val_two, Matrix.vecHead, Matrix.vecTail]
  have h : Real.sqrt (1 / 16) = 1 / 4 := by
    rw [show (1 / 16 : ℝ) = (1 / 4) ^ 2 by norm_num]
    exact Real.sqrt_sq (by norm_num)
  field_simp
  ring_nf

example : Smooth .brown (pose.fwd ![1, 2, 3] samplePose) := by
  simp only [Smooth]; rw [samplePose_z]; norm_num

example : BlockJacobian ProjType.brown.size (residual2D .brown ![0, 0] 2 false)
    ⟨fun _ => 1, samplePose, fun _ => 0, ![1, 2, 3]⟩
    (evaluate2D .brown ![0, 0] 2 false ⟨fun _ => 1, samplePose, fun _ => 0, ![1, 2, 3]⟩).2 :=
  C42_residual2D .brown (by decide) _ _ _ _ samplePose_turned (by simp)
    (by simp only [Smooth, Bool.false_eq_true, if_false]; rw [samplePose_z]; norm_num)

example : Smooth .fisheye ![3, 4, 0] := by
  left
  norm_num
  rw [show (25 : ℝ) = 5 ^ 2 by norm_num, Real.sqrt_sq (by norm_num)]
  norm_num

example : Smooth .spherical ![1, 0, -1] := Or.inr (by simp)

end Verif.Camera
