import Verif.Model.AlignCost
import Verif.Props.RigCalib
import Mathlib.Analysis.SpecialFunctions.Log.Basic

/-!
# C133: the errors minimised by the alignment of submodels
-/
set_option linter.unusedSectionVars false
set_option linter.unusedSimpArgs false
set_option linter.unusedVariables false
namespace Verif.AlignCost
open Matrix Verif.Superimpose Verif.GpsBias

variable {I J : Type}

/-! ### Specification -/

/-- The centre of a shot. -/
noncomputable def centre (i : Shot) : Vec 3 := -((vecToMat i.r)ᵀ *ᵥ i.t)

/-- A point of the world in the frame of a reconstruction. -/
noncomputable def forward (a : Recon) (y : Vec 3) : Vec 3 := a.s • (vecToMat a.r *ᵥ y) + a.t

/-- The rotation of a shot of a reconstruction in the world. -/
noncomputable def worldRot (m : Shot) (a : Recon) : Mat 3 := vecToMat m.r * vecToMat a.r

/-- `toVec` finds a rotation vector of every rotation, and zero for the identity. -/
def Log (toVec : Mat 3 → Vec 3) : Prop := IsLog toVec ∧ toVec 1 = 0

/-- What a constraint says: the pose of a shot in the world is that in the reconstruction; a shot is at a position; a
shot or a point of two reconstructions is the same in the world. -/
def Met (recs : I → Recon) (shots : J → Shot) : Constraint I J → Prop
  | .motion _ m a i => vecToMat (shots i).r = worldRot m (recs a) ∧ forward (recs a) (centre (shots i)) = centre m
  | .absolute c _ i => centre (shots i) = c
  | .relativeAbsolute c m _ a => forward (recs a) c = centre m
  | .camera ma mb _ _ a b => worldRot ma (recs a) = worldRot mb (recs b) ∧
      ∃ y, forward (recs a) y = centre ma ∧ forward (recs b) y = centre mb
  | .point pa pb _ a b => ∃ y, forward (recs a) y = pa ∧ forward (recs b) y = pb

/-- The weights of a constraint are not zero. -/
def Weighted : Constraint I J → Prop
  | .motion scale _ _ _ => IsUnit scale
  | .absolute _ sd _ => sd ≠ 0
  | .relativeAbsolute _ _ sd _ => sd ≠ 0
  | .camera _ _ sc sr _ _ => sc ≠ 0 ∧ sr ≠ 0
  | .point _ _ sd _ _ => sd ≠ 0

/-! ### Rotations and frames -/

theorem tr_mul (r : Vec 3) : (vecToMat r)ᵀ * vecToMat r = 1 := (vecToMat_rot r).1
theorem mul_tr (r : Vec 3) : vecToMat r * (vecToMat r)ᵀ = 1 := mul_eq_one_comm.1 (tr_mul r)

theorem norm_rot (r v : Vec 3) : (vecToMat r *ᵥ v) ⬝ᵥ (vecToMat r *ᵥ v) = v ⬝ᵥ v := by
  rw [dotProduct_mulVec, vecMul_mulVec, ← dotProduct_mulVec, tr_mul, one_mulVec]

theorem rot_mul (p q : Vec 3) : IsRot (vecToMat p * vecToMat q) := by
  refine ⟨?_, ?_⟩
  · rw [transpose_mul, Matrix.mul_assoc, ← Matrix.mul_assoc (vecToMat p)ᵀ, tr_mul, Matrix.one_mul, tr_mul]
  · rw [det_mul, (vecToMat_rot p).2, (vecToMat_rot q).2, one_mul]

theorem isRot_mul {A B : Mat 3} (ha : IsRot A) (hb : IsRot B) : IsRot (A * B) := by
  refine ⟨?_, ?_⟩
  · rw [transpose_mul, Matrix.mul_assoc, ← Matrix.mul_assoc Aᵀ, ha.1, Matrix.one_mul, hb.1]
  · rw [det_mul, ha.2, hb.2, one_mul]

theorem log_zero {toVec : Mat 3 → Vec 3} (h : Log toVec) {A : Mat 3} (hA : IsRot A) : toVec A = 0 ↔ A = 1 := by
  constructor
  · intro h0
    rw [← h.1 A hA, h0, vecToMat_zero]
  · rintro rfl; exact h.2

theorem tp_eq (a : Recon) (x : Vec 3) : transformPoint a x = (1 / a.s) • ((vecToMat a.r)ᵀ *ᵥ (x - a.t)) := by
  unfold transformPoint
  rw [vecToMat_neg, ← mulVec_smul]
  congr 1
  funext k
  simp only [Pi.smul_apply, Pi.sub_apply, smul_eq_mul]
  ring

theorem tp_iff {a : Recon} (hs : a.s ≠ 0) (x y : Vec 3) : transformPoint a x = y ↔ forward a y = x := by
  rw [tp_eq]
  unfold forward
  constructor
  · rintro rfl
    rw [mulVec_smul, mulVec_mulVec, mul_tr, one_mulVec, smul_smul, mul_one_div_cancel hs, one_smul, sub_add_cancel]
  · rintro rfl
    rw [add_sub_cancel_right, mulVec_smul, mulVec_mulVec, tr_mul, one_mulVec, smul_smul, one_div_mul_cancel hs, one_smul]

theorem centre_eq (m : Shot) : -(vecToMat (-m.r) *ᵥ m.t) = centre m := by
  unfold centre; rw [vecToMat_neg]

/-- C133. What is applied to a reconstruction takes each of its points to the point of the world whose image in the
reconstruction it is; the errors use the same map. -/
theorem C133_applied {a : Recon} (hs : a.s ≠ 0) (x : Vec 3) :
    (transformation a).1 • ((transformation a).2.1 *ᵥ x) + (transformation a).2.2 = transformPoint a x ∧
    ∀ y, transformPoint a x = y ↔ a.s • (vecToMat a.r *ᵥ y) + a.t = x := by
  refine ⟨?_, fun y => tp_iff hs x y⟩
  rw [tp_eq]
  unfold transformation invertSimilarity
  simp only
  rw [mulVec_sub, smul_sub, neg_smul, sub_eq_add_neg]

/-- C133. Within the bounds of the solver, an aligned submodel is enlarged ten times at most. -/
theorem C133_range {a : Recon} (h : Bounds a) : 0 < (transformation a).1 ∧ (transformation a).1 ≤ 10 := by
  unfold Bounds at h
  unfold transformation invertSimilarity
  simp only
  have h0 : (0 : ℝ) < a.s := by linarith
  refine ⟨by positivity, ?_⟩
  rw [div_le_iff₀ h0]
  linarith

/-! ### Single errors -/

theorem join6_zero (a b : Vec 3) : join6 a b = 0 ↔ a = 0 ∧ b = 0 := by
  unfold join6
  constructor
  · intro h
    have h0 := congrFun h 0
    have h1 := congrFun h 1
    have h2 := congrFun h 2
    have h3 := congrFun h 3
    have h4 := congrFun h 4
    have h5 := congrFun h 5
    simp at h0 h1 h2 h3 h4 h5
    constructor
    · funext k; fin_cases k <;> assumption
    · funext k; fin_cases k <;> assumption
  · rintro ⟨rfl, rfl⟩
    funext k; fin_cases k <;> rfl

theorem join6_dot (a b : Vec 3) : join6 a b ⬝ᵥ join6 a b = a ⬝ᵥ a + b ⬝ᵥ b := by
  unfold join6
  simp only [dotProduct, Fin.sum_univ_six, Fin.sum_univ_three]
  simp
  ring

theorem motion_parts (toVec : Mat 3 → Vec 3) (m : Shot) (a : Recon) (i : Shot) :
    motionRaw toVec m a i = join6 (toVec (worldRot m a * (vecToMat i.r)ᵀ)) (forward a (centre i) - centre m) := by
  unfold motionRaw worldRot forward centre
  rw [vecToMat_neg, vecToMat_neg, ← Matrix.mul_assoc]
  congr 1
  rw [mulVec_neg, smul_neg]
  abel

theorem rot_eq_iff (A : Mat 3) (r : Vec 3) : A * (vecToMat r)ᵀ = 1 ↔ vecToMat r = A := by
  constructor
  · intro h
    have := congrArg (· * vecToMat r) h
    simp only [Matrix.mul_assoc, tr_mul, Matrix.mul_one, Matrix.one_mul] at this
    exact this.symm
  · rintro rfl; exact mul_tr r

theorem unit_mulVec_zero {M : Matrix (Fin 6) (Fin 6) ℝ} (h : IsUnit M) (v : Vec 6) : M *ᵥ v = 0 ↔ v = 0 := by
  constructor
  · intro h0
    obtain ⟨u, rfl⟩ := h
    have := congrArg ((↑u⁻¹ : Matrix (Fin 6) (Fin 6) ℝ) *ᵥ ·) h0
    simpa [mulVec_mulVec] using this
  · rintro rfl; exact mulVec_zero _

/-- C133. The error of a camera of a submodel is zero exactly when the pose of the shot is that in the submodel. -/
theorem C133_motion {toVec : Mat 3 → Vec 3} (h : Log toVec) {scale : Matrix (Fin 6) (Fin 6) ℝ} (hu : IsUnit scale)
    (m : Shot) (a : Recon) (i : Shot) :
    motionError toVec scale m a i = 0 ↔
      vecToMat i.r = vecToMat m.r * vecToMat a.r ∧ a.s • (vecToMat a.r *ᵥ centre i) + a.t = centre m := by
  unfold motionError
  rw [unit_mulVec_zero hu, motion_parts, join6_zero, ← vecToMat_neg,
    log_zero h (A := worldRot m a * vecToMat (-i.r)) (isRot_mul (rot_mul _ _) (vecToMat_rot _)), vecToMat_neg, rot_eq_iff, sub_eq_zero]
  rfl

/-- C133. With the weights of the soft constraint the squared error is that of the rotation over 1e-5 plus that of the
centre over 1e-2, the centres being compared in the frame of the submodel: a difference in the world counts times the
scale. -/
theorem C133_soft_size (toVec : Mat 3 → Vec 3) (m : Shot) (a : Recon) (i : Shot) (y : Vec 3)
    (hy : a.s • (vecToMat a.r *ᵥ y) + a.t = centre m) :
    motionError toVec softScale m a i ⬝ᵥ motionError toVec softScale m a i =
      100000 * (toVec (vecToMat m.r * vecToMat a.r * (vecToMat i.r)ᵀ) ⬝ᵥ
        toVec (vecToMat m.r * vecToMat a.r * (vecToMat i.r)ᵀ)) +
      100 * (a.s ^ 2 * ((centre i - y) ⬝ᵥ (centre i - y))) := by
  have hc : forward a (centre i) - centre m = a.s • (vecToMat a.r *ᵥ (centre i - y)) := by
    rw [← hy]
    unfold forward
    rw [mulVec_sub, smul_sub]
    abel
  have hn : a.s ^ 2 * ((centre i - y) ⬝ᵥ (centre i - y)) =
      (forward a (centre i) - centre m) ⬝ᵥ (forward a (centre i) - centre m) := by
    rw [hc, smul_dotProduct, dotProduct_smul, norm_rot, smul_eq_mul, smul_eq_mul]
    ring
  rw [hn]
  unfold motionError
  rw [motion_parts]
  unfold worldRot
  generalize toVec (vecToMat m.r * vecToMat a.r * (vecToMat i.r)ᵀ) = p
  generalize forward a (centre i) - centre m = q
  have e1 : ∀ x : ℝ, (1 / Real.sqrt (1 / 100000) * x) * (1 / Real.sqrt (1 / 100000) * x) = 100000 * (x * x) := by
    intro x
    have : Real.sqrt (1 / 100000) * Real.sqrt (1 / 100000) = 1 / 100000 := Real.mul_self_sqrt (by norm_num)
    have h0 : Real.sqrt (1 / 100000) ≠ 0 := by
      intro h; rw [h] at this; norm_num at this
    have e : (1 / Real.sqrt (1 / 100000) * x) * (1 / Real.sqrt (1 / 100000) * x) =
        (x * x) / (Real.sqrt (1 / 100000) * Real.sqrt (1 / 100000)) := by field_simp
    rw [e, this]; ring
  have e2 : ∀ x : ℝ, (1 / Real.sqrt (1 / 100) * x) * (1 / Real.sqrt (1 / 100) * x) = 100 * (x * x) := by
    intro x
    have : Real.sqrt (1 / 100) * Real.sqrt (1 / 100) = 1 / 100 := Real.mul_self_sqrt (by norm_num)
    have h0 : Real.sqrt (1 / 100) ≠ 0 := by
      intro h; rw [h] at this; norm_num at this
    have e : (1 / Real.sqrt (1 / 100) * x) * (1 / Real.sqrt (1 / 100) * x) =
        (x * x) / (Real.sqrt (1 / 100) * Real.sqrt (1 / 100)) := by field_simp
    rw [e, this]; ring
  unfold softScale join6
  simp only [dotProduct, Fin.sum_univ_six, Fin.sum_univ_three, mulVec_diagonal]
  have c0 : ((0 : Fin 6) : ℕ) < 3 := by decide
  have c1 : ((1 : Fin 6) : ℕ) < 3 := by decide
  have c2 : ((2 : Fin 6) : ℕ) < 3 := by decide
  have c3 : ¬ ((3 : Fin 6) : ℕ) < 3 := by decide
  have c4 : ¬ ((4 : Fin 6) : ℕ) < 3 := by decide
  have c5 : ¬ ((5 : Fin 6) : ℕ) < 3 := by decide
  rw [if_pos c0, if_pos c1, if_pos c2, if_neg c3, if_neg c4, if_neg c5, e1, e1, e1, e2, e2, e2]
  simp
  ring

/-- C133. The error of a position is the difference to the centre of the shot over the deviation. -/
theorem C133_absolute (c : Vec 3) (sd : ℝ) (i : Shot) :
    absoluteError c sd i = (1 / sd) • (c - centre i) ∧ (sd ≠ 0 → (absoluteError c sd i = 0 ↔ centre i = c)) := by
  have e : absoluteError c sd i = (1 / sd) • (c - centre i) := by
    unfold absoluteError centre
    rw [vecToMat_neg, sub_neg_eq_add]
  refine ⟨e, fun h => ?_⟩
  rw [e, smul_eq_zero, sub_eq_zero]
  constructor
  · rintro (h1 | h1)
    · exact absurd h1 (one_div_ne_zero h)
    · exact h1.symm
  · rintro rfl; exact Or.inr rfl

/-- C133. The error of a position of a shot of a submodel is the difference to its centre in the world over the
deviation. -/
theorem C133_relative_absolute (c : Vec 3) (m : Shot) (sd : ℝ) {a : Recon} (hs : a.s ≠ 0) :
    (∀ y, a.s • (vecToMat a.r *ᵥ y) + a.t = centre m → relativeAbsoluteError c m sd a = (1 / sd) • (c - y)) ∧
    (sd ≠ 0 → (relativeAbsoluteError c m sd a = 0 ↔ a.s • (vecToMat a.r *ᵥ c) + a.t = centre m)) := by
  unfold relativeAbsoluteError
  rw [centre_eq]
  constructor
  · intro y hy
    rw [(tp_iff hs (centre m) y).2 hy]
  · intro h
    rw [smul_eq_zero, sub_eq_zero]
    have := tp_iff hs (centre m) c
    constructor
    · rintro (h1 | h1)
      · exact absurd h1 (one_div_ne_zero h)
      · exact this.1 h1.symm
    · intro h1
      exact Or.inr (this.2 h1).symm

/-- C133. The error of a common point is the distance in the world of its two positions, over the deviation and times the
sum of the scales. -/
theorem C133_point (pa pb : Vec 3) (sd : ℝ) {a b : Recon} (ha : 0 < a.s) (hb : 0 < b.s) :
    (∀ ya yb, a.s • (vecToMat a.r *ᵥ ya) + a.t = pa → b.s • (vecToMat b.r *ᵥ yb) + b.t = pb →
      pointError pa pb sd a b = ((a.s + b.s) / sd) • (ya - yb)) ∧
    (sd ≠ 0 → (pointError pa pb sd a b = 0 ↔
      ∃ y, a.s • (vecToMat a.r *ᵥ y) + a.t = pa ∧ b.s • (vecToMat b.r *ᵥ y) + b.t = pb)) := by
  have hf : ∀ ya yb, a.s • (vecToMat a.r *ᵥ ya) + a.t = pa → b.s • (vecToMat b.r *ᵥ yb) + b.t = pb →
      pointError pa pb sd a b = ((a.s + b.s) / sd) • (ya - yb) := by
    intro ya yb h1 h2
    unfold pointError
    rw [(tp_iff ha.ne' pa ya).2 h1, (tp_iff hb.ne' pb yb).2 h2]
    congr 1
    ring
  refine ⟨hf, fun h => ?_⟩
  have h1 := (tp_iff ha.ne' pa _).1 rfl
  have h2 := (tp_iff hb.ne' pb _).1 rfl
  rw [hf _ _ h1 h2, smul_eq_zero, sub_eq_zero]
  constructor
  · rintro (h3 | h3)
    · exact absurd h3 (div_ne_zero (by linarith) h)
    · exact ⟨_, h1, by rw [h3]; exact h2⟩
  · rintro ⟨y, h3, h4⟩
    right
    rw [(tp_iff ha.ne' pa y).2 h3, (tp_iff hb.ne' pb y).2 h4]

/-- C133. The error of a common camera joins the rotation between its two poses in the world and the difference of its
two centres in the world, each over its deviation. -/
theorem C133_camera {toVec : Mat 3 → Vec 3} (h : Log toVec) (ma mb : Shot) (sc sr : ℝ) {a b : Recon} (ha : a.s ≠ 0)
    (hb : b.s ≠ 0) :
    (∀ ya yb, a.s • (vecToMat a.r *ᵥ ya) + a.t = centre ma → b.s • (vecToMat b.r *ᵥ yb) + b.t = centre mb →
      cameraError toVec ma mb sc sr a b ⬝ᵥ cameraError toVec ma mb sc sr a b =
        (1 / sr) ^ 2 * (toVec ((vecToMat ma.r * vecToMat a.r) * (vecToMat mb.r * vecToMat b.r)ᵀ) ⬝ᵥ
          toVec ((vecToMat ma.r * vecToMat a.r) * (vecToMat mb.r * vecToMat b.r)ᵀ)) +
        (1 / sc) ^ 2 * ((ya - yb) ⬝ᵥ (ya - yb))) ∧
    (sc ≠ 0 → sr ≠ 0 → (cameraError toVec ma mb sc sr a b = 0 ↔
      vecToMat ma.r * vecToMat a.r = vecToMat mb.r * vecToMat b.r ∧
      ∃ y, a.s • (vecToMat a.r *ᵥ y) + a.t = centre ma ∧ b.s • (vecToMat b.r *ᵥ y) + b.t = centre mb)) := by
  have e : ∀ ya yb, a.s • (vecToMat a.r *ᵥ ya) + a.t = centre ma → b.s • (vecToMat b.r *ᵥ yb) + b.t = centre mb →
      cameraError toVec ma mb sc sr a b = join6
        ((1 / sr) • toVec ((vecToMat ma.r * vecToMat a.r) * (vecToMat mb.r * vecToMat b.r)ᵀ)) ((1 / sc) • (ya - yb)) := by
    intro ya yb h1 h2
    unfold cameraError
    rw [centre_eq, centre_eq, (tp_iff ha _ ya).2 h1, (tp_iff hb _ yb).2 h2, vecToMat_neg, vecToMat_neg, transpose_mul,
      Matrix.mul_assoc (vecToMat ma.r * vecToMat a.r)]
  constructor
  · intro ya yb h1 h2
    rw [e ya yb h1 h2, join6_dot, smul_dotProduct, dotProduct_smul, smul_dotProduct, dotProduct_smul]
    simp only [smul_eq_mul]
    ring
  · intro hc hr
    have h1 := (tp_iff ha (centre ma) _).1 rfl
    have h2 := (tp_iff hb (centre mb) _).1 rfl
    have hrot : IsRot ((vecToMat ma.r * vecToMat a.r) * (vecToMat mb.r * vecToMat b.r)ᵀ) := by
      rw [transpose_mul, ← vecToMat_neg, ← vecToMat_neg]
      exact isRot_mul (rot_mul _ _) (rot_mul _ _)
    have hone : (vecToMat ma.r * vecToMat a.r) * (vecToMat mb.r * vecToMat b.r)ᵀ = 1 ↔
        vecToMat ma.r * vecToMat a.r = vecToMat mb.r * vecToMat b.r := by
      have h3 := rot_mul mb.r b.r
      constructor
      · intro h4
        have := congrArg (· * (vecToMat mb.r * vecToMat b.r)) h4
        simp only [Matrix.mul_assoc (vecToMat ma.r * vecToMat a.r), h3.1, Matrix.mul_one, Matrix.one_mul] at this
        exact this
      · intro h4
        rw [h4]
        exact mul_eq_one_comm.1 h3.1
    rw [e _ _ h1 h2, join6_zero, smul_eq_zero, smul_eq_zero, log_zero h hrot, hone, sub_eq_zero]
    constructor
    · rintro ⟨h3 | h3, h4 | h4⟩
      · exact absurd h3 (one_div_ne_zero hr)
      · exact absurd h3 (one_div_ne_zero hr)
      · exact absurd h4 (one_div_ne_zero hc)
      · exact ⟨h3, _, h1, by rw [h4]; exact h2⟩
    · rintro ⟨h3, y, h4, h5⟩
      refine ⟨Or.inr h3, Or.inr ?_⟩
      rw [(tp_iff ha _ y).2 h4, (tp_iff hb _ y).2 h5]

/-! ### The cost -/

theorem sq_zero {n : ℕ} (v : Fin n → ℝ) : v ⬝ᵥ v = 0 ↔ v = 0 := dotProduct_self_eq_zero

theorem sq_nonneg' {n : ℕ} (v : Fin n → ℝ) : 0 ≤ v ⬝ᵥ v := Finset.sum_nonneg fun i _ => mul_self_nonneg _

theorem cauchy_spec {q : ℝ} (h : 0 ≤ q) : 0 ≤ cauchy q ∧ (cauchy q = 0 ↔ q = 0) := by
  unfold cauchy
  refine ⟨Real.log_nonneg (by linarith), ?_⟩
  constructor
  · intro h0
    rcases Real.log_eq_zero.1 h0 with h1 | h1 | h1 <;> linarith
  · rintro rfl; simp

theorem softLOne_spec {q : ℝ} (h : 0 ≤ q) : 0 ≤ softLOne q ∧ (softLOne q = 0 ↔ q = 0) := by
  unfold softLOne
  have h1 : 1 ≤ Real.sqrt (1 + q) := by rw [Real.one_le_sqrt]; linarith
  refine ⟨by linarith, ?_⟩
  constructor
  · intro h0
    have h2 : Real.sqrt (1 + q) = 1 := by linarith
    rw [Real.sqrt_eq_one] at h2
    linarith
  · rintro rfl; simp

theorem term_spec {toVec : Mat 3 → Vec 3} (h : Log toVec) {recs : I → Recon} {shots : J → Shot}
    (hs : ∀ a, 0 < (recs a).s) (c : Constraint I J) (hw : Weighted c) :
    0 ≤ term toVec recs shots c ∧ (term toVec recs shots c = 0 ↔ Met recs shots c) := by
  cases c with
  | motion scale m a i =>
    refine ⟨(cauchy_spec (sq_nonneg' _)).1, ?_⟩
    exact (cauchy_spec (sq_nonneg' _)).2.trans ((sq_zero _).trans (C133_motion h hw m (recs a) (shots i)))
  | absolute c sd i =>
    refine ⟨sq_nonneg' _, ?_⟩
    exact (sq_zero _).trans ((C133_absolute c sd (shots i)).2 hw)
  | relativeAbsolute c m sd a =>
    refine ⟨(softLOne_spec (sq_nonneg' _)).1, ?_⟩
    exact (softLOne_spec (sq_nonneg' _)).2.trans
      ((sq_zero _).trans ((C133_relative_absolute c m sd (hs a).ne').2 hw))
  | camera ma mb sc sr a b =>
    refine ⟨(cauchy_spec (sq_nonneg' _)).1, ?_⟩
    exact (cauchy_spec (sq_nonneg' _)).2.trans
      ((sq_zero _).trans ((C133_camera h ma mb sc sr (hs a).ne' (hs b).ne').2 hw.1 hw.2))
  | point pa pb sd a b =>
    refine ⟨(softLOne_spec (sq_nonneg' _)).1, ?_⟩
    exact (softLOne_spec (sq_nonneg' _)).2.trans ((sq_zero _).trans ((C133_point pa pb sd (hs a) (hs b)).2 hw))

/-- C133. The cost is never negative, and it is zero exactly at the alignments that meet every constraint: if there is
one, the alignments of least cost are those. -/
theorem C133_cost {toVec : Mat 3 → Vec 3} (h : Log toVec) (cs : List (Constraint I J)) (hw : ∀ c ∈ cs, Weighted c)
    {recs : I → Recon} {shots : J → Shot} (hs : ∀ a, 0 < (recs a).s) :
    0 ≤ cost toVec cs recs shots ∧ (cost toVec cs recs shots = 0 ↔ ∀ c ∈ cs, Met recs shots c) := by
  have hsum : 0 ≤ (cs.map (term toVec recs shots)).sum ∧
      ((cs.map (term toVec recs shots)).sum = 0 ↔ ∀ c ∈ cs, Met recs shots c) := by
    induction cs with
    | nil => simp
    | cons c cs ih =>
      obtain ⟨i1, i2⟩ := ih (fun c hc => hw c (List.mem_cons_of_mem _ hc))
      obtain ⟨t1, t2⟩ := term_spec h (shots := shots) hs c (hw c List.mem_cons_self)
      rw [List.map_cons, List.sum_cons]
      refine ⟨by linarith, ?_⟩
      rw [List.forall_mem_cons, ← t2, ← i2]
      constructor
      · intro h0; exact ⟨by linarith, by linarith⟩
      · rintro ⟨h0, h1⟩; rw [h0, h1, add_zero]
  unfold cost
  refine ⟨by linarith [hsum.1], ?_⟩
  rw [← hsum.2]
  constructor <;> intro h0 <;> linarith

/-! ### What the constraints determine -/

/-- C133. Two submodels with two shots in common with different centres: any two alignments that meet both common cameras
place the submodels alike with respect to each other, including the scale. -/
theorem C133_unique {ma1 mb1 ma2 mb2 : Shot} (hne : centre ma1 ≠ centre ma2) {recs recs' : I → Recon}
    {shots shots' : J → Shot} {sc sr sc' sr' : ℝ} (hs : ∀ a, 0 < (recs a).s) (hs' : ∀ a, 0 < (recs' a).s) (a b : I)
    (h1 : Met recs shots (.camera ma1 mb1 sc sr a b)) (h2 : Met recs shots (.camera ma2 mb2 sc' sr' a b))
    (h1' : Met recs' shots' (.camera ma1 mb1 sc sr a b)) (h2' : Met recs' shots' (.camera ma2 mb2 sc' sr' a b))
    (y y' : Vec 3) (hy : forward (recs a) y = forward (recs' a) y') :
    forward (recs b) y = forward (recs' b) y' := by
  -- the relative map, from the frame of `a` to that of `b`
  have key : ∀ (A B : Recon), 0 < A.s → worldRot ma1 A = worldRot mb1 B →
      (∃ y, forward A y = centre ma1 ∧ forward B y = centre mb1) →
      (∃ y, forward A y = centre ma2 ∧ forward B y = centre mb2) →
      (∀ z, forward B z = (B.s / A.s) • (((vecToMat mb1.r)ᵀ * vecToMat ma1.r) *ᵥ (forward A z - centre ma1)) + centre mb1) ∧
      centre mb2 - centre mb1 = (B.s / A.s) • (((vecToMat mb1.r)ᵀ * vecToMat ma1.r) *ᵥ (centre ma2 - centre ma1)) := by
    intro A B hA hr ⟨u, hu1, hu2⟩ ⟨v, hv1, hv2⟩
    have hrel : vecToMat B.r = (vecToMat mb1.r)ᵀ * vecToMat ma1.r * vecToMat A.r := by
      unfold worldRot at hr
      have := congrArg ((vecToMat mb1.r)ᵀ * ·) hr
      simp only [← Matrix.mul_assoc, tr_mul, Matrix.one_mul] at this
      exact this.symm
    have hz : ∀ z, forward B z =
        (B.s / A.s) • (((vecToMat mb1.r)ᵀ * vecToMat ma1.r) *ᵥ (forward A z - centre ma1)) + centre mb1 := by
      intro z
      rw [← hu1, ← hu2]
      have e1 : forward A z - forward A u = A.s • (vecToMat A.r *ᵥ (z - u)) := by
        unfold forward; rw [mulVec_sub, smul_sub]; abel
      have e2 : forward B z = B.s • (vecToMat B.r *ᵥ (z - u)) + forward B u := by
        unfold forward; rw [mulVec_sub, smul_sub]; abel
      rw [e2, e1, mulVec_smul, mulVec_mulVec, smul_smul, div_mul_cancel₀ _ hA.ne', hrel]
    refine ⟨hz, ?_⟩
    rw [← hv1, ← hv2, hz v, add_sub_cancel_right]
  obtain ⟨k1, k2⟩ := key (recs a) (recs b) (hs a) h1.1 h1.2 h2.2
  obtain ⟨k1', k2'⟩ := key (recs' a) (recs' b) (hs' a) h1'.1 h1'.2 h2'.2
  have hq : (recs b).s / (recs a).s = (recs' b).s / (recs' a).s := by
    have e := k2.symm.trans k2'
    have hM : IsRot ((vecToMat mb1.r)ᵀ * vecToMat ma1.r) := by
      rw [← vecToMat_neg]; exact rot_mul _ _
    have hv : ((vecToMat mb1.r)ᵀ * vecToMat ma1.r) *ᵥ (centre ma2 - centre ma1) ≠ 0 := by
      intro h0
      have := congrArg (((vecToMat mb1.r)ᵀ * vecToMat ma1.r)ᵀ *ᵥ ·) h0
      simp only [mulVec_mulVec] at this
      rw [hM.1, one_mulVec, mulVec_zero, sub_eq_zero] at this
      exact hne this.symm
    by_contra hne2
    have : ((recs b).s / (recs a).s - (recs' b).s / (recs' a).s) •
        (((vecToMat mb1.r)ᵀ * vecToMat ma1.r) *ᵥ (centre ma2 - centre ma1)) = 0 := by
      rw [sub_smul, e, sub_self]
    rcases smul_eq_zero.1 this with h0 | h0
    · exact hne2 (sub_eq_zero.1 h0)
    · exact hv h0
  rw [k1 y, k1' y', hy, hq]

/-- C133. Moving and scaling the whole world by a similarity of scale `k`, so that every submodel keeps its points, leaves
the error of a common point as long as it is, and makes that of the centres of a common camera `k` times as long: with
common cameras alone, without positions, a smaller world has a smaller cost. -/
theorem C133_world {toVec : Mat 3 → Vec 3} (h : Log toVec) {k : ℝ} (hk : 0 < k) (q u : Vec 3) {a b a' b' : Recon}
    (ha : 0 < a.s) (hb : 0 < b.s) (ea : a'.s = a.s / k) (eb : b'.s = b.s / k)
    (ra : vecToMat a'.r = vecToMat a.r * (vecToMat q)ᵀ) (rb : vecToMat b'.r = vecToMat b.r * (vecToMat q)ᵀ)
    (fa : ∀ y, forward a' (k • (vecToMat q *ᵥ y) + u) = forward a y)
    (fb : ∀ y, forward b' (k • (vecToMat q *ᵥ y) + u) = forward b y) (pa pb : Vec 3) (sd : ℝ) (ma mb : Shot) (sc sr : ℝ)
    (hr : vecToMat ma.r * vecToMat a.r = vecToMat mb.r * vecToMat b.r) :
    pointError pa pb sd a' b' ⬝ᵥ pointError pa pb sd a' b' = pointError pa pb sd a b ⬝ᵥ pointError pa pb sd a b ∧
    cameraError toVec ma mb sc sr a' b' ⬝ᵥ cameraError toVec ma mb sc sr a' b' =
      k ^ 2 * (cameraError toVec ma mb sc sr a b ⬝ᵥ cameraError toVec ma mb sc sr a b) := by
  have ha' : 0 < a'.s := by rw [ea]; positivity
  have hb' : 0 < b'.s := by rw [eb]; positivity
  have hd : ∀ y z : Vec 3, ((k • (vecToMat q *ᵥ y) + u) - (k • (vecToMat q *ᵥ z) + u)) ⬝ᵥ
      ((k • (vecToMat q *ᵥ y) + u) - (k • (vecToMat q *ᵥ z) + u)) = k ^ 2 * ((y - z) ⬝ᵥ (y - z)) := by
    intro y z
    rw [add_sub_add_right_eq_sub, ← smul_sub, ← mulVec_sub, smul_dotProduct, dotProduct_smul, norm_rot]
    simp only [smul_eq_mul]
    ring
  constructor
  · have h1 := (tp_iff ha.ne' pa _).1 rfl
    have h2 := (tp_iff hb.ne' pb _).1 rfl
    rw [(C133_point pa pb sd ha hb).1 _ _ h1 h2, (C133_point pa pb sd ha' hb').1 _ _ ((fa _).trans h1) ((fb _).trans h2),
      smul_dotProduct, dotProduct_smul, hd, smul_dotProduct, dotProduct_smul, ea, eb]
    simp only [smul_eq_mul]
    field_simp
  · have h1 := (tp_iff ha.ne' (centre ma) _).1 rfl
    have h2 := (tp_iff hb.ne' (centre mb) _).1 rfl
    rw [(C133_camera h ma mb sc sr ha.ne' hb.ne').1 _ _ h1 h2,
      (C133_camera h ma mb sc sr ha'.ne' hb'.ne').1 _ _ ((fa _).trans h1) ((fb _).trans h2), hd, ra, rb,
      ← Matrix.mul_assoc, ← Matrix.mul_assoc, hr]
    have e1 := rot_mul mb.r b.r
    have e2 : (vecToMat mb.r * vecToMat b.r) * (vecToMat mb.r * vecToMat b.r)ᵀ = 1 := mul_eq_one_comm.1 e1.1
    have e3 : (vecToMat mb.r * vecToMat b.r * (vecToMat q)ᵀ) * (vecToMat mb.r * vecToMat b.r * (vecToMat q)ᵀ)ᵀ = 1 := by
      rw [transpose_mul, transpose_transpose, Matrix.mul_assoc (vecToMat mb.r * vecToMat b.r),
        ← Matrix.mul_assoc (vecToMat q)ᵀ, tr_mul, Matrix.one_mul, e2]
    rw [e2, e3, h.2]
    simp
    ring

theorem softScale_unit : IsUnit softScale := by
  unfold softScale
  rw [Matrix.isUnit_iff_isUnit_det, Matrix.det_diagonal, isUnit_iff_ne_zero, Finset.prod_ne_zero_iff]
  intro i _
  apply one_div_ne_zero
  rw [Real.sqrt_ne_zero']
  split <;> norm_num

/-- C133. The soft constraints of a shot in a submodel are met exactly when the pose of the shot is that in the submodel
and, the first time, its centre is at its position. -/
theorem C133_soft (m : Shot) (c : Vec 3) (sd : ℝ) (hsd : sd ≠ 0) (a : I) (i : J) (first : Bool) (recs : I → Recon)
    (shots : J → Shot) :
    (∀ k ∈ softConstraints m c sd a i first, Weighted k) ∧
    ((∀ k ∈ softConstraints m c sd a i first, Met recs shots k) ↔
      (first = true → centre (shots i) = c) ∧ vecToMat (shots i).r = vecToMat m.r * vecToMat (recs a).r ∧
      (recs a).s • (vecToMat (recs a).r *ᵥ centre (shots i)) + (recs a).t = centre m) := by
  unfold softConstraints
  cases first with
  | false =>
    simp only [Bool.false_eq_true, if_false, List.nil_append, List.mem_singleton, forall_eq, false_implies, true_and]
    exact ⟨softScale_unit, Iff.rfl⟩
  | true =>
    simp only [if_true, List.singleton_append, List.forall_mem_cons, true_implies]
    refine ⟨⟨hsd, softScale_unit, by simp⟩, ?_⟩
    constructor
    · rintro ⟨h1, h2, -⟩; exact ⟨h1, h2⟩
    · rintro ⟨h1, h2⟩; exact ⟨h1, h2, by simp⟩

/-! ### Examples -/

theorem log_exists : ∃ toVec, Log toVec := by
  obtain ⟨toVec, h, -⟩ := RigCalib.minLog_exists
  classical
  refine ⟨fun A => if A = 1 then 0 else toVec A, ?_, if_pos rfl⟩
  intro A hA
  by_cases h1 : A = 1
  · simp only [h1, if_true, vecToMat_zero]
  · simp only [h1, if_false]; exact h A hA

/-- Two submodels of one world, the second twice as large and moved. -/
def exRecs (a : ℕ) : Recon := if a = 0 then ⟨0, 0, 1⟩ else ⟨0, ![1, 0, 0], 2⟩

/-- Shots on a line. -/
def exShot (x : ℝ) : Shot := ⟨0, ![-x, 0, 0]⟩

theorem exShot_centre (x : ℝ) : centre (exShot x) = ![x, 0, 0] := by
  unfold centre exShot
  rw [vecToMat_zero, transpose_one, one_mulVec]
  funext k; fin_cases k <;> simp

theorem ex_forward (y : Vec 3) : forward (exRecs 0) y = y ∧ forward (exRecs 1) y = (2 : ℝ) • y + ![1, 0, 0] := by
  unfold forward exRecs
  simp [vecToMat_zero]

/-- The hypotheses of the theorems on the cost are met: two shots in both submodels, with positions, a common point and
common cameras, and the cost is zero. -/
example : ∃ toVec, Log toVec ∧ cost toVec
    (softConstraints (exShot 5) ![5, 0, 0] 1 0 0 true ++ softConstraints (exShot 11) ![5, 0, 0] 1 1 0 false ++
      softConstraints (exShot 7) ![7, 0, 0] 1 0 1 true ++ softConstraints (exShot 15) ![7, 0, 0] 1 1 1 false ++
      [.point ![5, 0, 0] ![11, 0, 0] (1 / 10) 0 1, .camera (exShot 5) (exShot 11) 1 (1 / 10) 0 1,
        .camera (exShot 7) (exShot 15) 1 (1 / 10) 0 1, .relativeAbsolute ![7, 0, 0] (exShot 15) 1 1])
    exRecs (fun i => if i = 0 then exShot 5 else exShot 7) = 0 := by
  obtain ⟨toVec, h⟩ := log_exists
  refine ⟨toVec, h, ?_⟩
  have hpos : ∀ a, 0 < (exRecs a).s := by intro a; unfold exRecs; split <;> norm_num
  have r0 : ∀ x, (exShot x).r = 0 := fun _ => rfl
  have rr : ∀ a, (exRecs a).r = 0 := by intro a; unfold exRecs; split <;> rfl
  have f0 := fun y => (ex_forward y).1
  have f1 := fun y => (ex_forward y).2
  have e11 : (2 : ℝ) • ![(5 : ℝ), 0, 0] + ![1, 0, 0] = ![11, 0, 0] := by
    funext k; fin_cases k <;> norm_num
  have e15 : (2 : ℝ) • ![(7 : ℝ), 0, 0] + ![1, 0, 0] = ![15, 0, 0] := by
    funext k; fin_cases k <;> norm_num
  refine (C133_cost h _ ?_ hpos).2.2 ?_
  · intro c hc
    simp only [softConstraints, if_true, Bool.false_eq_true, if_false, List.mem_append, List.mem_cons,
      List.not_mem_nil, or_false, false_or] at hc
    rcases hc with (((((rfl | rfl) | rfl)) | rfl | rfl) | rfl) | rfl | rfl | rfl | rfl <;>
      first | exact softScale_unit | exact ⟨by norm_num, by norm_num⟩ | (show (_ : ℝ) ≠ 0; norm_num)
  · intro c hc
    simp only [softConstraints, if_true, Bool.false_eq_true, if_false, List.mem_append, List.mem_cons,
      List.not_mem_nil, or_false, false_or] at hc
    rcases hc with (((((rfl | rfl) | rfl)) | rfl | rfl) | rfl) | rfl | rfl | rfl | rfl <;>
      simp only [Met, worldRot, if_true, one_ne_zero, if_false, exShot_centre, r0, rr, vecToMat_zero, Matrix.mul_one,
        f0, f1, true_and, e11, e15, and_self]
    · exact ⟨_, rfl, e11⟩
    · exact ⟨_, rfl, e11⟩
    · exact ⟨_, rfl, e15⟩

/-- And those of `C133_world`: a world twice as large. -/
example (y : Vec 3) : forward ⟨0, 0, 1 / 2⟩ ((2 : ℝ) • (vecToMat 0 *ᵥ y) + 0) = forward (exRecs 0) y ∧
    forward ⟨0, ![1, 0, 0], 2 / 2⟩ ((2 : ℝ) • (vecToMat 0 *ᵥ y) + 0) = forward (exRecs 1) y := by
  rw [(ex_forward y).1, (ex_forward y).2]
  unfold forward
  simp [vecToMat_zero, smul_smul]

end Verif.AlignCost
