import Verif.Model.GpsBias
import Verif.Props.AlignPrior
import Mathlib.Analysis.SpecialFunctions.Complex.Arg

/-!
# C95 — Compensating the GPS bias
-/
set_option linter.unusedSectionVars false
set_option linter.unusedSimpArgs false
set_option linter.unusedVariables false
namespace Verif.GpsBias
open Matrix Verif.Superimpose Verif.Align
open Verif.Pose (Pose Recon Similarity applySimilarity applySimilarityPose M3 V3 Rigid Orth)
open Verif.AlignPrior (rod rod_rot norm_sq norm_pos norm_zero_iff cross)
variable {Id : Type} [DecidableEq Id]

/-! ### Specification -/

/-- `toVec` finds a rotation vector of every rotation. -/
def IsLog (toVec : Mat 3 → Vec 3) : Prop := ∀ A, IsRot A → vecToMat (toVec A) = A

/-- The GPS positions of the shots of a rig instance. -/
def gpsOfInstance (r : BRec Id) (i : Id) : List (Vec 3) :=
  r.a.r.shots.filterMap (fun e => if e.2.1 = i then r.a.gps e.1 else none)

open Classical in
/-- The rig instances with a shot of the camera and with GPS: position, mean of the GPS positions. -/
noncomputable def located (r : BRec Id) (c : Id) : List (Vec 3 × Vec 3) :=
  r.a.r.rigInstances.filterMap (fun e =>
    if (∃ q ∈ r.a.r.shots, q.2.1 = e.1 ∧ r.camera q.1 = c) ∧ gpsOfInstance r e.1 ≠ [] then some (e.2.getOrigin, mean (gpsOfInstance r e.1))
    else none)

/-! ### Rotation vectors -/

theorem angleAxis_rod (t : ℝ) (k : Vec 3) : angleAxis t k = rod (Real.cos t) (Real.sin t) k := rfl

theorem vecToMat_zero : vecToMat 0 = 1 := by
  unfold vecToMat
  simp only [dotProduct_zero, Real.sqrt_zero, if_true]
  unfold angleAxis
  ext i j
  fin_cases i <;> fin_cases j <;> simp

theorem vecToMat_ne (v : Vec 3) (h : v ≠ 0) : vecToMat v = rod (Real.cos (AlignPrior.norm v)) (Real.sin (AlignPrior.norm v)) ((1 / AlignPrior.norm v) • v) := by
  unfold vecToMat
  simp only
  rw [if_neg (show ¬ Real.sqrt (v ⬝ᵥ v) = 0 from (norm_pos v h).ne')]
  rfl

theorem rod_transpose (c s : ℝ) (k : Vec 3) : (rod c s k)ᵀ = rod c s (-k) := by
  ext i j
  fin_cases i <;> fin_cases j <;> simp [rod, -mul_eq_mul_left_iff] <;> ring

theorem norm_neg' (v : Vec 3) : AlignPrior.norm (-v) = AlignPrior.norm v := by
  unfold AlignPrior.norm
  simp

/-- The negated rotation vector is the inverse rotation. -/
theorem vecToMat_neg (v : Vec 3) : vecToMat (-v) = (vecToMat v)ᵀ := by
  by_cases h : v = 0
  · subst h
    rw [neg_zero, vecToMat_zero, transpose_one]
  · rw [vecToMat_ne v h, vecToMat_ne (-v) (neg_ne_zero.2 h), rod_transpose, norm_neg', smul_neg]

theorem vecToMat_rot (v : Vec 3) : IsRot (vecToMat v) := by
  by_cases h : v = 0
  · subst h
    rw [vecToMat_zero]
    exact ⟨by simp, by simp⟩
  · rw [vecToMat_ne v h]
    have hn := norm_pos v h
    refine rod_rot (Real.cos_sq_add_sin_sq _) ?_
    simp only [Pi.smul_apply, smul_eq_mul]
    have := norm_sq v
    field_simp
    linarith

theorem cross_mulVec (A : Mat 3) (x y : Vec 3) : Aᵀ *ᵥ cross (A *ᵥ x) (A *ᵥ y) = A.det • cross x y := by
  rw [det_fin_three]
  ext i
  fin_cases i <;> simp [cross, mulVec, dotProduct, Fin.sum_univ_three, transpose_apply] <;> ring

theorem rot_cross {A : Mat 3} (h : IsRot A) (x y : Vec 3) : cross (A *ᵥ x) (A *ᵥ y) = A *ᵥ cross x y := by
  have h1 := cross_mulVec A x y
  rw [h.2, one_smul] at h1
  have h2 : A * Aᵀ = 1 := mul_eq_one_comm.1 h.1
  rw [← h1, mulVec_mulVec, h2, one_mulVec]

theorem rot_dot {A : Mat 3} (h : IsRot A) (x y : Vec 3) : (A *ᵥ x) ⬝ᵥ (A *ᵥ y) = x ⬝ᵥ y := by
  rw [dotProduct_mulVec, vecMul_mulVec, h.1, vecMul_one]

/-- Every rotation has an axis. -/
theorem rot_axis {A : Mat 3} (h : IsRot A) : ∃ k : Vec 3, k ⬝ᵥ k = 1 ∧ A *ᵥ k = k := by
  have hdet : (A - 1).det = 0 := by
    have h2 : A * Aᵀ = 1 := mul_eq_one_comm.1 h.1
    have e : A - 1 = A * (1 - A)ᵀ := by
      rw [transpose_sub, transpose_one, mul_sub, h2, mul_one]
    have e2 : (A - 1).det = (1 - A).det := by
      rw [e, det_mul, h.2, one_mul, det_transpose]
    have e3 : (1 - A).det = -(A - 1).det := by
      rw [← neg_sub A 1, det_neg]
      simp only [Fintype.card_fin]
      ring
    linarith
  obtain ⟨v, hv, hz⟩ := Matrix.exists_mulVec_eq_zero_iff.2 hdet
  have hA : A *ᵥ v = v := by
    rw [sub_mulVec, one_mulVec, sub_eq_zero] at hz
    exact hz
  have hn := norm_pos v hv
  refine ⟨(1 / AlignPrior.norm v) • v, ?_, by rw [mulVec_smul, hA]⟩
  rw [smul_dotProduct, dotProduct_smul]
  have : v ⬝ᵥ v = AlignPrior.norm v ^ 2 := by
    unfold AlignPrior.norm
    rw [Real.sq_sqrt (dot_self_nonneg v)]
  rw [this]
  simp only [smul_eq_mul]
  field_simp

/-- A unit vector orthogonal to a unit vector. -/
theorem exists_orth (k : Vec 3) (hk : k ⬝ᵥ k = 1) : ∃ u : Vec 3, u ⬝ᵥ u = 1 ∧ u ⬝ᵥ k = 0 := by
  have key : ∀ w : Vec 3, w ≠ 0 → w ⬝ᵥ k = 0 → ∃ u : Vec 3, u ⬝ᵥ u = 1 ∧ u ⬝ᵥ k = 0 := by
    intro w hw h
    have hn := norm_pos w hw
    refine ⟨(1 / AlignPrior.norm w) • w, ?_, by rw [smul_dotProduct, h, smul_zero]⟩
    rw [smul_dotProduct, dotProduct_smul]
    have : w ⬝ᵥ w = AlignPrior.norm w ^ 2 := by
      unfold AlignPrior.norm
      rw [Real.sq_sqrt (dot_self_nonneg w)]
    rw [this]
    simp only [smul_eq_mul]
    field_simp
  by_cases h : k 0 = 0 ∧ k 1 = 0
  · refine key ![1, 0, 0] (fun e => by simpa using congrFun e 0) ?_
    simp [dotProduct, Fin.sum_univ_three, h.1]
  · refine key ![-k 1, k 0, 0] (fun e => h ?_) ?_
    · exact ⟨by simpa using congrFun e 1, by simpa using congrFun e 0⟩
    · simp [dotProduct, Fin.sum_univ_three]
      ring

theorem rod_apply (c s : ℝ) (k x : Vec 3) : rod c s k *ᵥ x = c • x + ((1 - c) * (k ⬝ᵥ x)) • k + s • cross k x := by
  ext i
  fin_cases i <;> simp [rod, cross, mulVec, dotProduct, Fin.sum_univ_three] <;> ring

theorem basis_expand (k u x : Vec 3) (hk : k ⬝ᵥ k = 1) (hu : u ⬝ᵥ u = 1) (hku : u ⬝ᵥ k = 0) :
    x = (k ⬝ᵥ x) • k + (u ⬝ᵥ x) • u + (cross k u ⬝ᵥ x) • cross k u := by
  have hB : (of ![k, u, cross k u] : Mat 3) * (of ![k, u, cross k u])ᵀ = 1 := by
    have h1 : k ⬝ᵥ cross k u = 0 := by simp [cross, dotProduct, Fin.sum_univ_three]; ring
    have h2 : u ⬝ᵥ cross k u = 0 := by simp [cross, dotProduct, Fin.sum_univ_three]; ring
    have h3 : cross k u ⬝ᵥ cross k u = 1 := by
      have : cross k u ⬝ᵥ cross k u = (k ⬝ᵥ k) * (u ⬝ᵥ u) - (u ⬝ᵥ k) ^ 2 := by
        simp [cross, dotProduct, Fin.sum_univ_three]; ring
      rw [this, hk, hu, hku]; norm_num
    ext i j
    have e : ((of ![k, u, cross k u] : Mat 3) * (of ![k, u, cross k u])ᵀ) i j = (![k, u, cross k u] i) ⬝ᵥ (![k, u, cross k u] j) := rfl
    rw [e]
    fin_cases i <;> fin_cases j <;> simp [hk, hu, hku, h1, h2, h3, dotProduct_comm k u, dotProduct_comm (cross k u)]
  have hB2 : (of ![k, u, cross k u] : Mat 3)ᵀ * (of ![k, u, cross k u]) = 1 := mul_eq_one_comm.1 hB
  have := congrArg (fun M => M *ᵥ x) hB2
  simp only [one_mulVec, ← mulVec_mulVec] at this
  rw [← this]
  conv_rhs => rw [this]
  ext i
  fin_cases i <;> simp [mulVec, dotProduct, Fin.sum_univ_three, transpose_apply, Matrix.of_apply] <;> ring

/-- Every rotation is given by a rotation vector. -/
theorem C95_log : ∃ toVec, IsLog toVec := by
  have : ∀ A : Mat 3, ∃ v : Vec 3, IsRot A → vecToMat v = A := by
    intro A
    by_cases h : IsRot A
    swap
    · exact ⟨0, fun h' => absurd h' h⟩
    obtain ⟨k, hk, hAk⟩ := rot_axis h
    obtain ⟨u, hu, huk⟩ := exists_orth k hk
    have hAuk : k ⬝ᵥ (A *ᵥ u) = 0 := by
      have := rot_dot h u k
      rw [hAk, huk, dotProduct_comm] at this
      exact this
    have hAu := basis_expand k u (A *ᵥ u) hk hu huk
    rw [hAuk, zero_smul, zero_add] at hAu
    generalize hc : u ⬝ᵥ (A *ᵥ u) = c at hAu
    generalize hs : cross k u ⬝ᵥ (A *ᵥ u) = s at hAu
    have hkk : cross k (cross k u) = -u := by
      have e : cross k (cross k u) = (u ⬝ᵥ k) • k - (k ⬝ᵥ k) • u := by
        ext i
        fin_cases i <;> simp [cross, dotProduct, Fin.sum_univ_three] <;> ring
      rw [e, huk, hk]
      simp
    have hcs : c ^ 2 + s ^ 2 = 1 := by
      have h1 := rot_dot h u u
      have h2 : u ⬝ᵥ cross k u = 0 := by simp [cross, dotProduct, Fin.sum_univ_three]; ring
      have h3 : cross k u ⬝ᵥ cross k u = 1 := by
        have : cross k u ⬝ᵥ cross k u = (k ⬝ᵥ k) * (u ⬝ᵥ u) - (u ⬝ᵥ k) ^ 2 := by
          simp [cross, dotProduct, Fin.sum_univ_three]; ring
        rw [this, hk, hu, huk]; norm_num
      rw [hAu, hu] at h1
      simp only [add_dotProduct, dotProduct_add, smul_dotProduct, dotProduct_smul, hu, h2, h3, dotProduct_comm (cross k u) u, smul_eq_mul] at h1
      linarith
    have hlin : ∀ (a : ℝ) (x y : Vec 3), cross k (a • x) = a • cross k x ∧ cross k (x + y) = cross k x + cross k y := by
      intro a x y
      constructor <;> ext i <;> fin_cases i <;> simp [cross] <;> ring
    have hAw : A *ᵥ cross k u = c • cross k u - s • u := by
      rw [← rot_cross h, hAk, hAu, (hlin 0 _ _).2, (hlin c u 0).1, (hlin s (cross k u) 0).1, hkk]
      module
    have hAeq : A = rod c s k := by
      refine Matrix.ext_of_mulVec_single (fun i => ?_)
      generalize (Pi.single i 1 : Vec 3) = x
      rw [rod_apply]
      have hx := basis_expand k u x hk hu huk
      have hAx : A *ᵥ x = (k ⬝ᵥ x) • k + (u ⬝ᵥ x) • (c • u + s • cross k u) + (cross k u ⬝ᵥ x) • (c • cross k u - s • u) := by
        conv_lhs => rw [hx]
        rw [mulVec_add, mulVec_add, mulVec_smul, mulVec_smul, mulVec_smul, hAk, hAw, hAu]
      have hkx : cross k x = (u ⬝ᵥ x) • cross k u - (cross k u ⬝ᵥ x) • u := by
        conv_lhs => rw [hx]
        rw [(hlin 0 _ _).2, (hlin 0 _ _).2, (hlin _ _ 0).1, (hlin _ _ 0).1, (hlin _ _ 0).1, hkk]
        have : cross k k = 0 := by
          ext i
          fin_cases i <;> simp [cross] <;> ring
        rw [this]
        module
      rw [hAx, hkx]
      conv_rhs =>
        enter [1, 1]
        rw [hx]
      module
    obtain ⟨t, ht0, htp, htc, hts⟩ : ∃ t : ℝ, 0 ≤ t ∧ True ∧ Real.cos t = c ∧ Real.sin t = s := by
      have hz : ‖(⟨c, s⟩ : ℂ)‖ = 1 := by
        rw [Complex.norm_def, Complex.normSq_mk, Real.sqrt_eq_one]
        linarith
      have hne : (⟨c, s⟩ : ℂ) ≠ 0 := by
        intro e
        rw [e, norm_zero] at hz
        norm_num at hz
      have h1 := Complex.cos_arg hne
      have h2 := Complex.sin_arg (⟨c, s⟩ : ℂ)
      rw [hz, div_one] at h1 h2
      refine ⟨Complex.arg ⟨c, s⟩ + 2 * Real.pi, ?_, trivial, ?_, ?_⟩
      · have := Complex.neg_pi_lt_arg (⟨c, s⟩ : ℂ)
        have := Real.pi_pos
        linarith
      · rw [Real.cos_add_two_pi, h1]
      · rw [Real.sin_add_two_pi, h2]
    refine ⟨t • k, fun _ => ?_⟩
    have hk0 : k ≠ 0 := by
      rintro rfl
      simp at hk
    rcases eq_or_lt_of_le ht0 with h0 | h0
    · rw [← h0, zero_smul, vecToMat_zero, hAeq, ← htc, ← hts, ← h0]
      ext i j
      fin_cases i <;> fin_cases j <;> simp [rod]
    · have hn : AlignPrior.norm (t • k) = t := by
        unfold AlignPrior.norm
        rw [smul_dotProduct, dotProduct_smul, hk]
        simp only [smul_eq_mul, mul_one]
        rw [Real.sqrt_mul_self ht0]
      rw [vecToMat_ne _ (smul_ne_zero h0.ne' hk0), hn, htc, hts, smul_smul, one_div, inv_mul_cancel₀ h0.ne', one_smul, hAeq]
  choose f hf using this
  exact ⟨f, hf⟩

/-! ### The bias of a camera -/

/-- **The bias is the inverse** of the similarity that sends the cameras to their GPS positions. -/
theorem C95_inverse (toVec : Mat 3 → Vec 3) (hl : IsLog toVec) (s : ℝ) (hs : s ≠ 0) (A : Mat 3) (hA : IsRot A) (b x y : Vec 3) :
    (biasOf toVec (s, A, b)).transform y = x ↔ y = s • (A *ᵥ x) + b := by
  have hB : vecToMat (-(toVec A)) = Aᵀ := by rw [vecToMat_neg, hl A hA]
  have h2 : A * Aᵀ = 1 := mul_eq_one_comm.1 hA.1
  have e : (biasOf toVec (s, A, b)).transform y = (1 / s) • (Aᵀ *ᵥ (y - b)) := by
    unfold biasOf Similarity.transform Similarity.mk' Pose.ofWorldToCamera
    simp only [hB]
    rw [smul_mulVec, mulVec_sub, smul_sub, sub_eq_add_neg]
  rw [e]
  constructor
  · rintro rfl
    rw [mulVec_smul, mulVec_mulVec, h2, one_mulVec, smul_smul, mul_one_div_cancel hs, one_smul, sub_add_cancel]
  · rintro rfl
    rw [add_sub_cancel_right, mulVec_smul, mulVec_mulVec, hA.1, one_mulVec, smul_smul, one_div_mul_cancel hs, one_smul]

theorem get?_setAll (l : List (Id × Similarity ℝ)) : ∀ (d : Dict Id (Similarity ℝ)) (c : Id),
    (∀ b, (c, b) ∉ l) → (setAll d l).get? c = d.get? c := by
  induction l with
  | nil => intro d c _; rfl
  | cons e l ih =>
    obtain ⟨c', b'⟩ := e
    intro d c h
    unfold setAll
    rw [ih _ c (fun b hb => h b (List.mem_cons_of_mem _ hb)), Dict.get?_set_ne]
    rintro rfl
    exact h b' (by simp)

theorem get?_setAll_mem (l : List (Id × Similarity ℝ)) : ∀ (d : Dict Id (Similarity ℝ)) (c : Id) (b : Similarity ℝ),
    (c, b) ∈ l → (∀ b', (c, b') ∈ l → b' = b) → (setAll d l).get? c = some b := by
  induction l with
  | nil => intro d c b h; simp at h
  | cons e l ih =>
    obtain ⟨c', b'⟩ := e
    intro d c b h hall
    unfold setAll
    by_cases hm : (c, b) ∈ l
    · exact ih _ c b hm (fun b'' h'' => hall b'' (List.mem_cons_of_mem _ h''))
    · have he : (c', b') = (c, b) := by
        rcases List.mem_cons.1 h with h | h
        · exact h.symm
        · exact absurd h hm
      simp only [Prod.mk.injEq] at he
      obtain ⟨rfl, rfl⟩ := he
      rw [get?_setAll l _ c']
      · rw [Dict.get?_set_self]
      · intro b'' hb
        have := hall b'' (List.mem_cons_of_mem _ hb)
        subst this
        exact hm hb

/-! ### The constraints of one camera -/

theorem mem_shotCameras (r : BRec Id) (c : Id) : c ∈ shotCameras r ↔ ∃ q ∈ r.a.r.shots, r.camera q.1 = c := by
  unfold shotCameras
  rw [List.mem_dedup, List.mem_map]

/-- The aligned reconstruction. -/
noncomputable def moved (r : BRec Id) (s : ℝ) (A : Mat 3) (b : Vec 3) : BRec Id :=
  { r with a := { r.a with r := applySimilarity r.a.r s A b } }

theorem constraints_camera (cfg : Cfg) (r : BRec Id) (hi : ∀ e ∈ r.a.r.rigInstances, Rigid e.2) (hg : cfg.useGps = true)
    (s : ℝ) (A : Mat 3) (hA : IsRot A) (b : Vec 3) (c : Id) :
    constraints cfg (ofCamera (moved r s A b) c) [] true = (located r c).map (fun p => (s • (A *ᵥ p.1) + b, p.2)) := by
  unfold constraints
  rw [if_neg (by simp), if_pos ⟨rfl, hg⟩, List.nil_append]
  unfold located
  rw [List.map_filterMap]
  have hins : (ofCamera (moved r s A b) c).r.rigInstances =
      (r.a.r.rigInstances.map (fun e => (e.1, applySimilarityPose e.2 s A b))).filter (fun e => decide (e.1 ∈
        (r.a.r.shots.filter (fun e => decide (r.camera e.1 = c))).map (fun e => e.2.1))) := rfl
  rw [hins, List.filter_map, List.filterMap_map, List.filterMap_filter]
  refine List.filterMap_congr ?_
  rintro ⟨i, p⟩ he
  simp only [Function.comp]
  have hmem : i ∈ (r.a.r.shots.filter (fun e => decide (r.camera e.1 = c))).map (fun e => e.2.1) ↔
      ∃ q ∈ r.a.r.shots, q.2.1 = i ∧ r.camera q.1 = c := by
    rw [List.mem_map]
    constructor
    · rintro ⟨q, hq, rfl⟩
      rw [List.mem_filter] at hq
      exact ⟨q, hq.1, rfl, of_decide_eq_true hq.2⟩
    · rintro ⟨q, hq, rfl, h⟩
      exact ⟨q, List.mem_filter.2 ⟨hq, decide_eq_true h⟩, rfl⟩
  by_cases h : ∃ q ∈ r.a.r.shots, q.2.1 = i ∧ r.camera q.1 = c
  · rw [if_pos (decide_eq_true (hmem.2 h))]
    have hgps : instanceGps (ofCamera (moved r s A b) c) i = gpsOfInstance r i := by
      unfold instanceGps gpsOfInstance
      have hsh : (ofCamera (moved r s A b) c).r.shots = r.a.r.shots.filter (fun e => decide (e.2.1 ∈
        (r.a.r.shots.filter (fun e => decide (r.camera e.1 = c))).map (fun e => e.2.1))) := rfl
      rw [hsh, List.filterMap_filter]
      refine List.filterMap_congr ?_
      rintro ⟨q, j, k⟩ hq
      simp only
      by_cases hj : j = i
      · subst hj
        rw [if_pos (decide_eq_true (hmem.2 h))]
        rfl
      · rw [if_neg hj]
        split <;> rfl
    unfold instancePair
    rw [hgps]
    by_cases hne : gpsOfInstance r i = []
    · rw [if_neg (by rw [hne]; simp), if_neg (by simp [hne])]
      rfl
    · rw [if_pos (List.length_pos_of_ne_nil hne), if_pos ⟨h, hne⟩]
      simp only [Option.map_some, Option.some.injEq, Prod.mk.injEq, and_true]
      exact (Verif.Pose.C40_pose p (hi _ he) s A (rot_orth hA) b).2.2
  · rw [if_neg (by rw [decide_eq_true_eq, hmem]; exact h), if_neg (fun hx => h hx.1)]
    rfl

theorem notLine_moved (l : List (Vec 3 × Vec 3)) (s : ℝ) (hs : s ≠ 0) (A : Mat 3) (hA : IsRot A) (b : Vec 3)
    (h : ¬ OnLine (l.map (·.1))) : ¬ OnLine ((l.map (fun p => (s • (A *ᵥ p.1) + b, p.2))).map (·.1)) := by
  rintro ⟨o, d, hd⟩
  apply h
  refine ⟨(1 / s) • (Aᵀ *ᵥ (o - b)), (1 / s) • (Aᵀ *ᵥ d), ?_⟩
  intro x hx
  obtain ⟨p, hp, rfl⟩ := List.mem_map.1 hx
  obtain ⟨c, hc⟩ := hd (s • (A *ᵥ p.1) + b) (List.mem_map.2 ⟨_, List.mem_map.2 ⟨p, hp, rfl⟩, rfl⟩)
  refine ⟨c, ?_⟩
  have h1 : s • (A *ᵥ p.1) = (o - b) + c • d := by
    have := congrArg (fun v => v - b) hc
    simp only [add_sub_cancel_right] at this
    rw [this]
    module
  have h2 : p.1 = (1 / s) • (Aᵀ *ᵥ (s • (A *ᵥ p.1))) := by
    rw [mulVec_smul, mulVec_mulVec, hA.1, one_mulVec, smul_smul, one_div_mul_cancel hs, one_smul]
  rw [h2, h1, mulVec_add, mulVec_smul, smul_add, smul_comm]

theorem similarity_exact (svd : Mat 3 → Svd 3) (hs : ∀ C, IsSvd C (svd C)) (eig : Mat 3 → Vec 3)
    (prior : List (Vec 3 × Vec 3) → Bool → Option (ℝ × Mat 3 × Vec 3)) (cfg : Cfg) (a : ARec Id) (gcp : List GPoint) (useGps scale : Bool)
    (hm : cfg.method = "naive" ∨ cfg.method = "auto" ∧ wellConditioned eig (constraints cfg a gcp useGps) = true)
    (s : ℝ) (hs0 : 0 < s) (Q : Mat 3) (hQ : IsRot Q) (t : Vec 3)
    (hp : ∀ p ∈ constraints cfg a gcp useGps, p.2 = s • (Q *ᵥ p.1) + t) (hsc : scale = false → s = 1)
    (hline : ¬ OnLine ((constraints cfg a gcp useGps).map (·.1)))
    (hsd : 1 / 10 ^ 10 ≤ spread ((constraints cfg a gcp useGps).map (·.2))) :
    similarity svd eig prior cfg a gcp useGps scale = some (s, Q, t) := by
  have hnaive := naive_exact svd hs _ scale s hs0 Q hQ t hp hsc hline hsd
  unfold similarity
  rcases hm with h | ⟨h, hw⟩
  · simp only [h, hnaive]
    simp [hs0.ne']
  · simp only [h, hw, hnaive]
    simp [hs0.ne']

theorem useScale_false {a : ARec Id} (h : useScale a = false) :
    ∃ i, 2 ≤ (a.r.shots.filter (fun e => decide (e.2.1 = i))).length := by
  unfold useScale at h
  rw [Bool.not_eq_false', List.any_eq_true] at h
  obtain ⟨e, -, he⟩ := h
  exact ⟨e.1, of_decide_eq_true he⟩

theorem fits_none {α : Type} (l : List Id) (f : Id → Option α) (h : ∀ c ∈ l, f c ≠ none) :
    (l.map (fun c => (c, f c))).any (fun e => e.2.isNone) = false := by
  rw [List.any_eq_false]
  intro e he
  obtain ⟨c, hc, rfl⟩ := List.mem_map.1 he
  cases hf : f c with
  | none => exact absurd hf (h c hc)
  | some x => simp [hf]

/-- **Exact compensation.** If a similarity sends the reconstruction exactly onto the control points, and for each camera another one
sends the aligned positions of its rig instances exactly to their GPS positions (neither the control points nor the positions of a
camera's instances being on a line), the reconstruction is moved onto the control points, and the bias of every camera is the map
from GPS to reconstruction. Then the position prior of every rig instance with GPS holds exactly, whichever of its cameras is
taken. -/
theorem C95_exact (svd : Mat 3 → Svd 3) (hs : ∀ C, IsSvd C (svd C)) (eig : Mat 3 → Vec 3) (toVec : Mat 3 → Vec 3) (hl : IsLog toVec)
    (prior : ARec Id → List (Vec 3 × Vec 3) → Bool → Option (ℝ × Mat 3 × Vec 3)) (cfg : Cfg) (hg : cfg.useGps = true) (r : BRec Id)
    (gcp : List GPoint) (useGps : Bool) (hwf : r.a.r.rigInstances.Wf) (hi : ∀ e ∈ r.a.r.rigInstances, Rigid e.2)
    (s : ℝ) (hs0 : 0 < s) (Q : Mat 3) (hQ : IsRot Q) (t : Vec 3)
    (S : Id → ℝ × Mat 3 × Vec 3) (hS : ∀ c, 0 < (S c).1 ∧ IsRot (S c).2.1)
    (hm : cfg.method = "naive" ∨ cfg.method = "auto" ∧ wellConditioned eig (constraints cfg r.a gcp false) = true ∧
      ∀ q ∈ r.a.r.shots, wellConditioned eig ((located r (r.camera q.1)).map (fun p => (s • (Q *ᵥ p.1) + t, p.2))) = true)
    (hgcp : ∀ p ∈ constraints cfg r.a gcp false, p.2 = s • (Q *ᵥ p.1) + t)
    (hline : ¬ OnLine ((constraints cfg r.a gcp false).map (·.1)))
    (hsd : 1 / 10 ^ 10 ≤ spread ((constraints cfg r.a gcp false).map (·.2)))
    (hgps : ∀ q ∈ r.a.r.shots, ∀ p ∈ located r (r.camera q.1),
      p.2 = (S (r.camera q.1)).1 • ((S (r.camera q.1)).2.1 *ᵥ (s • (Q *ᵥ p.1) + t)) + (S (r.camera q.1)).2.2)
    (hlines : ∀ q ∈ r.a.r.shots, ¬ OnLine ((located r (r.camera q.1)).map (·.1)))
    (hsds : ∀ q ∈ r.a.r.shots, 1 / 10 ^ 10 ≤ spread ((located r (r.camera q.1)).map (·.2)))
    (hsc : (s = 1 ∧ ∀ c, (S c).1 = 1) ∨ ∀ i, (r.a.r.shots.filter (fun e => decide (e.2.1 = i))).length ≤ 1) :
    ∃ r', alignRec svd eig toVec prior cfg true r gcp useGps true = (some (s, Q, t), r') ∧
      r'.a.gps = r.a.gps ∧ r'.camera = r.camera ∧
      (∀ l, r'.a.r.points.get? l = (r.a.r.points.get? l).map (fun x => s • (Q *ᵥ x) + t)) ∧
      (∀ q ∈ r.a.r.shots, ∃ b, r'.biases.get? (r.camera q.1) = some b ∧
        (∀ x y, b.transform y = x ↔ y = (S (r.camera q.1)).1 • ((S (r.camera q.1)).2.1 *ᵥ x) + (S (r.camera q.1)).2.2) ∧
        (gpsOfInstance r q.2.1 ≠ [] → ∀ p, r.a.r.rigInstances.get? q.2.1 = some p → ∃ p', r'.a.r.rigInstances.get? q.2.1 = some p' ∧
          p'.getOrigin = s • (Q *ᵥ p.getOrigin) + t ∧
          ∀ sd group : ℝ, priorResidual p' (mean (gpsOfInstance r q.2.1)) sd group b = 0)) ∧
      (∀ c, (∀ q ∈ r.a.r.shots, r.camera q.1 ≠ c) → r'.biases.get? c = r.biases.get? c) := by
  have hscale : useScale r.a = false → s = 1 ∧ ∀ c, (S c).1 = 1 := by
    intro h
    rcases hsc with h1 | h1
    · exact h1
    · obtain ⟨i, hi2⟩ := useScale_false h
      have := h1 i
      omega
  have hsim := similarity_exact svd hs eig (prior r.a) cfg r.a gcp false (useScale r.a)
    (hm.elim Or.inl (fun h => Or.inr ⟨h.1, h.2.1⟩)) s hs0 Q hQ t hgcp (fun h => (hscale h).1) hline hsd
  have hcam : ∀ c ∈ shotCameras (moved r s Q t), similarity svd eig (prior (ofCamera (moved r s Q t) c)) cfg
      (ofCamera (moved r s Q t) c) [] true (useScale r.a) = some (S c) := by
    intro c hc
    obtain ⟨q, hq, rfl⟩ := (mem_shotCameras _ _).1 hc
    have hcon := constraints_camera cfg r hi hg s Q hQ t (r.camera q.1)
    refine similarity_exact svd hs eig _ cfg _ [] true (useScale r.a) ?_ _ (hS _).1 _ (hS _).2 _ ?_ (fun h => (hscale h).2 _) ?_ ?_
    · refine hm.elim Or.inl (fun h => Or.inr ⟨h.1, ?_⟩)
      exact (congrArg (wellConditioned eig) hcon).trans (h.2.2 q hq)
    · intro p hp
      have hp' : p ∈ (located r (r.camera q.1)).map (fun p => (s • (Q *ᵥ p.1) + t, p.2)) := hcon ▸ hp
      obtain ⟨p0, h0, rfl⟩ := List.mem_map.1 hp'
      exact hgps q hq p0 h0
    · have := notLine_moved _ s hs0.ne' Q hQ t (hlines q hq)
      rw [← hcon] at this
      exact this
    · have : spread ((constraints cfg (ofCamera (moved r s Q t) (r.camera q.1)) [] true).map (·.2)) =
          spread ((located r (r.camera q.1)).map (·.2)) := by
        rw [hcon, List.map_map]
        rfl
      exact this ▸ hsds q hq
  have hrun : alignRec svd eig toVec prior cfg true r gcp useGps true = (some (s, Q, t), { moved r s Q t with
      biases := setAll r.biases (((shotCameras (moved r s Q t)).map (fun c => (c, similarity svd eig (prior (ofCamera (moved r s Q t) c))
        cfg (ofCamera (moved r s Q t) c) [] true (useScale r.a)))).filterMap (fun e => e.2.map (fun x => (e.1, biasOf toVec x)))) }) := by
    unfold alignRec
    rw [if_pos (by rfl)]
    unfold setGpsBias
    rw [hsim]
    simp only
    rw [if_neg]
    · rfl
    · have := fits_none (shotCameras (moved r s Q t)) (fun c => similarity svd eig (prior (ofCamera (moved r s Q t) c)) cfg
        (ofCamera (moved r s Q t) c) [] true (useScale r.a)) (fun c hc => by rw [hcam c hc]; simp)
      rw [Bool.not_eq_true]
      exact this
  refine ⟨_, hrun, rfl, rfl, ?_, ?_, ?_⟩
  · intro l
    exact Verif.Pose.get?_map (fun x => s • (Q *ᵥ x) + t) r.a.r.points l
  · intro q hq
    have hcm : r.camera q.1 ∈ shotCameras (moved r s Q t) := (mem_shotCameras _ _).2 ⟨q, hq, rfl⟩
    have hb : (setAll r.biases (((shotCameras (moved r s Q t)).map (fun c => (c, similarity svd eig (prior (ofCamera (moved r s Q t) c))
        cfg (ofCamera (moved r s Q t) c) [] true (useScale r.a)))).filterMap (fun e => e.2.map (fun x => (e.1, biasOf toVec x))))).get?
        (r.camera q.1) = some (biasOf toVec (S (r.camera q.1))) := by
      refine get?_setAll_mem _ _ _ _ ?_ ?_
      · refine List.mem_filterMap.2 ⟨_, List.mem_map.2 ⟨_, hcm, rfl⟩, ?_⟩
        simp only [hcam _ hcm, Option.map_some]
      · intro b' hb'
        obtain ⟨e, he, hx⟩ := List.mem_filterMap.1 hb'
        obtain ⟨c, hc, rfl⟩ := List.mem_map.1 he
        simp only [hcam c hc, Option.map_some, Option.some.injEq, Prod.mk.injEq] at hx
        obtain ⟨rfl, rfl⟩ := hx
        rfl
    have hinv : ∀ x y, (biasOf toVec (S (r.camera q.1))).transform y = x ↔
        y = (S (r.camera q.1)).1 • ((S (r.camera q.1)).2.1 *ᵥ x) + (S (r.camera q.1)).2.2 :=
      fun x y => C95_inverse toVec hl _ (hS _).1.ne' _ (hS _).2 _ x y
    refine ⟨_, hb, hinv, ?_⟩
    intro hne p hp
    obtain ⟨p', hp', ho⟩ := applied r.a (fun i p h => hi _ (Dict.mem_of_get? h)) s Q hQ t q.2.1 p hp
    refine ⟨p', hp', ho, ?_⟩
    intro sd group
    have hloc : (p.getOrigin, mean (gpsOfInstance r q.2.1)) ∈ located r (r.camera q.1) := by
      unfold located
      refine List.mem_filterMap.2 ⟨(q.2.1, p), Dict.mem_of_get? hp, ?_⟩
      rw [if_pos ⟨⟨q, hq, rfl, rfl⟩, hne⟩]
    have hx := hgps q hq _ hloc
    have := (hinv (s • (Q *ᵥ p.getOrigin) + t) (mean (gpsOfInstance r q.2.1))).2 hx
    unfold priorResidual
    rw [this, ho, sub_self, smul_zero]
  · intro c hc
    refine get?_setAll _ _ c ?_
    intro b hb
    obtain ⟨e, he, hx⟩ := List.mem_filterMap.1 hb
    obtain ⟨c', hc', rfl⟩ := List.mem_map.1 he
    obtain ⟨x, -, hx2⟩ := Option.map_eq_some_iff.1 hx
    simp only [Prod.mk.injEq] at hx2
    obtain ⟨rfl, -⟩ := hx2
    obtain ⟨q, hq, hqc⟩ := (mem_shotCameras _ _).1 hc'
    exact hc q hq hqc

/-- **No control points, no alignment.** With compensation, GPS is not used to align: without a control point that is both
triangulated and measured nothing happens, whatever GPS says. -/
theorem C95_no_gcp (svd : Mat 3 → Svd 3) (eig : Mat 3 → Vec 3) (toVec : Mat 3 → Vec 3)
    (prior : ARec Id → List (Vec 3 × Vec 3) → Bool → Option (ℝ × Mat 3 × Vec 3)) (cfg : Cfg) (hm : cfg.method = "naive") (r : BRec Id)
    (gcp : List GPoint) (useGps : Bool)
    (hno : cfg.useGcp = false ∨ ∀ g ∈ gcp, g.triangulated = none ∨ g.measured = none) :
    alignRec svd eig toVec prior cfg true r gcp useGps true = (none, r) := by
  have hcon : constraints cfg r.a gcp false = [] := by
    rw [List.eq_nil_iff_forall_not_mem]
    rintro ⟨x, y⟩ h
    rw [C89_constraints] at h
    rcases h with ⟨h1, g, hg, x0, y0, h2, h3, -⟩ | ⟨h, -⟩
    · rcases hno with h | h
      · rw [h] at h1; exact absurd h1 (by simp)
      · rcases h g hg with h | h
        · rw [h] at h2; exact absurd h2 (by simp)
        · rw [h] at h3; exact absurd h3 (by simp)
    · exact absurd h (by simp)
  have hsim : similarity svd eig (prior r.a) cfg r.a gcp false (useScale r.a) = none := by
    unfold similarity
    simp only [hm, hcon]
    simp [naive]
  unfold alignRec
  rw [if_pos (by rfl)]
  unfold setGpsBias
  rw [hsim]

/-- **All or nothing.** If none of the rig instances of one camera has GPS, no camera gets a bias, though the reconstruction is
moved onto the control points. -/
theorem C95_all (svd : Mat 3 → Svd 3) (eig : Mat 3 → Vec 3) (toVec : Mat 3 → Vec 3)
    (prior : ARec Id → List (Vec 3 × Vec 3) → Bool → Option (ℝ × Mat 3 × Vec 3)) (cfg : Cfg) (hm : cfg.method = "naive") (r : BRec Id)
    (gcp : List GPoint) (useGps : Bool) (c : Id) (hc : ∃ q ∈ r.a.r.shots, r.camera q.1 = c)
    (hno : ∀ q ∈ r.a.r.shots, r.camera q.1 = c → ∀ q' ∈ r.a.r.shots, q'.2.1 = q.2.1 → r.a.gps q'.1 = none)
    (res : Option (ℝ × Mat 3 × Vec 3)) (r' : BRec Id) (h : alignRec svd eig toVec prior cfg true r gcp useGps true = (res, r')) :
    r'.biases = r.biases ∧
      ∀ s A b, res = some (s, A, b) → r'.a.r.points = r.a.r.points.map (fun e => (e.1, s • (A *ᵥ e.2) + b)) := by
  unfold alignRec at h
  rw [if_pos (by rfl)] at h
  unfold setGpsBias at h
  cases hsim : similarity svd eig (prior r.a) cfg r.a gcp false (useScale r.a) with
  | none =>
    rw [hsim] at h
    simp only [Prod.mk.injEq] at h
    obtain ⟨rfl, rfl⟩ := h
    exact ⟨rfl, by simp⟩
  | some x =>
    obtain ⟨s, A, b⟩ := x
    rw [hsim] at h
    simp only at h
    have hcon : constraints cfg (ofCamera (moved r s A b) c) [] true = [] := by
      rw [List.eq_nil_iff_forall_not_mem]
      rintro ⟨x, y⟩ hxy
      rw [C89_constraints] at hxy
      rcases hxy with ⟨-, g, hg, -⟩ | ⟨-, -, i, p, hip, -, l, rfl, hl, -⟩
      · simp at hg
      · apply hl
        rw [List.filterMap_eq_nil_iff]
        intro e he
        split
        · rename_i hei
          have hip' : (i, p) ∈ (applySimilarity r.a.r s A b).rigInstances.filter (fun e => decide (e.1 ∈
            (r.a.r.shots.filter (fun e => decide (r.camera e.1 = c))).map (fun e => e.2.1))) := hip
          have hi := of_decide_eq_true (List.mem_filter.1 hip').2
          obtain ⟨q, hq, hqi⟩ := List.mem_map.1 hi
          rw [List.mem_filter] at hq
          have he' : e ∈ r.a.r.shots := (List.mem_filter.1 he).1
          exact hno q hq.1 (of_decide_eq_true hq.2) e he' (hei.trans hqi.symm)
        · rfl
    have hnone : similarity svd eig (prior (ofCamera (moved r s A b) c)) cfg (ofCamera (moved r s A b) c) [] true (useScale r.a) = none := by
      unfold similarity
      simp only [hm, hcon]
      simp [naive]
    rw [if_pos] at h
    · simp only [Prod.mk.injEq] at h
      obtain ⟨rfl, rfl⟩ := h
      refine ⟨rfl, ?_⟩
      intro s' A' b' e
      simp only [Option.some.injEq, Prod.mk.injEq] at e
      obtain ⟨rfl, rfl, rfl⟩ := e
      rfl
    · rw [List.any_eq_true]
      refine ⟨_, List.mem_map.2 ⟨c, ?_, rfl⟩, ?_⟩
      · obtain ⟨q, hq, hqc⟩ := hc
        exact (mem_shotCameras (moved r s A b) c).2 ⟨q, hq, hqc⟩
      · have := hnone
        unfold moved at this
        rw [this]
        rfl

/-- Without compensation, or when it is not asked for, the biases stay as they are, and alignment is the one of C89. -/
theorem C95_off (svd : Mat 3 → Svd 3) (eig : Mat 3 → Vec 3) (toVec : Mat 3 → Vec 3)
    (prior : ARec Id → List (Vec 3 × Vec 3) → Bool → Option (ℝ × Mat 3 × Vec 3)) (cfg : Cfg) (r : BRec Id)
    (gcp : List GPoint) (useGps compensate over : Bool) (h : compensate = false ∨ over = false) :
    (alignRec svd eig toVec prior cfg compensate r gcp useGps over).2.biases = r.biases ∧
    (alignRec svd eig toVec prior cfg compensate r gcp useGps over).1 = (align svd eig (prior r.a) cfg r.a gcp useGps).1 ∧
    (alignRec svd eig toVec prior cfg compensate r gcp useGps over).2.a = (align svd eig (prior r.a) cfg r.a gcp useGps).2 := by
  unfold alignRec
  rw [if_neg (by rcases h with rfl | rfl <;> simp)]
  exact ⟨rfl, rfl, rfl⟩

/-! ### The residual -/

/-- The position prior holds exactly if the instance is where the bias sends the measured position. -/
theorem C95_residual (p : Pose ℝ) (position : Vec 3) (sd group : ℝ) (hg : 0 < group) (bias : Similarity ℝ) :
    priorResidual p position sd group bias = 0 ↔ p.getOrigin = bias.transform position := by
  have hm : (0 : ℝ) < max sd (1 / 2 ^ 52) := lt_of_lt_of_le (by positivity) (le_max_right _ _)
  unfold priorResidual
  rw [smul_eq_zero, sub_eq_zero, or_iff_right]
  positivity

/-- An accuracy of zero is taken for the machine precision: one metre away costs 2^52. -/
theorem C95_zero_accuracy (p : Pose ℝ) (position : Vec 3) (bias : Similarity ℝ) :
    priorResidual p position 0 1 bias = (2 ^ 52 : ℝ) • (p.getOrigin - bias.transform position) := by
  unfold priorResidual
  rw [max_eq_right (by positivity)]
  congr 1
  norm_num

/-- **The report agrees**: with a rig of one shot and one identical rig camera, the GPS error of the report is what the residual measures. -/
theorem C95_report (r : BRec Id) (s i c : Id) (p : Pose ℝ) (hp : Rigid p) (g : Vec 3) (b : Similarity ℝ)
    (hs : r.a.r.shots.get? s = some (i, c)) (hi : r.a.r.rigInstances.get? i = some p)
    (hc : r.a.r.rigCameras.get? c = some Pose.identity) (hg : r.a.gps s = some g) (hb : r.biases.get? (r.camera s) = some b)
    (sd group : ℝ) :
    ∃ e, gpsError r s = some e ∧ priorResidual p g sd group b = (1 / max sd (1 / 2 ^ 52) / group) • e := by
  have hpose : r.a.r.shotPose s = some ((Pose.identity : Pose ℝ).compose p) := by
    unfold Recon.shotPose
    rw [hs]
    simp only [hi, hc]
  have hid : (Pose.identity : Pose ℝ).compose p = p := by
    have := (Verif.Pose.C39_group p p p hp hp hp).2.2.1
    exact this
  refine ⟨p.getOrigin - b.transform g, ?_, rfl⟩
  unfold gpsError
  rw [hg, hpose, hb, hid]

/-! ### The bias after bundle adjustment -/

/-- **Stale inverse.** The bias that the bundle adjuster returns transforms with the new values, but its `inverse` is wrong: it
undoes the translation with the rotation the bias had before. -/
theorem C95_stale (toVec : Mat 3 → Vec 3) (hl : IsLog toVec) (old : Similarity ℝ) (ho : Rigid old.Rt) (w t : Vec 3) (s : ℝ) (hs : s ≠ 0) :
    (∀ x, (dataToValue old w t s).transform x = s • (vecToMat w *ᵥ x) + t) ∧
    (((dataToValue old w t s).inverse toVec vecToMat).transform ((dataToValue old w t s).transform 0) = 0 ↔
      (vecToMat w)ᵀ *ᵥ t = old.Rt.wcRᵀ *ᵥ t) := by
  have hR := vecToMat_rot w
  have h2 : vecToMat w * (vecToMat w)ᵀ = 1 := mul_eq_one_comm.1 hR.1
  refine ⟨?_, ?_⟩
  · intro x
    unfold dataToValue Similarity.transform Pose.setRotationMatrix Pose.setTranslation
    simp only [smul_mulVec]
  · have hT : IsRot (vecToMat w)ᵀ := ⟨by rw [transpose_transpose]; exact h2, by rw [det_transpose]; exact hR.2⟩
    have hinv : (old.Rt.wcR)⁻¹ = old.Rt.wcRᵀ := Matrix.inv_eq_right_inv ho.1
    have e : ((dataToValue old w t s).inverse toVec vecToMat).transform ((dataToValue old w t s).transform 0) =
        (1 / s) • ((vecToMat w)ᵀ *ᵥ t) - (1 / s) • (old.Rt.wcRᵀ *ᵥ t) := by
      unfold dataToValue Similarity.inverse Similarity.transform Similarity.mk' Pose.setRotationMatrix Pose.setTranslation
        Pose.ofWorldToCamera Pose.getOrigin
      simp only [mulVec_zero, zero_add, hl _ hT, hinv, smul_mulVec]
      rw [smul_neg, ← sub_eq_add_neg]
    rw [e, ← smul_sub, smul_eq_zero, or_iff_right (one_div_ne_zero hs), sub_eq_zero]

/-! ### Example -/

/-- Three rig instances of one shot each with GPS, and a bias of scale 2 and translation 3. -/
noncomputable def exRec : BRec ℕ :=
  ⟨⟨⟨[(7, ![1, 1, 1])], [(1, .ofWorldToCamera 1 ![0, 0, 0]), (2, .ofWorldToCamera 1 ![-1, 0, 0]), (3, .ofWorldToCamera 1 ![0, -1, 0])],
    [(1, .identity)], [(1, 1, 1), (2, 2, 1), (3, 3, 1)]⟩,
    fun i => if i = 1 then some ![3, 0, 10] else if i = 2 then some ![5, 0, 10] else some ![3, 2, 10]⟩, fun _ => 9, []⟩

def exGcp : List GPoint := [⟨some ![0, 0, 0], some ![0, 0, 5], true⟩, ⟨some ![1, 0, 0], some ![1, 0, 5], true⟩,
  ⟨some ![0, 1, 0], some ![0, 1, 5], true⟩]

theorem ofWC_rigid (v : Vec 3) : Rigid (Pose.ofWorldToCamera (1 : Mat 3) v) := by
  refine ⟨by simp [Orth, Pose.ofWorldToCamera], ?_, ?_⟩ <;> intro x <;>
    simp [Pose.transform, Pose.transformInverse, Pose.ofWorldToCamera]

theorem three_notLine : ¬ OnLine [![0, 0, 0], ![1, 0, 0], ![0, 1, 0]] := by
  rintro ⟨o, d, h⟩
  obtain ⟨a, ha⟩ := h ![0, 0, 0] (by simp)
  obtain ⟨b, hb⟩ := h ![1, 0, 0] (by simp)
  obtain ⟨c, hc⟩ := h ![0, 1, 0] (by simp)
  have a0 := congrFun ha 0
  have a1 := congrFun ha 1
  have b0 := congrFun hb 0
  have b1 := congrFun hb 1
  have c1 := congrFun hc 1
  simp at a0 a1 b0 b1 c1
  have e1 : (b - a) * d 0 = 1 := by linarith
  have e2 : (b - a) * d 1 = 0 := by linarith
  have e4 : (c - a) * d 1 = 1 := by linarith
  rcases mul_eq_zero.1 e2 with h | h
  · rw [h] at e1; simp at e1
  · rw [h] at e4; simp at e4

theorem mean_one (x : Vec 3) : mean [x] = x := by
  unfold mean
  simp

theorem exLocated : located exRec 9 = [(![0, 0, 0], ![3, 0, 10]), (![1, 0, 0], ![5, 0, 10]), (![0, 1, 0], ![3, 2, 10])] := by
  have g1 : gpsOfInstance exRec 1 = [![3, 0, 10]] := by simp [gpsOfInstance, exRec, List.filterMap_cons]
  have g2 : gpsOfInstance exRec 2 = [![5, 0, 10]] := by simp [gpsOfInstance, exRec, List.filterMap_cons]
  have g3 : gpsOfInstance exRec 3 = [![3, 2, 10]] := by simp [gpsOfInstance, exRec, List.filterMap_cons]
  unfold located
  have hI : exRec.a.r.rigInstances = [(1, .ofWorldToCamera 1 ![0, 0, 0]), (2, .ofWorldToCamera 1 ![-1, 0, 0]), (3, .ofWorldToCamera 1 ![0, -1, 0])] := rfl
  rw [hI]
  simp only [List.filterMap_cons, List.filterMap_nil]
  rw [if_pos ⟨⟨(1, 1, 1), by simp [exRec], rfl, rfl⟩, by rw [g1]; simp⟩, if_pos ⟨⟨(2, 2, 1), by simp [exRec], rfl, rfl⟩, by rw [g2]; simp⟩,
    if_pos ⟨⟨(3, 3, 1), by simp [exRec], rfl, rfl⟩, by rw [g3]; simp⟩, g1, g2, g3, mean_one, mean_one, mean_one]
  simp [Pose.getOrigin, Pose.ofWorldToCamera]

/-- Compensation finds the bias: scale 1/2 and translation back. -/
example (svd : Mat 3 → Svd 3) (hs : ∀ C, IsSvd C (svd C)) (eig : Mat 3 → Vec 3) (toVec : Mat 3 → Vec 3) (hl : IsLog toVec)
    (prior : ARec ℕ → List (Vec 3 × Vec 3) → Bool → Option (ℝ × Mat 3 × Vec 3)) :
    ∃ r', alignRec svd eig toVec prior ⟨"naive", true, true⟩ true exRec exGcp true true = (some (1, 1, ![0, 0, 5]), r') ∧
      r'.a.r.points.get? 7 = some ![1, 1, 6] ∧
      ∃ b, r'.biases.get? 9 = some b ∧ b.transform ![5, 0, 10] = ![1, 0, 5] := by
  have hc : constraints ⟨"naive", true, true⟩ exRec.a exGcp false
      = [(![0, 0, 0], ![0, 0, 5]), (![1, 0, 0], ![1, 0, 5]), (![0, 1, 0], ![0, 1, 5])] := by
    simp [constraints, gcpPair, exGcp]
  obtain ⟨r', h1, -, -, h2, h3, -⟩ := C95_exact svd hs eig toVec hl prior ⟨"naive", true, true⟩ rfl exRec exGcp true
    (by unfold Dict.Wf; simp [exRec, Dict.keys])
    (by
      intro e he
      simp only [exRec, List.mem_cons, List.not_mem_nil, or_false] at he
      rcases he with rfl | rfl | rfl <;> exact ofWC_rigid _)
    1 (by norm_num) 1 ⟨by simp, by simp⟩ ![0, 0, 5] (fun _ => (2, 1, ![3, 0, 0])) (fun _ => ⟨by norm_num, by simp, by simp⟩) (Or.inl rfl)
    (by
      rw [hc]
      intro p hp
      simp only [List.mem_cons, List.not_mem_nil, or_false] at hp
      rcases hp with rfl | rfl | rfl <;>
      · funext i
        fin_cases i <;> simp)
    (by rw [hc]; exact three_notLine)
    (by
      rw [hc]
      unfold spread
      apply Real.le_sqrt_of_sq_le
      simp [mean, dotProduct, Fin.sum_univ_three]
      norm_num)
    (by
      intro q _ p hp
      have hp' : p ∈ located exRec 9 := hp
      rw [exLocated] at hp'
      simp only [List.mem_cons, List.not_mem_nil, or_false] at hp'
      rcases hp' with rfl | rfl | rfl <;>
      · funext i
        fin_cases i <;> simp <;> norm_num)
    (by
      intro q _
      have e : located exRec (exRec.camera q.1) = located exRec 9 := rfl
      rw [e, exLocated]; exact three_notLine)
    (by
      intro q _
      have e : located exRec (exRec.camera q.1) = located exRec 9 := rfl
      rw [e, exLocated]
      unfold spread
      apply Real.le_sqrt_of_sq_le
      simp [mean, dotProduct, Fin.sum_univ_three]
      norm_num)
    (Or.inr (by
      intro i
      simp only [exRec, List.filter_cons, List.filter_nil]
      split
      · rename_i h; have := of_decide_eq_true h; subst this; simp
      · split
        · rename_i h; have := of_decide_eq_true h; subst this; simp
        · split <;> simp))
  refine ⟨r', h1, ?_, ?_⟩
  · rw [h2]
    have : exRec.a.r.points.get? 7 = some ![1, 1, 1] := rfl
    rw [this]
    simp only [Option.map_some, Option.some.injEq]
    funext i
    fin_cases i <;> simp <;> norm_num
  · obtain ⟨b, hb, hinv, -⟩ := h3 (2, 2, 1) (by simp [exRec])
    refine ⟨b, hb, ?_⟩
    rw [hinv]
    funext i
    fin_cases i <;> simp <;> norm_num

end Verif.GpsBias
