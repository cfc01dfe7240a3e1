import Verif.Model.TwoView
import Verif.Props.RelativePose
import Verif.Props.PlaneMotion

/-!
# C101 — The reconstruction of two views
-/
set_option linter.unusedSectionVars false
set_option linter.unusedSimpArgs false
set_option linter.unusedVariables false
namespace Verif.TwoView
open Verif.Triangulation hiding cross
open Verif.Depthmap Verif.RelativePose Matrix
open Verif.Superimpose (Svd IsRot IsSvd)
open Verif.PlaneMotion (Motion motions C100_sound motions_some)
open Verif.GpsBias (rot_cross rot_dot vecToMat IsLog)

/-! ### Specification -/

/-- The pair agrees with the pose `y = R x + t`: its rays are not nearly parallel and, seen from both cameras, the point halfway
between the rays where they are closest is at a chord below the threshold from the measured direction. -/
def Inlier (R : M3) (t : V3) (threshold : ℝ) (q : V3 × V3) : Prop :=
  Apart R q ∧ ∃ X x1 x2 : V3, pt x1 ∈ line ⟨0, q.1⟩ ∧ pt x2 ∈ line ⟨-(Rᵀ *ᵥ t), Rᵀ *ᵥ q.2⟩ ∧ X = (1 / 2 : ℝ) • (x1 + x2) ∧
    (∀ y1 y2 : V3, pt y1 ∈ line ⟨0, q.1⟩ → pt y2 ∈ line ⟨-(Rᵀ *ᵥ t), Rᵀ *ᵥ q.2⟩ → dist (pt x1) (pt x2) ≤ dist (pt y1) (pt y2)) ∧
    2 * Real.sin (InnerProductGeometry.angle (pt X) (pt q.1) / 2) < threshold ∧
    2 * Real.sin (InnerProductGeometry.angle (pt (R *ᵥ X + t)) (pt q.2) / 2) < threshold

/-- All pairs are of unit bearings. -/
def Unit (pairs : List (V3 × V3)) : Prop := ∀ q ∈ pairs, q.1 ⬝ᵥ q.1 = 1 ∧ q.2 ⬝ᵥ q.2 = 1

/-- The indices are those of the pairs that agree with the pose, in order. -/
def Listed (pairs : List (V3 × V3)) (R : M3) (t : V3) (threshold : ℝ) (l : List ℕ) : Prop :=
  l.Pairwise (· < ·) ∧ ∀ i, i ∈ l ↔ ∃ q, pairs[i]? = some q ∧ Inlier R t threshold q

/-! ### The angle of an inlier -/

theorem chord_sin {X b : V3} (hX : X ≠ 0) (hb : b ⬝ᵥ b = 1) :
    norm3 (normalized X - b) = 2 * Real.sin (InnerProductGeometry.angle (pt X) (pt b) / 2) := by
  have hu := norm3_unit hX
  have hc := normalized_cos X hb
  have hpos : 0 ≤ Real.sin (InnerProductGeometry.angle (pt X) (pt b) / 2) :=
    Real.sin_nonneg_of_nonneg_of_le_pi (by have := InnerProductGeometry.angle_nonneg (pt X) (pt b); linarith)
      (by have := InnerProductGeometry.angle_le_pi (pt X) (pt b); have := Real.pi_pos; linarith)
  unfold norm3 at hu ⊢
  have : (normalized X - b) ⬝ᵥ (normalized X - b) = (2 * Real.sin (InnerProductGeometry.angle (pt X) (pt b) / 2)) ^ 2 := by
    rw [sub_dotProduct, dotProduct_sub, dotProduct_sub, hb, dotProduct_comm b, hc]
    have e : Real.cos (InnerProductGeometry.angle (pt X) (pt b)) = 1 - 2 * Real.sin (InnerProductGeometry.angle (pt X) (pt b) / 2) ^ 2 := by
      have h1 := Real.cos_two_mul (InnerProductGeometry.angle (pt X) (pt b) / 2)
      rw [show 2 * (InnerProductGeometry.angle (pt X) (pt b) / 2) = InnerProductGeometry.angle (pt X) (pt b) by ring] at h1
      have h2 := Real.sin_sq_add_cos_sq (InnerProductGeometry.angle (pt X) (pt b) / 2)
      linarith
    rw [e]
    have hu' : normalized X ⬝ᵥ normalized X = 1 := hu
    rw [hu']; ring
  rw [this, Real.sqrt_sq (by linarith)]

theorem chord_iff {X b : V3} (hb : b ⬝ᵥ b = 1) {thr : ℝ} (ht : thr ≤ 1) :
    norm3 (normalized X - b) < thr ↔ 2 * Real.sin (InnerProductGeometry.angle (pt X) (pt b) / 2) < thr := by
  by_cases hX : X = 0
  · subst hX
    have e1 : norm3 (normalized 0 - b) = 1 := by unfold norm3 normalized; simp [hb]
    have e2 : InnerProductGeometry.angle (pt 0) (pt b) = Real.pi / 2 := by
      have : pt (0 : V3) = 0 := by ext i; simp [pt]
      rw [this, InnerProductGeometry.angle_zero_left]
    rw [e1, e2]
    constructor
    · intro h; linarith
    · intro h
      have e3 : Real.sin (Real.pi / 2 / 2) = Real.sqrt 2 / 2 := by
        rw [show Real.pi / 2 / 2 = Real.pi / 4 by ring, Real.sin_pi_div_four]
      rw [e3] at h
      have : (1 : ℝ) < Real.sqrt 2 := by rw [Real.lt_sqrt] <;> norm_num
      linarith
  · rw [chord_sin hX hb]

/-- The closest points of two rays that are not parallel are unique. -/
theorem closest_unique {r1 r2 : Ray} {X Y x1 x2 : V3} (h : twoMidpoint r1 r2 = some Y) (h1 : pt x1 ∈ line r1) (h2 : pt x2 ∈ line r2)
    (hX : X = (1 / 2 : ℝ) • (x1 + x2))
    (hc : ∀ y1 y2 : V3, pt y1 ∈ line r1 → pt y2 ∈ line r2 → dist (pt x1) (pt x2) ≤ dist (pt y1) (pt y2)) : X = Y := by
  obtain ⟨s, t, e1, e2, e3⟩ := two_system h
  obtain ⟨s', h4⟩ := h1
  obtain ⟨t', h5⟩ := h2
  have h4 : x1 = r1.c + s' • r1.b := WithLp.toLp_injective 2 h4
  have h5 : x2 = r2.c + t' • r2.b := WithLp.toLp_injective 2 h5
  have hle := hc (r1.c + s • r1.b) (r2.c + t • r2.b) ⟨s, rfl⟩ ⟨t, rfl⟩
  rw [dist_pt, dist_pt, h4, h5, Real.sqrt_le_sqrt_iff (dot_self_nonneg _)] at hle
  obtain ⟨d, hd⟩ : ∃ d, d = (r1.c + s • r1.b) - (r2.c + t • r2.b) := ⟨_, rfl⟩
  have e : (r1.c + s' • r1.b) - (r2.c + t' • r2.b) = d + ((s' - s) • r1.b - (t' - t) • r2.b) := by
    rw [hd, sub_smul, sub_smul]; abel
  rw [e, ← hd] at hle
  rw [← hd] at e2 e3
  have h0 : ((s' - s) • r1.b - (t' - t) • r2.b) ⬝ᵥ ((s' - s) • r1.b - (t' - t) • r2.b) ≤ 0 := by
    have e4 : d ⬝ᵥ ((s' - s) • r1.b - (t' - t) • r2.b) = 0 := by
      rw [dotProduct_sub, dotProduct_smul, dotProduct_smul, e2, e3]; simp
    rw [add_dotProduct, dotProduct_add, dotProduct_add, dotProduct_comm ((s' - s) • r1.b - (t' - t) • r2.b) d, e4] at hle
    linarith
  have hz := dot_self_zero.1 (le_antisymm h0 (dot_self_nonneg _))
  have hdet : ¬ |(r1.b ⬝ᵥ r1.b) * (r2.b ⬝ᵥ r2.b) - (r1.b ⬝ᵥ r2.b) ^ 2| < 1 / 10 ^ 10 := by
    rw [← two_none, h]; simp
  have hne : (r1.b ⬝ᵥ r1.b) * (r2.b ⬝ᵥ r2.b) - (r1.b ⬝ᵥ r2.b) ^ 2 ≠ 0 := by
    intro h0; rw [h0] at hdet; exact hdet (by norm_num)
  have f1 := congrArg (· ⬝ᵥ r1.b) hz
  have f2 := congrArg (· ⬝ᵥ r2.b) hz
  simp only [sub_dotProduct, smul_dotProduct, smul_eq_mul, zero_dotProduct] at f1 f2
  rw [dotProduct_comm r2.b r1.b] at f1
  have hs : s' - s = 0 := by
    have : (s' - s) * ((r1.b ⬝ᵥ r1.b) * (r2.b ⬝ᵥ r2.b) - (r1.b ⬝ᵥ r2.b) ^ 2) = 0 := by
      linear_combination (r2.b ⬝ᵥ r2.b) * f1 - (r1.b ⬝ᵥ r2.b) * f2
    exact (mul_eq_zero.1 this).resolve_right hne
  have ht : t' - t = 0 := by
    have : (t' - t) * ((r1.b ⬝ᵥ r1.b) * (r2.b ⬝ᵥ r2.b) - (r1.b ⬝ᵥ r2.b) ^ 2) = 0 := by
      linear_combination (r1.b ⬝ᵥ r2.b) * f1 - (r1.b ⬝ᵥ r1.b) * f2
    exact (mul_eq_zero.1 this).resolve_right hne
  rw [hX, e1, h4, h5, sub_eq_zero.1 hs, sub_eq_zero.1 ht]

theorem inlier_bool (R : M3) (t : V3) (hR : IsRot R) (q : V3 × V3) (h1 : q.1 ⬝ᵥ q.1 = 1) (h2 : q.2 ⬝ᵥ q.2 = 1) {thr : ℝ} (ht : thr ≤ 1) :
    inlierBearings q.1 q.2 Rᵀ (-(Rᵀ *ᵥ t)) thr = true ↔ Inlier R t thr q := by
  have hm : twoMany q.1 q.2 Rᵀ (-(Rᵀ *ᵥ t)) = point ⟨R, t⟩ q.1 q.2 := rfl
  have he : ∀ X : V3, Rᵀᵀ *ᵥ (X - -(Rᵀ *ᵥ t)) = R *ᵥ X + t := by
    intro X
    rw [transpose_transpose, sub_neg_eq_add, mulVec_add, mulVec_mulVec, mul_eq_one_comm.1 hR.1, one_mulVec]
  unfold inlierBearings
  rw [hm]
  constructor
  · intro h
    cases hX : point ⟨R, t⟩ q.1 q.2 with
    | none => rw [hX] at h; exact absurd h (by simp)
    | some X =>
      rw [hX] at h
      simp only [Bool.and_eq_true, decide_eq_true_eq, he] at h
      refine ⟨(point_isSome (p := ⟨R, t⟩) hR h1 h2).1 (by rw [hX]; rfl), ?_⟩
      obtain ⟨x1, x2, k1, k2, k3, k4⟩ := C85_two _ _ X hX
      exact ⟨X, x1, x2, k1, k2, k3, k4, (chord_iff h1 ht).1 h.1, (chord_iff h2 ht).1 h.2⟩
  · rintro ⟨ha, X, x1, x2, k1, k2, k3, k4, k5, k6⟩
    obtain ⟨Y, hY⟩ := Option.isSome_iff_exists.1 ((point_isSome (p := ⟨R, t⟩) hR h1 h2).2 ha)
    obtain ⟨y1, y2, l1, l2, l3, l4⟩ := C85_two _ _ Y hY
    have hXY : X = Y := by
      exact closest_unique hY k1 k2 k3 k4
    rw [hY]
    simp only [Bool.and_eq_true, decide_eq_true_eq, he]
    rw [← hXY]
    exact ⟨(chord_iff h1 ht).2 k5, (chord_iff h2 ht).2 k6⟩

theorem inverse_inverse {p : RT} (h : IsRot p.R) : inverse (inverse p) = p := by
  unfold inverse
  ext : 1
  · simp
  · simp only [transpose_transpose]
    rw [mulVec_neg, neg_neg, mulVec_mulVec, mul_eq_one_comm.1 h.1, one_mulVec]

theorem inverse_rot {p : RT} (h : IsRot p.R) : IsRot (inverse p).R := rot_transpose h

theorem inliers_listed {pairs : List (V3 × V3)} (hu : Unit pairs) {p : RT} (h : IsRot p.R) {thr : ℝ} (ht : thr ≤ 1) :
    Listed pairs (inverse p).R (inverse p).t thr (inliersOf pairs p thr) := by
  have hb : ∀ q ∈ pairs, inlierBearings q.1 q.2 p.R p.t thr = true ↔ Inlier (inverse p).R (inverse p).t thr q := by
    intro q hq
    have := inlier_bool (inverse p).R (inverse p).t (inverse_rot h) q (hu q hq).1 (hu q hq).2 ht
    rw [← this]
    have e := inverse_inverse h
    have e1 : (inverse p).Rᵀ = p.R := transpose_transpose _
    have e2 : -((inverse p).Rᵀ *ᵥ (inverse p).t) = p.t := congrArg RT.t e
    rw [e2, e1]
  unfold inliersOf
  constructor
  · rw [List.pairwise_map]
    apply List.Pairwise.filter
    have := List.pairwise_lt_range' (s := 0) (n := pairs.length)
    have e : (pairs.zipIdx).map (·.2) = List.range' 0 pairs.length := by simp
    rw [← e, List.pairwise_map] at this
    exact this
  · intro i
    simp only [List.mem_map, List.mem_filter]
    constructor
    · rintro ⟨⟨q, j⟩, ⟨h1, h2⟩, rfl⟩
      have := List.mem_zipIdx_iff_getElem?.1 h1
      simp only at this h2 ⊢
      exact ⟨q, this, (hb q (List.mem_of_getElem? this)).1 h2⟩
    · rintro ⟨q, h1, h2⟩
      exact ⟨(q, i), ⟨List.mem_zipIdx_iff_getElem?.2 h1, (hb q (List.mem_of_getElem? h1)).2 h2⟩, rfl⟩

theorem refinement_rot (toVec : M3 → V3) (solve : (Params → List ℝ) → Params → Params) (p : RT) (picked : List (V3 × V3)) :
    IsRot (refinement toVec solve p picked).R := GpsBias.vecToMat_rot _

theorem optimize_rot (env : Env) (pairs : List (V3 × V3)) (p : RT) : IsRot (optimize env pairs p).R :=
  inverse_rot (refinement_rot _ _ _ _)

theorem answer_listed {env : Env} (hl : IsLog env.rodrigues) {pairs : List (V3 × V3)} (hu : Unit pairs) {p : RT} (h : IsRot p.R) {thr : ℝ}
    (ht : thr ≤ 1) : Listed pairs (vecToMat (answer env p (inliersOf pairs p thr)).r) (answer env p (inliersOf pairs p thr)).t thr
      (answer env p (inliersOf pairs p thr)).inliers := by
  have := inliers_listed hu h ht
  unfold answer
  simp only
  rw [hl _ (rot_transpose h)]
  exact this

/-! ### Consistency -/

/-- The pose the refinement starts from. -/
noncomputable def start (p : RT) (transposed : Bool) : RT := if transposed then inverse p else p

theorem start_rot {p : RT} (hp : IsRot p.R) (transposed : Bool) : IsRot (start p transposed).R := by
  cases transposed
  · exact hp
  · exact inverse_rot hp

theorem refined_few {env : Env} {pairs : List (V3 × V3)} {p : RT} {thr : ℝ} {tr : Bool} (h : ¬ (inliersOf pairs (start p tr) thr).length > 5) :
    refined env pairs p thr tr = answer env (start p tr) (inliersOf pairs (start p tr) thr) := if_neg h

theorem refined_many {env : Env} {pairs : List (V3 × V3)} {p : RT} {thr : ℝ} {tr : Bool} (h : (inliersOf pairs (start p tr) thr).length > 5) :
    refined env pairs p thr tr = answer env (optimize env (selected pairs (inliersOf pairs (start p tr) thr)) (start p tr))
      (inliersOf pairs (optimize env (selected pairs (inliersOf pairs (start p tr) thr)) (start p tr)) thr) := if_pos h

theorem refined_pose (env : Env) (pairs : List (V3 × V3)) (p : RT) (hp : IsRot p.R) (thr : ℝ) (tr : Bool) :
    ∃ c : RT, IsRot c.R ∧ refined env pairs p thr tr = answer env c (inliersOf pairs c thr) := by
  by_cases h : (inliersOf pairs (start p tr) thr).length > 5
  · exact ⟨_, optimize_rot _ _ _, refined_many h⟩
  · exact ⟨_, start_rot hp tr, refined_few h⟩

/-- The inliers returned with a pose are those of that pose: of the refined pose, not of the one the refinement started from. -/
theorem C101_refined (env : Env) (hl : IsLog env.rodrigues) (pairs : List (V3 × V3)) (hu : Unit pairs) (p : RT) (hp : IsRot p.R)
    (thr : ℝ) (ht : thr ≤ 1) (transposed : Bool) :
    Listed pairs (vecToMat (refined env pairs p thr transposed).r) (refined env pairs p thr transposed).t thr
      (refined env pairs p thr transposed).inliers := by
  obtain ⟨c, hc, e⟩ := refined_pose env pairs p hp thr transposed
  rw [e]
  exact answer_listed hl hu hc ht

theorem choose_mem {ratio : ℝ} {l : List Result} {a : Result} (h : choose ratio l = some a) : a ∈ l := by
  unfold choose at h
  split at h
  · simp_all
  · split at h
    · exact absurd h (by simp)
    · split at h <;> simp_all
  · exact absurd h (by simp)

theorem five_mem {env : Env} {pairs : List (V3 × V3)} {p : RT} {thr ratio : ℝ} {check : Bool} {a : Result}
    (h : fivePoint env pairs p thr check ratio = some a) :
    5 < a.inliers.length ∧ ∃ tr : Bool, (tr = true → check = true) ∧ a = refined env pairs p thr tr := by
  have := choose_mem h
  rw [List.mem_filter, List.mem_map] at this
  obtain ⟨⟨tr, h1, rfl⟩, h2⟩ := this
  refine ⟨by simpa using h2, tr, ?_, rfl⟩
  intro htr
  subst htr
  cases check
  · simp at h1
  · rfl

theorem planeBased_some {env : Env} {pairs : List (V3 × V3)} {thr : ℝ} {a : Result} (h : planeBased env pairs thr = some (some a)) :
    ∃ H m l, env.homography thr (pairs.map (fun q => (euclidean q.1, euclidean q.2))) = some H ∧ motions env.svd H = some (m :: l) ∧
      a = ofMotion env pairs thr m := by
  unfold planeBased at h
  split at h
  · exact absurd h (by simp)
  · rename_i H hH
    split at h
    · exact absurd h (by simp)
    · rename_i l hl
      cases l with
      | nil => simp at h
      | cons m l =>
        simp at h
        exact ⟨H, m, l, hH, hl, h.symm⟩

theorem motion_listed {env : Env} (hl : IsLog env.rodrigues) {pairs : List (V3 × V3)} (hu : Unit pairs) {m : Motion} (h : IsRot m.R) {thr : ℝ}
    (ht : thr ≤ 1) : Listed pairs m.R m.t thr (ofMotion env pairs thr m).inliers := by
  have := inliers_listed hu (inverse_rot (p := ⟨m.R, m.t⟩) h) ht
  rw [inverse_inverse h] at this
  exact this

/-- Whatever method wins, the returned inliers are the pairs that agree with the returned pose. -/
theorem C101_listed (env : Env) (hl : IsLog env.rodrigues) (hs : ∀ H, IsSvd H (env.svd H)) (pairs : List (V3 × V3)) (hu : Unit pairs)
    (thr : ℝ) (ht : thr ≤ 1) (hr : IsRot (env.ransac thr pairs).R)
    (hH : ∀ pts H, env.homography thr pts = some H → (env.svd H).s 1 ≠ 0)
    (check : Bool) (ratio : ℝ) (a : Result) (m : Method) (n5 np : ℕ) (h : general env pairs thr check ratio = some (some a, m, n5, np)) :
    Listed pairs (vecToMat a.r) a.t thr a.inliers ∧ (m = .fivePoint ∧ n5 = a.inliers.length ∧ np < n5 ∧ 5 < n5 ∨ m = .plane ∧ np = a.inliers.length ∧ (n5 ≤ np ∨ n5 = 0)) := by
  unfold general at h
  simp only at h
  split at h
  · exact absurd h (by simp)
  · rename_i plane hp
    simp only [Option.some.injEq, Prod.mk.injEq] at h
    obtain ⟨h1, h2, h3, h4⟩ := h
    unfold decideMethod at h1 h2
    split at h1
    · rename_i hc
      rw [if_pos hc] at h2
      simp only at h1 h2
      have := five_mem h1
      obtain ⟨k1, tr, -, k2⟩ := this
      rw [h1] at h3
      have h3' : a.inliers.length = n5 := h3
      refine ⟨?_, Or.inl ⟨h2.symm, h3'.symm, ?_, by omega⟩⟩
      · rw [k2]; exact C101_refined env hl pairs hu _ (inverse_rot hr) thr ht tr
      · have := hc.2
        rw [h1] at this
        have : count plane < a.inliers.length := this
        omega
    · rename_i hc
      rw [if_neg hc] at h2
      split at h1
      · rename_i hc2
        rw [if_pos hc2] at h2
        simp only at h1 h2
        subst h1
        obtain ⟨H, mo, l, e1, e2, e3⟩ := planeBased_some hp
        have e := C100_sound env.svd H (hs H) (hH _ _ e1) _ e2 mo (by simp)
        have e4 : vecToMat a.r = mo.R := by rw [e3]; exact hl _ e.1
        have e5 : a.t = mo.t := by rw [e3]; rfl
        have h4' : a.inliers.length = np := h4
        refine ⟨?_, Or.inr ⟨h2.symm, h4'.symm, ?_⟩⟩
        · rw [e4, e5, e3]; exact motion_listed hl hu e.1 ht
        · cases hf : fivePoint env pairs (relativePoseRansac env thr pairs) thr check ratio with
          | none => right; rw [← h3, hf]; rfl
          | some b =>
            left
            rw [hf] at h3 hc
            simp only [Option.isSome_some, true_and, not_lt] at hc
            rw [← h3, ← h4]; omega
      · simp at h1

/-! ### Exact bearings -/

theorem seen_inlier {R : M3} {t : V3} (hR : IsRot R) {q : V3 × V3} (hs : Seen R t q) (ha : Apart R q) {thr : ℝ} (h0 : 0 < thr)
    (ht : thr ≤ 1) : Inlier R t thr q := by
  obtain ⟨h1, h2, d1, d2, hd1, hd2, e⟩ := hs
  rw [← inlier_bool R t hR q h1 h2 ht]
  refine C85_inliers_complete q.1 q.2 Rᵀ (-(Rᵀ *ᵥ t)) ?_ h1 h2 (d1 • q.1) d1 d2 hd1 hd2 rfl ?_ ha thr h0
  · rw [transpose_transpose]; exact hR.1
  · rw [transpose_transpose, sub_neg_eq_add, mulVec_add, mulVec_mulVec, mul_eq_one_comm.1 hR.1, one_mulVec, e]

theorem mem_selected {pairs : List (V3 × V3)} {l : List ℕ} {q : V3 × V3} : q ∈ selected pairs l ↔ ∃ i ∈ l, pairs[i]? = some q := by
  unfold selected
  rw [List.mem_filterMap]

/-- What is assumed of the solver and the draws: a solution is kept, and the pairs are drawn from the given ones. -/
structure Sound (env : Env) : Prop where
  log : IsLog env.toVec
  rodrigues : IsLog env.rodrigues
  stays : ∀ f s, (∀ z ∈ f s, z = 0) → env.solve f s = s
  draws : ∀ l, ∀ q ∈ env.draw l, q ∈ l

theorem optimize_exact {env : Env} (he : Sound env) {R : M3} {t : V3} (hR : IsRot R) (ht : t ⬝ᵥ t = 1) {l : List (V3 × V3)}
    (hs : ∀ q ∈ l, Seen R t q ∧ Apart R q) : optimize env l (inverse ⟨R, t⟩) = inverse ⟨R, t⟩ := by
  unfold optimize
  rw [inverse_inverse (p := ⟨R, t⟩) hR,
    C98_refine_start env.toVec he.log ⟨R, t⟩ hR (env.draw l) env.solve he.stays ht (fun q hq => hs q (he.draws l q hq))]

theorem refined_exact {env : Env} (he : Sound env) {R : M3} {t : V3} (hR : IsRot R) (ht : t ⬝ᵥ t = 1) {pairs : List (V3 × V3)} (hu : Unit pairs)
    {thr : ℝ} (h1 : thr ≤ 1) (hs : ∀ q ∈ pairs, (Seen R t q ∧ Apart R q) ∨ ¬ Inlier R t thr q) {p : RT} {tr : Bool} (hp : start p tr = inverse ⟨R, t⟩) :
    refined env pairs p thr tr = answer env (inverse ⟨R, t⟩) (inliersOf pairs (inverse ⟨R, t⟩) thr) := by
  by_cases h : (inliersOf pairs (start p tr) thr).length > 5
  · rw [refined_many h, hp, optimize_exact he hR ht]
    intro q hq
    obtain ⟨i, hi, hq⟩ := mem_selected.1 hq
    have := inliers_listed hu (inverse_rot (p := ⟨R, t⟩) hR) h1
    rw [inverse_inverse (p := ⟨R, t⟩) hR] at this
    obtain ⟨q', h2, h3⟩ := (this.2 i).1 hi
    rw [hq] at h2
    obtain rfl := Option.some.inj h2
    exact (hs q (List.mem_of_getElem? hq)).resolve_right (fun hn => hn h3)
  · rw [refined_few h, hp]

/-- From the true pose, the refinement returns the true pose whatever the wrong pairs, as long as they do not agree with it by
chance: given from the second camera to the first, or from the first to the second and transposed. -/
theorem C101_refined_exact (env : Env) (he : Sound env) (R : M3) (t : V3) (hR : IsRot R) (ht : t ⬝ᵥ t = 1) (pairs : List (V3 × V3))
    (hu : Unit pairs) (thr : ℝ) (h1 : thr ≤ 1) (hs : ∀ q ∈ pairs, (Seen R t q ∧ Apart R q) ∨ ¬ Inlier R t thr q) :
    vecToMat (refined env pairs ⟨Rᵀ, -(Rᵀ *ᵥ t)⟩ thr false).r = R ∧ (refined env pairs ⟨Rᵀ, -(Rᵀ *ᵥ t)⟩ thr false).t = t ∧
    vecToMat (refined env pairs ⟨R, t⟩ thr true).r = R ∧ (refined env pairs ⟨R, t⟩ thr true).t = t := by
  have key : ∀ l, vecToMat (answer env (inverse ⟨R, t⟩) l).r = R ∧ (answer env (inverse ⟨R, t⟩) l).t = t := by
    intro l
    have e := inverse_inverse (p := ⟨R, t⟩) hR
    constructor
    · unfold answer
      simp only
      rw [he.rodrigues _ (rot_transpose (inverse_rot (p := ⟨R, t⟩) hR))]
      exact transpose_transpose _
    · exact congrArg RT.t e
  rw [refined_exact he hR ht hu h1 hs (p := ⟨Rᵀ, -(Rᵀ *ᵥ t)⟩) (tr := false) rfl, refined_exact he hR ht hu h1 hs (p := ⟨R, t⟩) (tr := true) rfl]
  exact ⟨(key _).1, (key _).2, (key _).1, (key _).2⟩

theorem five_unchecked (env : Env) (pairs : List (V3 × V3)) (p : RT) (thr ratio : ℝ) :
    fivePoint env pairs p thr false ratio =
      if 5 < (refined env pairs p thr false).inliers.length then some (refined env pairs p thr false) else none := by
  unfold fivePoint
  simp only [Bool.false_eq_true, if_false, List.map_cons, List.map_nil, List.filter_cons, List.filter_nil]
  by_cases h : 5 < (refined env pairs p thr false).inliers.length
  · rw [if_pos (by simpa using h), if_pos h]; rfl
  · rw [if_neg (by simpa using h), if_neg h]; rfl

theorem five_checked (env : Env) (pairs : List (V3 × V3)) (p : RT) (thr ratio : ℝ) :
    fivePoint env pairs p thr true ratio =
      if 5 < (refined env pairs p thr false).inliers.length then
        if 5 < (refined env pairs p thr true).inliers.length then choose ratio [refined env pairs p thr false, refined env pairs p thr true]
        else some (refined env pairs p thr false)
      else if 5 < (refined env pairs p thr true).inliers.length then some (refined env pairs p thr true) else none := by
  unfold fivePoint
  simp only [if_true, List.map_cons, List.map_nil, List.filter_cons, List.filter_nil]
  by_cases h : 5 < (refined env pairs p thr false).inliers.length <;> by_cases h' : 5 < (refined env pairs p thr true).inliers.length
  · rw [if_pos (by simpa using h), if_pos (by simpa using h'), if_pos h, if_pos h']
  · rw [if_pos (by simpa using h), if_neg (by simpa using h'), if_pos h, if_neg h']; rfl
  · rw [if_neg (by simpa using h), if_pos (by simpa using h'), if_neg h, if_pos h']; rfl
  · rw [if_neg (by simpa using h), if_neg (by simpa using h'), if_neg h, if_neg h']; rfl

/-- Without the check of the reversed pose, the answer is the refined pose if it has more than five inliers. -/
theorem C101_unchecked (env : Env) (pairs : List (V3 × V3)) (p : RT) (thr ratio : ℝ) (x : Option Result) :
    fivePoint env pairs p thr false ratio = x ↔
      (5 < (refined env pairs p thr false).inliers.length ∧ x = some (refined env pairs p thr false)) ∨
      ((refined env pairs p thr false).inliers.length ≤ 5 ∧ x = none) := by
  rw [five_unchecked]
  by_cases h : 5 < (refined env pairs p thr false).inliers.length
  · rw [if_pos h]
    constructor
    · intro e; exact Or.inl ⟨h, e.symm⟩
    · rintro (⟨-, e⟩ | ⟨h', -⟩)
      · exact e.symm
      · omega
  · rw [if_neg h]
    constructor
    · intro e; exact Or.inr ⟨by omega, e.symm⟩
    · rintro (⟨h', -⟩ | ⟨-, e⟩)
      · exact absurd h' h
      · exact e.symm

/-- The choice between a pose and its reverse. `a` and `b` are the results of the two. With equal counts the reverse is taken. -/
theorem C101_choice (env : Env) (pairs : List (V3 × V3)) (p : RT) (thr ratio : ℝ) (a b : Result)
    (ha : a = refined env pairs p thr false) (hb : b = refined env pairs p thr true) :
    (fivePoint env pairs p thr true ratio = none ↔ (a.inliers.length ≤ 5 ∧ b.inliers.length ≤ 5) ∨
      (5 < a.inliers.length ∧ 5 < b.inliers.length ∧ a.inliers.length > ratio * b.inliers.length ∧ b.inliers.length > ratio * a.inliers.length)) ∧
    (fivePoint env pairs p thr true ratio ≠ none → b.inliers.length < a.inliers.length → fivePoint env pairs p thr true ratio = some a) ∧
    (fivePoint env pairs p thr true ratio ≠ none → a.inliers.length ≤ b.inliers.length → fivePoint env pairs p thr true ratio = some b) := by
  rw [five_checked, ← ha, ← hb]
  by_cases h : 5 < a.inliers.length <;> by_cases h' : 5 < b.inliers.length
  · rw [if_pos h, if_pos h']
    unfold choose
    have pa : (0 : ℝ) < a.inliers.length := by exact_mod_cast (by omega : 0 < a.inliers.length)
    have pb : (0 : ℝ) < b.inliers.length := by exact_mod_cast (by omega : 0 < b.inliers.length)
    have key : (min a.inliers.length b.inliers.length : ℝ) / (max a.inliers.length b.inliers.length : ℝ) > ratio ↔
        (a.inliers.length > ratio * b.inliers.length ∧ b.inliers.length > ratio * a.inliers.length) := by
      rw [gt_iff_lt, lt_div_iff₀ (lt_max_of_lt_left pa)]
      rcases le_total (a.inliers.length : ℝ) b.inliers.length with hab | hab
      · rw [min_eq_left hab, max_eq_right hab]
        refine ⟨fun h1 => ⟨h1, ?_⟩, fun h1 => h1.1⟩
        rcases le_or_gt 0 ratio with h0 | h0 <;> nlinarith
      · rw [min_eq_right hab, max_eq_left hab]
        refine ⟨fun h1 => ⟨?_, h1⟩, fun h1 => h1.2⟩
        rcases le_or_gt 0 ratio with h0 | h0 <;> nlinarith
    simp only
    by_cases hr : (min a.inliers.length b.inliers.length : ℝ) / (max a.inliers.length b.inliers.length : ℝ) > ratio
    · rw [if_pos hr]
      refine ⟨⟨fun _ => Or.inr ⟨h, h', key.1 hr⟩, fun _ => rfl⟩, fun hn => absurd rfl hn, fun hn => absurd rfl hn⟩
    · rw [if_neg hr]
      by_cases hab : a.inliers.length > b.inliers.length
      · rw [if_pos hab]
        refine ⟨⟨fun hn => absurd hn (by simp), ?_⟩, fun _ _ => rfl, fun _ hn => absurd hn (by omega)⟩
        rintro (⟨h1, -⟩ | ⟨-, -, h1⟩)
        · omega
        · exact absurd (key.2 h1) hr
      · rw [if_neg hab]
        refine ⟨⟨fun hn => absurd hn (by simp), ?_⟩, fun _ hn => absurd hn (by omega), fun _ _ => rfl⟩
        rintro (⟨h1, -⟩ | ⟨-, -, h1⟩)
        · omega
        · exact absurd (key.2 h1) hr
  · rw [if_pos h, if_neg h']
    refine ⟨⟨fun hn => absurd hn (by simp), ?_⟩, fun _ _ => rfl, fun _ hn => by omega⟩
    rintro (⟨h1, -⟩ | ⟨-, h1, -⟩) <;> omega
  · rw [if_neg h, if_pos h']
    refine ⟨⟨fun hn => absurd hn (by simp), ?_⟩, fun _ hn => by omega, fun _ _ => rfl⟩
    rintro (⟨-, h1⟩ | ⟨h1, -⟩) <;> omega
  · rw [if_neg h, if_neg h']
    refine ⟨⟨fun _ => Or.inl ⟨by omega, by omega⟩, fun _ => rfl⟩, fun hn => absurd rfl hn, fun hn => absurd rfl hn⟩

/-- With the ratio of one the ambiguity is never reported. -/
theorem C101_never_refused (env : Env) (pairs : List (V3 × V3)) (p : RT) (thr ratio : ℝ) (hr : 1 ≤ ratio)
    (h : 5 < (refined env pairs p thr false).inliers.length ∨ 5 < (refined env pairs p thr true).inliers.length) :
    fivePoint env pairs p thr true ratio ≠ none := by
  intro hn
  rcases ((C101_choice env pairs p thr ratio _ _ rfl rfl).1.1 hn) with ⟨h1, h2⟩ | ⟨h1, h2, h3, h4⟩
  · omega
  · have pa : (0 : ℝ) < (refined env pairs p thr false).inliers.length := by exact_mod_cast (by omega : 0 < (refined env pairs p thr false).inliers.length)
    have pb : (0 : ℝ) < (refined env pairs p thr true).inliers.length := by exact_mod_cast (by omega : 0 < (refined env pairs p thr true).inliers.length)
    nlinarith

/-- The whole function on exact pairs and wrong ones that do not agree with the pose, when the robust estimation finds the pose:
the true pose is returned, unless the plane has at least as many inliers. -/
theorem C101_exact (env : Env) (he : Sound env) (hs : ∀ H, IsSvd H (env.svd H)) (R : M3) (t : V3) (hR : IsRot R) (ht : t ⬝ᵥ t = 1)
    (pairs : List (V3 × V3)) (hu : Unit pairs) (thr : ℝ) (h1 : thr ≤ 1)
    (hp : ∀ q ∈ pairs, (Seen R t q ∧ Apart R q) ∨ ¬ Inlier R t thr q)
    (good : List ℕ) (hg : Listed pairs R t thr good) (h5 : 5 < good.length) (hr : env.ransac thr pairs = ⟨R, t⟩) (ratio : ℝ) (H : M3)
    (hH : env.homography thr (pairs.map (fun q => ((q.1 0 / q.1 2, q.1 1 / q.1 2), (q.2 0 / q.2 2, q.2 1 / q.2 2)))) = some H) :
    ∃ (a : Result) (m : Method) (np : ℕ), general env pairs thr false ratio = some (some a, m, good.length, np) ∧
      ((m = .fivePoint ∧ np < good.length ∧ vecToMat a.r = R ∧ a.t = t ∧ a.inliers = good) ∨ (m = .plane ∧ good.length ≤ np ∧ a.inliers.length = np)) := by
  obtain ⟨e1, e2, -, -⟩ := C101_refined_exact env he R t hR ht pairs hu thr h1 hp
  have e3 := C101_refined env he.rodrigues pairs hu ⟨Rᵀ, -(Rᵀ *ᵥ t)⟩ (rot_transpose hR) thr h1 false
  obtain ⟨a, hadef⟩ : ∃ a, a = refined env pairs ⟨Rᵀ, -(Rᵀ *ᵥ t)⟩ thr false := ⟨_, rfl⟩
  rw [← hadef] at e1 e2 e3
  rw [e1, e2] at e3
  have e4 : a.inliers = good := by
    apply List.Perm.eq_of_pairwise (le := (· < ·))
    · intro x y _ _ h1 h2; omega
    · exact e3.1
    · exact hg.1
    · rw [List.perm_ext_iff_of_nodup (e3.1.imp (fun h => by omega)) (hg.1.imp (fun h => by omega))]
      intro i; rw [e3.2, hg.2]
  have hf : fivePoint env pairs (relativePoseRansac env thr pairs) thr false ratio = some a := by
    unfold relativePoseRansac
    rw [hr, five_unchecked]
    show (if 5 < (refined env pairs ⟨Rᵀ, -(Rᵀ *ᵥ t)⟩ thr false).inliers.length then some (refined env pairs ⟨Rᵀ, -(Rᵀ *ᵥ t)⟩ thr false) else none) = some a
    rw [← hadef, e4, if_pos h5]
  have hpl : ∃ plane, planeBased env pairs thr = some plane := by
    unfold planeBased
    unfold euclidean
    rw [hH]
    simp only
    split
    · exact ⟨_, rfl⟩
    · exact ⟨_, rfl⟩
  obtain ⟨plane, hpl⟩ := hpl
  unfold general
  simp only
  rw [hf, hpl]
  simp only
  have hc5 : count (some a) = good.length := by unfold count; simp only; rw [e4]
  by_cases hc : count (some a) > count plane
  · refine ⟨a, .fivePoint, count plane, ?_, Or.inl ⟨rfl, by omega, e1, e2, e4⟩⟩
    unfold decideMethod
    rw [if_pos ⟨rfl, hc⟩, hc5]
  · cases plane with
    | none =>
      exfalso; apply hc
      rw [hc5]; show 0 < _; omega
    | some b =>
      refine ⟨b, .plane, count (some b), ?_, Or.inr ⟨rfl, by omega, rfl⟩⟩
      unfold decideMethod
      rw [if_neg (fun h => hc h.2), if_pos (show (some b).isSome = true from rfl), hc5]

/-! ### The plane -/

/-- Only the first of the eight motions of the homography is ever returned, however many pairs agree with the others. -/
theorem C101_plane_first (env : Env) (hl : IsLog env.rodrigues) (hs : ∀ H, IsSvd H (env.svd H)) (pairs : List (V3 × V3)) (hu : Unit pairs)
    (thr : ℝ) (h1 : thr ≤ 1) (hH : ∀ pts H, env.homography thr pts = some H → (env.svd H).s 1 ≠ 0) (a : Result)
    (h : planeBased env pairs thr = some (some a)) :
    ∃ H m l, env.homography thr (pairs.map (fun q => ((q.1 0 / q.1 2, q.1 1 / q.1 2), (q.2 0 / q.2 2, q.2 1 / q.2 2)))) = some H ∧
      motions env.svd H = some (m :: l) ∧ vecToMat a.r = m.R ∧ a.t = m.t ∧ Listed pairs m.R m.t thr a.inliers := by
  obtain ⟨H, m, l, e1, e2, e3⟩ := planeBased_some h
  have e := C100_sound env.svd H (hs H) (hH _ _ e1) _ e2 m (by simp)
  refine ⟨H, m, l, e1, e2, ?_, ?_, ?_⟩
  · rw [e3]; exact hl _ e.1
  · rw [e3]; rfl
  · rw [e3]; exact motion_listed hl hu e.1 h1

/-- When the pose from five points has failed, the pose of the plane is returned whatever its inliers; without a homography the
function raises, even if the five points gave a pose. -/
theorem C101_plane_any (env : Env) (pairs : List (V3 × V3)) (thr : ℝ) (check : Bool) (ratio : ℝ) :
    (planeBased env pairs thr = none → general env pairs thr check ratio = none) ∧
    (∀ b, planeBased env pairs thr = some (some b) →
      fivePoint env pairs (relativePoseRansac env thr pairs) thr check ratio = none →
      general env pairs thr check ratio = some (some b, .plane, 0, b.inliers.length)) ∧
    (planeBased env pairs thr = none ↔ env.homography thr (pairs.map (fun q => ((q.1 0 / q.1 2, q.1 1 / q.1 2), (q.2 0 / q.2 2, q.2 1 / q.2 2)))) = none) := by
  refine ⟨?_, ?_, ?_⟩
  · intro h
    unfold general
    simp only
    rw [h]
  · intro b h h'
    unfold general
    simp only
    rw [h, h']
    rfl
  · unfold planeBased euclidean
    constructor
    · intro h
      split at h
      · assumption
      · split at h <;> exact absurd h (by simp)
    · intro h
      rw [h]

/-- Pairs exact for a pose never agree with the pose of the opposite translation. -/
theorem C101_reversed (R : M3) (t : V3) (hR : IsRot R) (q : V3 × V3) (hs : Seen R t q) (thr : ℝ) (h1 : thr ≤ 1) : ¬ Inlier R (-t) thr q := by
  obtain ⟨hx, hy, d1, d2, hd1, hd2, e⟩ := hs
  intro h
  rw [← inlier_bool R (-t) hR q hx hy h1] at h
  obtain ⟨X, hX, hf, -⟩ := C85_inliers_front q.1 q.2 _ _ hx hy thr h1 h
  have e' : R *ᵥ ((-d1) • q.1) + -t = (-d2) • q.2 := by
    rw [neg_smul, neg_smul, ← e, mulVec_neg]; abel
  have := (pairScore_meet (p := ⟨R, -t⟩) hR hx hy (neg_ne_zero.2 hd1.ne') (neg_ne_zero.2 hd2.ne') e' hX).1
  rw [this, smul_dotProduct, hx] at hf
  simp at hf
  linarith

theorem norm_pos {X : V3} (h : 0 < X ⬝ᵥ X) : 0 < norm3 X := Real.sqrt_pos.2 h

theorem norm_mul {X : V3} (h : 0 < X ⬝ᵥ X) : norm3 X * norm3 X = X ⬝ᵥ X := Real.mul_self_sqrt h.le

theorem normalized_unit' {X : V3} (h : 0 < X ⬝ᵥ X) : normalized X ⬝ᵥ normalized X = 1 := by
  unfold normalized
  rw [smul_dotProduct, dotProduct_smul, ← norm_mul h]
  have := (norm_pos h).ne'
  simp only [smul_eq_mul]
  field_simp

theorem norm_normalized {X : V3} (h : 0 < X ⬝ᵥ X) : norm3 X • normalized X = X := by
  unfold normalized
  rw [smul_smul, mul_one_div_cancel (norm_pos h).ne', one_smul]

/-- A point seen by both cameras. -/
theorem seen_of {R : M3} {t X Y : V3} (hX : 0 < X ⬝ᵥ X) (hY : 0 < Y ⬝ᵥ Y) (h : R *ᵥ X + t = Y) : Seen R t (normalized X, normalized Y) := by
  refine ⟨normalized_unit' hX, normalized_unit' hY, norm3 X, norm3 Y, norm_pos hX, norm_pos hY, ?_⟩
  simp only
  rw [norm_normalized hX, norm_normalized hY, h]

theorem apart_of {R : M3} (hR : IsRot R) {X Y Z : V3} (hX : 0 < X ⬝ᵥ X) (hY : 0 < Y ⬝ᵥ Y) (hZ : Rᵀ *ᵥ Y = Z)
    (h : (X ⬝ᵥ Z) ^ 2 ≤ (1 - 1 / 10 ^ 10) * ((X ⬝ᵥ X) * (Y ⬝ᵥ Y))) : Apart R (normalized X, normalized Y) := by
  unfold Apart
  simp only
  have hu2 : (Rᵀ *ᵥ normalized Y) ⬝ᵥ (Rᵀ *ᵥ normalized Y) = 1 := by rw [rot_dot (rot_transpose hR), normalized_unit' hY]
  have hs : 0 ≤ Real.sin (InnerProductGeometry.angle (pt (normalized X)) (pt (Rᵀ *ᵥ normalized Y))) :=
    Real.sin_nonneg_of_nonneg_of_le_pi (InnerProductGeometry.angle_nonneg _ _) (InnerProductGeometry.angle_le_pi _ _)
  have key := unit_angle (normalized_unit' hX) hu2
  rw [normalized_unit' hX, hu2] at key
  have e : normalized X ⬝ᵥ (Rᵀ *ᵥ normalized Y) = (X ⬝ᵥ Z) / (norm3 X * norm3 Y) := by
    unfold normalized
    rw [mulVec_smul, smul_dotProduct, dotProduct_smul, hZ]
    simp only [smul_eq_mul]
    ring
  rw [e, div_pow, mul_pow, pow_two (norm3 X), pow_two (norm3 Y), norm_mul hX, norm_mul hY] at key
  have hb : (X ⬝ᵥ Z) ^ 2 / ((X ⬝ᵥ X) * (Y ⬝ᵥ Y)) ≤ 1 - 1 / 10 ^ 10 := by
    rw [div_le_iff₀ (mul_pos hX hY)]; exact h
  have : (1 / 10 ^ 5 : ℝ) ^ 2 ≤ Real.sin (InnerProductGeometry.angle (pt (normalized X)) (pt (Rᵀ *ᵥ normalized Y))) ^ 2 := by
    rw [← key]; norm_num at hb ⊢; linarith
  exact le_of_sq_le_sq this hs

/-! ### A plane that is lost -/

/-- The rotation of the example. -/
noncomputable def exR : M3 := !![24 / 25, 0, -7 / 25; 0, 1, 0; 7 / 25, 0, 24 / 25]

/-- The translation of the example. -/
noncomputable def exT : V3 := ![-28 / 5, 0, 21 / 5]

theorem exR_rot : IsRot exR := by
  constructor
  · ext i j
    rw [Matrix.mul_apply, Fin.sum_univ_three, transpose_apply, transpose_apply, transpose_apply]
    fin_cases i <;> fin_cases j <;> simp [exR] <;> norm_num
  · simp [exR, det_fin_three]; norm_num

theorem exR_transpose (y : V3) : exRᵀ *ᵥ y = ![24 / 25 * y 0 + 7 / 25 * y 2, y 1, -7 / 25 * y 0 + 24 / 25 * y 2] := by
  have e : ∀ i, (exRᵀ *ᵥ y) i = exR 0 i * y 0 + exR 1 i * y 1 + exR 2 i * y 2 := by
    intro i; rw [mulVec, RelativePose.dot3]; rfl
  apply vec_ext <;> rw [e] <;> simp [exR]

/-- Six points of the plane `4 x + 3 z + 60 = 0`, with their coordinates in the second camera. -/
noncomputable def exPoints : List (V3 × V3) :=
  [(![-24, 0, 12], ![-32, 0, 9]), (![-24, 1, 12], ![-32, 1, 9]), (![-24, 2, 12], ![-32, 2, 9]),
   (![-30, 0, 20], ![-40, 0, 15]), (![-30, 1, 20], ![-40, 1, 15]), (![-30, 2, 20], ![-40, 2, 15])]

/-- Their bearings. -/
noncomputable def exPairs : List (V3 × V3) := exPoints.map (fun p => (normalized p.1, normalized p.2))

theorem ex_point (p : V3 × V3) (h : p ∈ exPoints) : Seen exR exT (normalized p.1, normalized p.2) ∧ Apart exR (normalized p.1, normalized p.2) := by
  simp only [exPoints, List.mem_cons, List.not_mem_nil, or_false] at h
  rcases h with rfl | rfl | rfl | rfl | rfl | rfl
  all_goals
    refine ⟨seen_of ?_ ?_ ?_, apart_of exR_rot ?_ ?_ (exR_transpose _) ?_⟩
    any_goals apply vec_ext
    all_goals simp [exR, exT, mulVec, RelativePose.dot3, Matrix.transpose_apply]
    all_goals norm_num

theorem ex_pairs (q : V3 × V3) (h : q ∈ exPairs) : Seen exR exT q ∧ Apart exR q := by
  obtain ⟨p, hp, rfl⟩ := List.mem_map.1 h
  exact ex_point p hp

theorem ex_unit : Unit exPairs := fun q h => ⟨(ex_pairs q h).1.1, (ex_pairs q h).1.2.1⟩

/-- The homography of the plane. -/
noncomputable def exH : M3 := diagonal ![16, 12, 9]

theorem ex_svd : IsSvd exH ⟨1, ![16, 12, 9], 1⟩ := by
  refine ⟨by simp, by simp, ?_, ?_, by simp [exH]⟩
  · intro i; fin_cases i <;> simp
  · intro i j hij; fin_cases i <;> fin_cases j <;> simp at hij ⊢ <;> norm_num

/-- A robust estimation that is right, a homography that is right. -/
theorem ex_env (p : RT) : ∃ env : Env, Sound env ∧ (∀ H, IsSvd H (env.svd H)) ∧ env.svd exH = ⟨1, ![16, 12, 9], 1⟩ ∧
    (∀ thr pts, env.homography thr pts = some exH) ∧ ∀ thr pairs, env.ransac thr pairs = p := by
  classical
  obtain ⟨svd, hsvd⟩ := Superimpose.C88_svd 3
  obtain ⟨log, hlog⟩ := GpsBias.C95_log
  refine ⟨⟨fun _ _ => p, fun _ _ => some exH, fun H => if H = exH then ⟨1, ![16, 12, 9], 1⟩ else svd H, fun _ s => s, id, log, log⟩,
    ⟨hlog, hlog, fun _ _ _ => rfl, fun _ _ h => h⟩, ?_, if_pos rfl, fun _ _ => rfl, fun _ _ => rfl⟩
  intro H
  simp only
  split
  · rename_i h; rw [h]; exact ex_svd
  · exact hsvd H

theorem ex_motion {env : Env} (hs : env.svd exH = ⟨1, ![16, 12, 9], 1⟩) : ∃ (n : V3) (d : ℝ) (l : List Motion), motions env.svd exH = some (⟨exR, -exT, n, d⟩ :: l) := by
  have h0 : (env.svd exH).s 0 = 16 := by rw [hs]; rfl
  have h1 : (env.svd exH).s 1 = 12 := by rw [hs]; rfl
  have h2 : (env.svd exH).s 2 = 9 := by rw [hs]; rfl
  have hu : (env.svd exH).u = 1 := by rw [hs]
  have hv : (env.svd exH).vh = 1 := by rw [hs]
  have x1 : PlaneMotion.absX1 (env.svd exH) = 4 / 5 := by
    unfold PlaneMotion.absX1
    rw [h0, h1, h2, show ((16 : ℝ) ^ 2 - 12 ^ 2) / (16 ^ 2 - 9 ^ 2) = (4 / 5) ^ 2 by norm_num]
    exact Real.sqrt_sq (by norm_num)
  have x3 : PlaneMotion.absX3 (env.svd exH) = 3 / 5 := by
    unfold PlaneMotion.absX3
    rw [h0, h1, h2, show ((12 : ℝ) ^ 2 - 9 ^ 2) / (16 ^ 2 - 9 ^ 2) = (3 / 5) ^ 2 by norm_num]
    exact Real.sqrt_sq (by norm_num)
  have hp : PlaneMotion.pairOf (env.svd exH) (4 / 5) (3 / 5) = [⟨exR, -exT, -((1 : M3)ᵀ *ᵥ ![4 / 5, 0, 3 / 5]), (1 : M3).det * (1 : M3).det * 12⟩,
      ⟨((1 : M3).det * (1 : M3).det) • ((1 : M3) * PlaneMotion.rotN 16 12 9 (4 / 5) (3 / 5) * 1), (1 : M3) *ᵥ ((16 + 9 : ℝ) • ![4 / 5, 0, 3 / 5]),
        -((1 : M3)ᵀ *ᵥ ![4 / 5, 0, 3 / 5]), -((1 : M3).det * (1 : M3).det * 12)⟩] := by
    unfold PlaneMotion.pairOf
    simp only
    rw [h0, h1, h2, hu, hv]
    congr 1
    ext : 1
    · simp only [det_one, one_smul, mul_one, Matrix.one_mul, Matrix.mul_one]
      unfold PlaneMotion.rotP exR
      ext i j
      fin_cases i <;> fin_cases j <;> simp <;> norm_num
    · simp only [one_mulVec]
      apply vec_ext <;> simp [exT] <;> norm_num
    · rfl
    · rfl
  have hn : ¬ (PlaneMotion.near ((env.svd exH).s 0) ((env.svd exH).s 1) ∨ PlaneMotion.near ((env.svd exH).s 1) ((env.svd exH).s 2)) := by
    unfold PlaneMotion.near
    rw [h0, h1, h2]
    norm_num
  unfold motions
  rw [if_neg hn]
  unfold PlaneMotion.signs
  rw [List.flatMap_cons, x1, x3]
  simp only
  rw [hp]
  exact ⟨_, _, _, rfl⟩

/-- Six points of a plane in front of both cameras, with the right homography: a motion of the list agrees with all of them, and
the function returns another that agrees with none. -/
theorem C101_plane_lost : ∃ (env : Env) (pairs : List (V3 × V3)) (H : M3) (l : List Motion) (m : Motion) (a : Result),
    Sound env ∧ (∀ H, IsSvd H (env.svd H)) ∧ pairs.length = 6 ∧ (∀ thr pts, env.homography thr pts = some H) ∧
    (∀ q ∈ pairs, 0 < q.1 2 ∧ 0 < q.2 2 ∧ ∃ k : ℝ, 0 < k ∧ H *ᵥ q.1 = k • q.2) ∧ motions env.svd H = some l ∧ m ∈ l ∧
    (∀ q ∈ pairs, Inlier m.R m.t (1 / 250) q) ∧ planeBased env pairs (1 / 250) = some (some a) ∧ a.inliers = [] := by
  obtain ⟨env, he, hs, hsvd, hH, -⟩ := ex_env ⟨1, 0⟩
  obtain ⟨n, d, l, hl⟩ := ex_motion hsvd
  have h0 : (env.svd exH).s 0 = 16 := by rw [hsvd]; rfl
  have h1 : (env.svd exH).s 1 = 12 := by rw [hsvd]; rfl
  have h2 : (env.svd exH).s 2 = 9 := by rw [hsvd]; rfl
  obtain ⟨l', hl', hm⟩ := PlaneMotion.C100_complete env.svd exH (hs exH) ⟨exR, exT, ![4 / 5, 0, 3 / 5], 12⟩ exR_rot
    (by simp [RelativePose.dot3]; norm_num) (by norm_num)
    (by
      ext i j
      rw [Matrix.sub_apply, Matrix.smul_apply, vecMulVec_apply]
      fin_cases i <;> fin_cases j <;> simp [exH, exR, exT] <;> norm_num)
    (by rw [h0, h1]; norm_num) (by rw [h1, h2]; norm_num)
  have hpl : planeBased env exPairs (1 / 250) = some (some (ofMotion env exPairs (1 / 250) ⟨exR, -exT, n, d⟩)) := by
    unfold planeBased
    rw [hH]
    simp only [hl]
    rfl
  refine ⟨env, exPairs, exH, l', _, _, he, hs, by simp [exPairs, exPoints], hH, ?_, hl', hm, ?_, hpl, ?_⟩
  · intro q hq
    obtain ⟨p, hp, rfl⟩ := List.mem_map.1 hq
    have key : 0 < p.1 ⬝ᵥ p.1 ∧ 0 < p.2 ⬝ᵥ p.2 ∧ 0 < p.1 2 ∧ 0 < p.2 2 ∧ exH *ᵥ p.1 = (12 : ℝ) • p.2 := by
      simp only [exPoints, List.mem_cons, List.not_mem_nil, or_false] at hp
      rcases hp with rfl | rfl | rfl | rfl | rfl | rfl
      all_goals
        refine ⟨?_, ?_, ?_, ?_, ?_⟩
        any_goals apply vec_ext
        all_goals simp [exH, mulVec_diagonal, RelativePose.dot3]
        all_goals norm_num
    obtain ⟨k1, k2, k3, k4, k5⟩ := key
    have n1 := norm_pos k1
    have n2 := norm_pos k2
    refine ⟨?_, ?_, norm3 p.2 * 12 / norm3 p.1, by positivity, ?_⟩
    · show 0 < 1 / norm3 p.1 * p.1 2; positivity
    · show 0 < 1 / norm3 p.2 * p.2 2; positivity
    · simp only
      unfold normalized
      rw [mulVec_smul, k5, smul_smul, smul_smul]
      congr 1
      field_simp
  · intro q hq
    obtain ⟨k1, k2⟩ := ex_pairs q hq
    exact seen_inlier exR_rot k1 k2 (by norm_num) (by norm_num)
  · have := motion_listed (m := ⟨exR, -exT, n, d⟩) he.rodrigues ex_unit exR_rot (thr := 1 / 250) (by norm_num)
    rw [List.eq_nil_iff_forall_not_mem]
    intro i hi
    obtain ⟨q, e1, e2⟩ := (this.2 i).1 hi
    exact C101_reversed exR exT exR_rot q (ex_pairs q (List.mem_of_getElem? e1)).1 _ (by norm_num) e2

/-- The hypotheses of `C101_exact` hold in a concrete case: the same six pairs and the pose that made them. There the five point
method wins, because the plane has lost its motion. -/
example : ∃ (env : Env) (a : Result), Sound env ∧ (∀ H, IsSvd H (env.svd H)) ∧
    general env exPairs (1 / 250) false 1 = some (some a, .fivePoint, 6, 0) ∧ vecToMat a.r = exR ∧ a.t = (1 / 7 : ℝ) • exT ∧ a.inliers = List.range 6 := by
  obtain ⟨env, he, hs, hsvd, hH, hr⟩ := ex_env ⟨exR, (1 / 7 : ℝ) • exT⟩
  have hseen : ∀ q ∈ exPairs, Seen exR ((1 / 7 : ℝ) • exT) q ∧ Apart exR q := by
    intro q hq
    obtain ⟨⟨h1, h2, d1, d2, hd1, hd2, e⟩, h4⟩ := ex_pairs q hq
    refine ⟨⟨h1, h2, 1 / 7 * d1, 1 / 7 * d2, by positivity, by positivity, ?_⟩, h4⟩
    rw [← smul_smul, ← smul_smul, mulVec_smul, ← smul_add, e]
  have hlen : exPairs.length = 6 := by simp [exPairs, exPoints]
  have hg : Listed exPairs exR ((1 / 7 : ℝ) • exT) (1 / 250) (List.range 6) := by
    refine ⟨List.pairwise_lt_range, ?_⟩
    intro i
    rw [List.mem_range]
    constructor
    · intro h
      have h : i < exPairs.length := by omega
      refine ⟨exPairs[i], List.getElem?_eq_getElem h, ?_⟩
      obtain ⟨k1, k2⟩ := hseen exPairs[i] (List.getElem_mem h)
      exact seen_inlier exR_rot k1 k2 (by norm_num) (by norm_num)
    · rintro ⟨q, h, -⟩
      have := (List.getElem?_eq_some_iff.1 h).1
      omega
  obtain ⟨a, m, np, e, h⟩ := C101_exact env he hs exR ((1 / 7 : ℝ) • exT) exR_rot
    (by simp [RelativePose.dot3, exT]; norm_num) exPairs ex_unit (1 / 250) (by norm_num) (fun q hq => Or.inl (hseen q hq)) (List.range 6) hg
    (by simp) (hr _ _) 1 exH (hH _ _)
  obtain ⟨n, d, l, hl⟩ := ex_motion hsvd
  have hpl : planeBased env exPairs (1 / 250) = some (some (ofMotion env exPairs (1 / 250) ⟨exR, -exT, n, d⟩)) := by
    unfold planeBased
    rw [hH]
    simp only [hl]
    rfl
  have hempty : (ofMotion env exPairs (1 / 250) ⟨exR, -exT, n, d⟩).inliers = [] := by
    have := motion_listed (m := ⟨exR, -exT, n, d⟩) he.rodrigues ex_unit exR_rot (thr := 1 / 250) (by norm_num)
    rw [List.eq_nil_iff_forall_not_mem]
    intro i hi
    obtain ⟨q, e1, e2⟩ := (this.2 i).1 hi
    exact C101_reversed exR exT exR_rot q (ex_pairs q (List.mem_of_getElem? e1)).1 _ (by norm_num) e2
  have hnp : np = 0 := by
    unfold general at e
    simp only at e
    rw [hpl] at e
    simp only [Option.some.injEq, Prod.mk.injEq] at e
    rw [← e.2.2.2]
    unfold count
    simp only
    rw [hempty]; rfl
  rw [List.length_range] at e h
  rcases h with ⟨rfl, -, k1, k2, k3⟩ | ⟨-, k, -⟩
  · exact ⟨env, a, he, hs, by rw [e, hnp], k1, k2, k3⟩
  · omega

end Verif.TwoView
