import Verif.Model.Guided
import Verif.Props.Matching
import Verif.Props.Triangulation
import Verif.Props.Pose

/-!
# C126: guided matching keeps to the epipolar lines
-/
set_option linter.unusedSectionVars false
set_option linter.unusedSimpArgs false
set_option linter.unusedVariables false
namespace Verif.Guided
open Verif.Depthmap Verif.Triangulation Verif.Matching Verif.Pose Matrix

variable {F Id : Type} [DecidableEq Id]

/-! ### Specification -/

/-- A unit vector orthogonal to two vectors. -/
def UnitNormal (n u v : V3) : Prop := n ⬝ᵥ n = 1 ∧ n ⬝ᵥ u = 0 ∧ n ⬝ᵥ v = 0

/-- The two nearest of the candidates, the nearest first. -/
def TwoNearest (knn : (ℕ → ℝ) → List ℕ → List (ℕ × ℝ)) : Prop :=
  ∀ (d : ℕ → ℝ) (cands : List ℕ), cands.Nodup → ∃ l rest : List ℕ, (l ++ rest).Perm cands ∧
    knn d cands = l.map (fun j => (j, d j)) ∧ l.length = min 2 cands.length ∧ l.Pairwise (fun a b => d a ≤ d b) ∧
    ∀ a ∈ l, ∀ b ∈ rest, d a ≤ d b

/-- `j` is better than all other candidates by the ratio, and there are others. -/
def Distinct (ratio : ℝ) (d : ℕ → ℝ) (cand : ℕ → Prop) (j : ℕ) : Prop :=
  cand j ∧ (∃ k, cand k ∧ k ≠ j) ∧ ∀ k, cand k → k ≠ j → d j < ratio * d k

/-! ### Geometry -/

theorem normal_cross {n u v : V3} (h : UnitNormal n u v) : cross u v = (n ⬝ᵥ cross u v) • n := by
  obtain ⟨h1, h2, h3⟩ := h
  simp only [dot3] at h1 h2 h3
  have e : n ⬝ᵥ cross u v = n 0 * (u 1 * v 2 - u 2 * v 1) + n 1 * (u 2 * v 0 - u 0 * v 2) + n 2 * (u 0 * v 1 - u 1 * v 0) := by
    rw [dot3]
    simp only [cross, Matrix.cons_val_zero, Matrix.cons_val_one, Matrix.cons_val]
  rw [e]
  funext i
  fin_cases i
  · simp [cross]
    linear_combination (-(u 1 * v 2 - u 2 * v 1)) * h1 + (n 1 * v 2 - n 2 * v 1) * h2 - (n 1 * u 2 - n 2 * u 1) * h3
  · simp [cross]
    linear_combination (-(u 2 * v 0 - u 0 * v 2)) * h1 + (n 2 * v 0 - n 0 * v 2) * h2 - (n 2 * u 0 - n 0 * u 2) * h3
  · simp [cross]
    linear_combination (-(u 0 * v 1 - u 1 * v 0)) * h1 + (n 0 * v 1 - n 1 * v 0) * h2 - (n 0 * u 1 - n 1 * u 0) * h3

theorem cross_zero {u v : V3} (hv : v ⬝ᵥ v = 1) (h : cross u v = 0) : ∃ k : ℝ, u = k • v := by
  refine ⟨u ⬝ᵥ v, ?_⟩
  have h0 := congrFun h 0
  have h1 := congrFun h 1
  have h2 := congrFun h 2
  simp [cross] at h0 h1 h2
  simp only [dot3] at hv
  funext i
  fin_cases i
  · simp [dot3]; linear_combination (-u 0) * hv + v 1 * h2 - v 2 * h1
  · simp [dot3]; linear_combination (-u 1) * hv + v 2 * h0 - v 0 * h2
  · simp [dot3]; linear_combination (-u 2) * hv + v 0 * h1 - v 1 * h0

theorem norm3_smul (k : ℝ) (v : V3) : norm3 (k • v) = |k| * norm3 v := by
  unfold norm3
  rw [smul_dotProduct, dotProduct_smul, smul_eq_mul, smul_eq_mul, ← mul_assoc, Real.sqrt_mul (mul_self_nonneg k),
    Real.sqrt_mul_self_eq_abs]

theorem norm3_one {n : V3} (h : n ⬝ᵥ n = 1) : norm3 n = 1 := by unfold norm3; rw [h]; simp

theorem norm3_pos {v : V3} (h : v ≠ 0) : 0 < norm3 v :=
  Real.sqrt_pos.2 (lt_of_le_of_ne (dot_self_nonneg v) (fun h0 => h (dot_self_zero.1 h0.symm)))

/-- The unit normal of the code is the unit normal, up to its sign. -/
theorem normalized_normal {n u v : V3} (h : UnitNormal n u v) (hu : u ≠ 0) (hv : v ⬝ᵥ v = 1) (hp : ¬ ∃ k : ℝ, u = k • v)
    (w : V3) : |normalized (cross (normalized u) v) ⬝ᵥ w| = |n ⬝ᵥ w| := by
  have hu' : 0 < 1 / norm3 u := one_div_pos.2 (norm3_pos hu)
  obtain ⟨c, hc⟩ : ∃ c, c = n ⬝ᵥ cross u v := ⟨_, rfl⟩
  have h0 : cross u v = c • n := hc ▸ normal_cross h
  have hc0 : c ≠ 0 := by
    intro h'
    rw [h', zero_smul] at h0
    exact hp (cross_zero hv h0)
  have e : cross (normalized u) v = ((1 / norm3 u) * c) • n := by
    unfold normalized
    rw [cross_smul, h0, smul_smul]
  obtain ⟨k, hk⟩ : ∃ k, k = (1 / norm3 u) * c := ⟨_, rfl⟩
  have hk0 : k ≠ 0 := by rw [hk]; exact mul_ne_zero hu'.ne' hc0
  rw [e, ← hk]
  unfold normalized
  rw [norm3_smul, norm3_one h.1, mul_one, smul_smul, smul_dotProduct, smul_eq_mul, abs_mul]
  have : |1 / |k| * k| = 1 := by
    rw [abs_mul, abs_div, abs_abs, abs_one, one_div, inv_mul_cancel₀ (abs_ne_zero.2 hk0)]
  rw [this, one_mul]

theorem angle_arcsin (b1 b2 : V3) (R : M3) (t : V3) : epipolarAngle b1 b2 R t =
    Real.arcsin ((|normalized (cross (normalized t) b1) ⬝ᵥ (R *ᵥ b2)| + |b1 ⬝ᵥ normalized (cross (normalized t) (R *ᵥ b2))|) / 2) := by
  unfold epipolarAngle
  simp only
  rw [Real.arccos_eq_pi_div_two_sub_arcsin]
  ring

theorem orth_dot {R : M3} (h : R * Rᵀ = 1) (u v : V3) : (R *ᵥ u) ⬝ᵥ (R *ᵥ v) = u ⬝ᵥ v := by
  have h' : Rᵀ * R = 1 := mul_eq_one_comm.1 h
  rw [dotProduct_mulVec, ← mulVec_transpose, mulVec_mulVec, h', one_mulVec]

theorem relative_parts {p1 p2 : Pose ℝ} (h1 : Rigid p1) (h2 : Rigid p2) :
    (p2.relativeTo p1).cwR = p1.wcR * p2.cwR ∧
      (p2.relativeTo p1).getOrigin = p1.wcR *ᵥ (p2.getOrigin - p1.getOrigin) := by
  have c1 := (rigid_iff_cons p1).1 h1
  have c2 := (rigid_iff_cons p2).1 h2
  have cr := (rigid_iff_cons _).1 (C39_actions p2 p1 h2 h1).2.2.1.1
  have e : (p2.relativeTo p1).cwR = p1.wcR * p2.cwR := by
    rw [cr.rot, c2.rot]
    show (p2.wcR * p1.cwR)ᵀ = _
    rw [transpose_mul, c1.rot, transpose_transpose]
  refine ⟨e, ?_⟩
  unfold Pose.getOrigin
  rw [cr.tr, ← cr.rot, e]
  have t : (p2.relativeTo p1).wcT = p2.wcR *ᵥ p1.cwT + p2.wcT := rfl
  have o2 : p2.cwT = -(p2.cwR *ᵥ p2.wcT) := by rw [c2.tr, c2.rot]
  have hh : p2.cwR * p2.wcR = 1 := by rw [c2.rot]; exact mul_eq_one_comm.1 c2.orth
  rw [t, mulVec_add, mulVec_mulVec, Matrix.mul_assoc, hh, Matrix.mul_one, mulVec_sub, o2, mulVec_neg, mulVec_mulVec]
  abel


theorem orth_t {R : M3} (h : R * Rᵀ = 1) : Rᵀ * Rᵀᵀ = 1 := by rw [transpose_transpose]; exact mul_eq_one_comm.1 h

theorem pose_orth {p : Pose ℝ} (h : Rigid p) : p.wcR * p.wcRᵀ = 1 := ((rigid_iff_cons p).1 h).orth

theorem pose_back {p : Pose ℝ} (h : Rigid p) (v : V3) : p.wcR *ᵥ (p.cwR *ᵥ v) = v := by
  rw [mulVec_mulVec, ((rigid_iff_cons p).1 h).rot, pose_orth h, one_mulVec]

/-- The error of two bearings of two shots, with everything in the world: the mean of the sines of the angles between the
direction of each and the plane of the other with the base line. -/
theorem C126_error {p1 p2 : Pose ℝ} (h1 : Rigid p1) (h2 : Rigid p2) {b1 b2 n1 n2 : V3} (u1 : b1 ⬝ᵥ b1 = 1)
    (u2 : b2 ⬝ᵥ b2 = 1) (hb : p2.getOrigin ≠ p1.getOrigin)
    (hp1 : ¬ ∃ k : ℝ, p2.getOrigin - p1.getOrigin = k • (p1.cwR *ᵥ b1))
    (hp2 : ¬ ∃ k : ℝ, p2.getOrigin - p1.getOrigin = k • (p2.cwR *ᵥ b2))
    (hn1 : UnitNormal n1 (p2.getOrigin - p1.getOrigin) (p1.cwR *ᵥ b1))
    (hn2 : UnitNormal n2 (p2.getOrigin - p1.getOrigin) (p2.cwR *ᵥ b2)) :
    error (p2.relativeTo p1) b1 b2 =
      Real.arcsin ((|n1 ⬝ᵥ (p2.cwR *ᵥ b2)| + |n2 ⬝ᵥ (p1.cwR *ᵥ b1)|) / 2) := by
  have o1 := pose_orth h1
  have o2 : p2.cwR * p2.cwRᵀ = 1 := by rw [((rigid_iff_cons p2).1 h2).rot]; exact orth_t (pose_orth h2)
  obtain ⟨e1, e2⟩ := relative_parts h1 h2
  unfold error
  rw [angle_arcsin, e1, e2, ← mulVec_mulVec]
  obtain ⟨w2, hw2⟩ : ∃ w2, w2 = p2.cwR *ᵥ b2 := ⟨_, rfl⟩
  obtain ⟨w1, hw1⟩ : ∃ w1, w1 = p1.cwR *ᵥ b1 := ⟨_, rfl⟩
  obtain ⟨t, ht⟩ : ∃ t, t = p2.getOrigin - p1.getOrigin := ⟨_, rfl⟩
  have hb1 : b1 = p1.wcR *ᵥ w1 := by rw [hw1, pose_back h1]
  have hw2u : w2 ⬝ᵥ w2 = 1 := by rw [hw2, orth_dot o2, u2]
  have hw1u : w1 ⬝ᵥ w1 = 1 := by rw [← orth_dot o1, ← hb1, u1]
  rw [← ht, ← hw1] at hp1 hn1
  rw [← ht, ← hw2] at hp2 hn2
  rw [← hw2, ← hw1, ← ht]
  have back : ∀ x y : V3, p1.wcR *ᵥ x = p1.wcR *ᵥ y → x = y := fun x y h => by
    have := congrArg (fun v => p1.wcRᵀ *ᵥ v) h
    simpa only [mulVec_mulVec, mul_eq_one_comm.1 o1, one_mulVec] using this
  have tn : p1.wcR *ᵥ t ≠ 0 := by
    intro h
    have h' := back t 0 (by rw [h, mulVec_zero])
    rw [h'] at ht
    exact hb (sub_eq_zero.1 ht.symm)
  have par : ∀ w : V3, (¬ ∃ k : ℝ, t = k • w) → ¬ ∃ k : ℝ, p1.wcR *ᵥ t = k • (p1.wcR *ᵥ w) := by
    rintro w h ⟨k, hk⟩
    exact h ⟨k, back _ _ (by rw [hk, mulVec_smul])⟩
  have nor : ∀ n w : V3, UnitNormal n t w → UnitNormal (p1.wcR *ᵥ n) (p1.wcR *ᵥ t) (p1.wcR *ᵥ w) := by
    rintro n w ⟨ha, hb, hc⟩
    exact ⟨by rw [orth_dot o1, ha], by rw [orth_dot o1, hb], by rw [orth_dot o1, hc]⟩
  rw [hb1, normalized_normal (nor _ _ hn1) tn (by rw [orth_dot o1, hw1u]) (par _ hp1), dotProduct_comm (p1.wcR *ᵥ w1),
    normalized_normal (nor _ _ hn2) tn (by rw [orth_dot o1, hw2u]) (par _ hp2), orth_dot o1, orth_dot o1]

theorem normalized_zero : normalized (0 : V3) = 0 := by unfold normalized; rw [smul_zero]

theorem cross_zero_left (v : V3) : cross 0 v = 0 := by
  funext i
  fin_cases i <;> simp [cross]

theorem angle_no_base (b1 b2 : V3) (R : M3) : epipolarAngle b1 b2 R 0 = 0 := by
  rw [angle_arcsin, normalized_zero, cross_zero_left, cross_zero_left, normalized_zero]
  simp

/-- Two shots at the same place: every pair of bearings is allowed. -/
theorem C126_no_base {p1 p2 : Pose ℝ} (h1 : Rigid p1) (h2 : Rigid p2) (ho : p2.getOrigin = p1.getOrigin) (b1 b2 : V3)
    {threshold : ℝ} (ht : 0 < threshold) : allowed (p2.relativeTo p1) threshold b1 b2 = true := by
  unfold allowed error
  rw [(relative_parts h1 h2).2, ho, sub_self, mulVec_zero, angle_no_base]
  exact decide_eq_true ht

/-- Two shots that see the same point: their bearings are allowed, whatever the positive threshold. -/
theorem C126_seen {p1 p2 : Pose ℝ} (h1 : Rigid p1) (h2 : Rigid p2) {b1 b2 X : V3} (u1 : b1 ⬝ᵥ b1 = 1) (u2 : b2 ⬝ᵥ b2 = 1)
    {d1 d2 : ℝ} (s1 : p1.transform X = d1 • b1) (s2 : p2.transform X = d2 • b2) {threshold : ℝ} (ht : 0 < threshold) :
    error (p2.relativeTo p1) b1 b2 = 0 ∧ allowed (p2.relativeTo p1) threshold b1 b2 = true := by
  have hr := (C39_actions p2 p1 h2 h1).2.2.1
  have h0 : error (p2.relativeTo p1) b1 b2 = 0 := by
    unfold error
    by_cases t0 : (p2.relativeTo p1).getOrigin = 0
    · rw [t0, angle_no_base]
    · have ho : (p2.relativeTo p1).cwR * (p2.relativeTo p1).cwRᵀ = 1 := by
        rw [((rigid_iff_cons _).1 hr.1).rot]; exact orth_t (pose_orth hr.1)
      rw [(C85_epipolar b1 b2 _ _ ho u1 u2 t0).2.2]
      have e : d1 • b1 = d2 • ((p2.relativeTo p1).cwR *ᵥ b2) + (p2.relativeTo p1).getOrigin := by
        have e1 := hr.2 X
        have e2 := hr.1.2.1 (p1.transform X)
        rw [e1, s2, s1] at e2
        rw [← e2]
        unfold Pose.transformInverse Pose.getOrigin
        rw [mulVec_smul]
      obtain ⟨w, hw⟩ : ∃ w, w = (p2.relativeTo p1).cwR *ᵥ b2 := ⟨_, rfl⟩
      obtain ⟨t, ht⟩ : ∃ t, t = (p2.relativeTo p1).getOrigin := ⟨_, rfl⟩
      rw [← hw, ← ht] at e
      rw [← hw, ← ht, eq_sub_of_add_eq' e.symm, Matrix.det_fin_three]
      simp
      ring
  exact ⟨h0, by unfold allowed; rw [h0]; exact decide_eq_true ht⟩

theorem cross_mulVec (A : M3) (x y : V3) : Aᵀ *ᵥ cross (A *ᵥ x) (A *ᵥ y) = A.det • cross x y := by
  rw [det_fin_three]
  ext i
  fin_cases i <;> simp [cross, mulVec, dotProduct, Fin.sum_univ_three, transpose_apply] <;> ring

theorem norm3_orth {R : M3} (h : R * Rᵀ = 1) (v : V3) : norm3 (R *ᵥ v) = norm3 v := by unfold norm3; rw [orth_dot h]

theorem normalized_orth {R : M3} (h : R * Rᵀ = 1) {k : ℝ} (hk : |k| = 1) (v : V3) :
    normalized (k • (R *ᵥ v)) = k • (R *ᵥ normalized v) := by
  unfold normalized
  rw [norm3_smul, hk, one_mul, norm3_orth h, mulVec_smul, smul_comm]

theorem cross_orth {R : M3} (h : R * Rᵀ = 1) (x y : V3) : cross (R *ᵥ x) (R *ᵥ y) = R.det • (R *ᵥ cross x y) := by
  have e := congrArg (fun v => R *ᵥ v) (cross_mulVec R x y)
  simp only [mulVec_mulVec, h, one_mulVec, mulVec_smul] at e
  exact e

theorem det_abs {R : M3} (h : R * Rᵀ = 1) : |R.det| = 1 := by
  have := congrArg Matrix.det h
  rw [det_mul, det_transpose, det_one] at this
  have h2 : |R.det| * |R.det| = 1 := by rw [← abs_mul, this, abs_one]
  nlinarith [abs_nonneg R.det]

theorem angle_swap {R : M3} (h : R * Rᵀ = 1) (b1 b2 t : V3) :
    epipolarAngle b2 b1 Rᵀ (-(Rᵀ *ᵥ t)) = epipolarAngle b1 b2 R t := by
  have ht := orth_t h
  have hk : |(-1 : ℝ)| = 1 := by simp
  have e0 : normalized (-(Rᵀ *ᵥ t)) = (-1 : ℝ) • (Rᵀ *ᵥ normalized t) := by
    rw [← neg_one_smul ℝ, normalized_orth ht hk]
  have e : ∀ y : V3, normalized (cross (normalized (-(Rᵀ *ᵥ t))) (Rᵀ *ᵥ y)) =
      (-Rᵀ.det) • (Rᵀ *ᵥ normalized (cross (normalized t) y)) := by
    intro y
    rw [e0, cross_smul, cross_orth ht, smul_smul, neg_one_mul, normalized_orth ht (by rw [abs_neg, det_abs ht])]
  have hb2 : b2 = Rᵀ *ᵥ (R *ᵥ b2) := by rw [mulVec_mulVec, mul_eq_one_comm.1 h, one_mulVec]
  rw [angle_arcsin, angle_arcsin, e b1]
  nth_rw 1 [hb2]
  rw [e (R *ᵥ b2)]
  nth_rw 2 [hb2]
  rw [smul_dotProduct, dotProduct_smul, orth_dot ht, orth_dot ht, smul_eq_mul, smul_eq_mul, abs_mul, abs_mul, abs_neg,
    det_abs ht, one_mul, one_mul, add_comm, dotProduct_comm (R *ᵥ b2), dotProduct_comm _ b1]

/-- The error does not depend on which of the images comes first. -/
theorem C126_symmetric {p1 p2 : Pose ℝ} (h1 : Rigid p1) (h2 : Rigid p2) (b1 b2 : V3) :
    error (p1.relativeTo p2) b2 b1 = error (p2.relativeTo p1) b1 b2 := by
  obtain ⟨a1, a2⟩ := relative_parts h1 h2
  obtain ⟨c1, c2⟩ := relative_parts h2 h1
  have r1 := ((rigid_iff_cons p1).1 h1).rot
  have r2 := ((rigid_iff_cons p2).1 h2).rot
  have hR : (p1.wcR * p2.cwR) * (p1.wcR * p2.cwR)ᵀ = 1 := by
    rw [transpose_mul, Matrix.mul_assoc, ← Matrix.mul_assoc p2.cwR, r2, transpose_transpose,
      mul_eq_one_comm.1 (pose_orth h2), Matrix.one_mul, pose_orth h1]
  unfold error
  rw [a1, a2, c1, c2, ← angle_swap hR]
  congr 1
  · rw [transpose_mul, r2, transpose_transpose, r1]
  · rw [transpose_mul, mulVec_mulVec, Matrix.mul_assoc, mul_eq_one_comm.1 (pose_orth h1), Matrix.mul_one, r2,
      transpose_transpose, ← mulVec_neg, neg_sub]

/-! ### Matches -/

theorem lowe_iff {knn : (ℕ → ℝ) → List ℕ → List (ℕ × ℝ)} (hk : TwoNearest knn) {ratio : ℝ} (h0 : 0 < ratio) (h1 : ratio ≤ 1)
    {d : ℕ → ℝ} (hd : ∀ k, 0 ≤ d k) {cands : List ℕ} (hn : cands.Nodup) (j : ℕ) :
    lowe ratio (knn d cands) = some j ↔ Distinct ratio d (· ∈ cands) j := by
  obtain ⟨l, rest, hperm, hl, hlen, hs, hr⟩ := hk d cands hn
  have hmem : ∀ k, k ∈ cands ↔ k ∈ l ∨ k ∈ rest := fun k => by rw [← hperm.mem_iff, List.mem_append]
  have hlen2 : l.length + rest.length = cands.length := by rw [← hperm.length_eq, List.length_append]
  have hnd : (l ++ rest).Nodup := hperm.nodup_iff.2 hn
  rw [hl]
  match l, hs, hr, hlen, hlen2, hmem, hnd with
  | [], _, _, hlen, hlen2, hmem, _ =>
    have : rest = [] := by
      apply List.eq_nil_of_length_eq_zero
      simp only [List.length_nil] at hlen hlen2
      omega
    simp [lowe, Distinct, hmem, this]
  | [a], _, _, hlen, hlen2, hmem, _ =>
    have : rest = [] := by
      apply List.eq_nil_of_length_eq_zero
      simp at hlen hlen2
      omega
    simp [lowe, Distinct, hmem, this]
    rintro rfl h
    exact absurd rfl h
  | [a, b], hs, hr, _, _, hmem, hnd =>
    have hab : d a ≤ d b := by simpa using hs
    have hne : b ≠ a := by
      intro h
      subst h
      simp at hnd
    simp only [List.map_cons, List.map_nil, lowe]
    constructor
    · intro h
      split at h
      · rename_i hlt
        simp only [Option.some.injEq] at h
        subst h
        refine ⟨(hmem _).2 (Or.inl (by simp)), ⟨b, (hmem _).2 (Or.inl (by simp)), hne⟩, ?_⟩
        intro k hk hka
        rcases (hmem k).1 hk with hk | hk
        · simp only [List.mem_cons, List.not_mem_nil, or_false] at hk
          rcases hk with rfl | rfl
          · exact absurd rfl hka
          · exact hlt
        · exact lt_of_lt_of_le hlt (mul_le_mul_of_nonneg_left (hr b (by simp) k hk) h0.le)
      · cases h
    · rintro ⟨hj, -, hall⟩
      have small : ∀ x, ratio * d x ≤ d x := fun x => by nlinarith [hd x]
      have ha : j = a := by
        by_contra hne'
        have h2 := hall a ((hmem _).2 (Or.inl (by simp))) (Ne.symm hne')
        have h3 : d a ≤ d j := by
          rcases (hmem j).1 hj with h | h
          · simp only [List.mem_cons, List.not_mem_nil, or_false] at h
            rcases h with rfl | rfl
            · exact le_refl _
            · exact hab
          · exact hr a (by simp) j h
        linarith [small a]
      subst ha
      rw [if_pos (hall b ((hmem _).2 (Or.inl (by simp))) hne)]
  | a :: b :: c :: l, _, _, hlen, _, _, _ =>
    exfalso
    simp only [List.length_cons] at hlen
    omega

theorem accepted_answers {knn : (ℕ → ℝ) → List ℕ → List (ℕ × ℝ)} (dist : ℕ → ℕ → ℝ) (cands : ℕ → List ℕ) (ratio : ℝ)
    (n i j : ℕ) : accepted ratio (answers knn dist cands n) i = some j ↔
      i < n ∧ lowe ratio (knn (dist i) (cands i)) = some j := by
  unfold accepted answers
  simp only [← lowe_eq]
  by_cases h : i < n
  · simp [h]
  · simp [h]

theorem mem_candidates (ok : V3 → Bool) (b : List V3) (k : ℕ) :
    k ∈ candidates ok b ↔ k < b.length ∧ ok (b.getD k 0) = true := by simp [candidates]

theorem candidates_nodup (ok : V3 → Bool) (b : List V3) : (candidates ok b).Nodup :=
  List.nodup_range.filter _

/-- Guided matches are exactly the pairs of features that keep to the epipolar constraint and of which each is, among the
features of the other image that do, better by the ratio than all others, of which there is at least one. No feature is in
two matches. -/
theorem C126_matches {knn : (ℕ → ℝ) → List ℕ → List (ℕ × ℝ)} (hk : TwoNearest knn) {dist : ℕ → ℕ → ℝ}
    (hd : ∀ i j, 0 ≤ dist i j) {ratio : ℝ} (h0 : 0 < ratio) (h1 : ratio ≤ 1) (threshold : ℝ) (pose : Pose ℝ)
    (b1 b2 : List V3) :
    (∀ i j, (i, j) ∈ guidedMatches knn dist ratio threshold pose b1 b2 ↔
      i < b1.length ∧ j < b2.length ∧
      Distinct ratio (fun k => dist i k)
        (fun k => k < b2.length ∧ error pose (b1.getD i 0) (b2.getD k 0) < threshold) j ∧
      Distinct ratio (fun k => dist k j)
        (fun k => k < b1.length ∧ error pose (b1.getD k 0) (b2.getD j 0) < threshold) i) ∧
    OneToOne (guidedMatches knn dist ratio threshold pose b1 b2) := by
  refine ⟨?_, (C25_brute_force ratio _ _).2.1⟩
  intro i j
  unfold guidedMatches
  rw [(C25_brute_force ratio _ _).1, accepted_answers, accepted_answers,
    lowe_iff hk h0 h1 (hd i) (candidates_nodup _ _), lowe_iff hk h0 h1 (fun k => hd k j) (candidates_nodup _ _)]
  simp only [mem_candidates, allowed, decide_eq_true_eq]
  tauto

/-- A feature with only one candidate on its epipolar line is not matched. -/
theorem C126_alone {knn : (ℕ → ℝ) → List ℕ → List (ℕ × ℝ)} (hk : TwoNearest knn) {dist : ℕ → ℕ → ℝ}
    (hd : ∀ i j, 0 ≤ dist i j) {ratio : ℝ} (h0 : 0 < ratio) (h1 : ratio ≤ 1) (threshold : ℝ) (pose : Pose ℝ)
    (b1 b2 : List V3) (i j : ℕ)
    (h : ∀ k, k < b2.length → error pose (b1.getD i 0) (b2.getD k 0) < threshold → k = j) (k : ℕ) :
    (i, k) ∉ guidedMatches knn dist ratio threshold pose b1 b2 := by
  intro hm
  obtain ⟨_, _, ⟨⟨ha, hb⟩, ⟨c, ⟨hc, hc'⟩, hne⟩, _⟩, _⟩ := ((C126_matches hk hd h0 h1 threshold pose b1 b2).1 i k).1 hm
  exact hne ((h c hc hc').trans (h k ha hb).symm)

/-- Exchanging the two images exchanges the two features of every match. -/
theorem C126_exchange {knn : (ℕ → ℝ) → List ℕ → List (ℕ × ℝ)} (hk : TwoNearest knn) {dist : ℕ → ℕ → ℝ}
    (hd : ∀ i j, 0 ≤ dist i j) {ratio : ℝ} (h0 : 0 < ratio) (h1 : ratio ≤ 1) (threshold : ℝ) {p1 p2 : Pose ℝ}
    (r1 : Rigid p1) (r2 : Rigid p2) (b1 b2 : List V3) (i j : ℕ) :
    (i, j) ∈ guidedMatches knn dist ratio threshold (p2.relativeTo p1) b1 b2 ↔
      (j, i) ∈ guidedMatches knn (fun a b => dist b a) ratio threshold (p1.relativeTo p2) b2 b1 := by
  rw [(C126_matches hk hd h0 h1 threshold _ b1 b2).1,
    (C126_matches hk (fun a b => hd b a) h0 h1 threshold _ b2 b1).1]
  simp only [C126_symmetric r1 r2]
  tauto

/-! ### The pair of images -/

/-- Entry `i` of the kept features is feature `a` of all. -/
def IsKept (m : List Bool) (i a : ℕ) : Prop := m[a]? = some true ∧ (m.take a).count true = i

theorem kept (m : List Bool) (s i : ℕ) (h : i < m.count true) :
    ∃ a, (flatnonzeroFrom s m).getD i 0 = s + a ∧ IsKept m i a := by
  induction m generalizing s i with
  | nil => simp at h
  | cons b m ih =>
    cases b with
    | true =>
      cases i with
      | zero => exact ⟨0, by simp [flatnonzeroFrom], by simp [IsKept]⟩
      | succ i =>
        obtain ⟨a, ha, hb, hc⟩ := ih (s + 1) i (by simpa using h)
        refine ⟨a + 1, ?_, by simpa [IsKept] using hb, by simp [hc]⟩
        simp only [flatnonzeroFrom, if_true, List.getD_cons_succ, ha]
        omega
    | false =>
      obtain ⟨a, ha, hb, hc⟩ := ih (s + 1) i (by simpa using h)
      refine ⟨a + 1, ?_, by simpa [IsKept] using hb, by simp [hc]⟩
      simp only [flatnonzeroFrom, Bool.false_eq_true, if_false, ha]
      omega

theorem raw_mem {knn : (ℕ → ℝ) → List ℕ → List (ℕ × ℝ)} {dist : F → F → ℝ} {ratio threshold : ℝ} {pose : Pose ℝ}
    {s1 s2 : Side F} {p : Match} (h : p ∈ guidedRaw knn dist ratio threshold pose s1 s2) :
    ∃ b1 b2 d1 d2, s1.bearings = some b1 ∧ s2.bearings = some b2 ∧ s1.descriptors = some d1 ∧ s2.descriptors = some d2 ∧
      p ∈ guidedMatches knn (distOf dist d1 d2) ratio threshold pose b1 b2 := by
  unfold guidedRaw at h
  split at h
  · rename_i n1 b1 n2 b2 e1 e2 e3 e4
    split at h
    · simp at h
    · split at h
      · rename_i d1 d2 e5 e6
        exact ⟨b1, b2, d1, d2, e2, e4, e5, e6, h⟩
      · simp at h
  · simp at h

theorem distOf_nonneg {dist : F → F → ℝ} (hd : ∀ x y, 0 ≤ dist x y) (d1 d2 : List F) (i j : ℕ) :
    0 ≤ distOf dist d1 d2 i j := by
  unfold distOf
  split
  · exact hd _ _
  · exact le_refl _

/-- Before the filters, the descriptors of the features decide: a match joins two features allowed by the poses, and the
descriptor of each is nearer to the other's, by the ratio, than to those of all other features allowed with it, of which
there is one. -/
theorem C126_descriptors {knn : (ℕ → ℝ) → List ℕ → List (ℕ × ℝ)} (hk : TwoNearest knn) {dist : F → F → ℝ}
    (hd : ∀ x y, 0 ≤ dist x y) {ratio : ℝ} (h0 : 0 < ratio) (h1 : ratio ≤ 1) (threshold : ℝ) (pose : Pose ℝ)
    (f1 f2 : List (V3 × F)) (hl1 : 2 ≤ f1.length) (hl2 : 2 ≤ f2.length) (i j : ℕ) :
    (i, j) ∈ guidedRaw knn dist ratio threshold pose ⟨some f1.length, some (f1.map (·.2)), some (f1.map (·.1))⟩
        ⟨some f2.length, some (f2.map (·.2)), some (f2.map (·.1))⟩ ↔
      ∃ x y, f1[i]? = some x ∧ f2[j]? = some y ∧ error pose x.1 y.1 < threshold ∧
        (∃ k z, f2[k]? = some z ∧ error pose x.1 z.1 < threshold ∧ k ≠ j) ∧
        (∀ k z, f2[k]? = some z → error pose x.1 z.1 < threshold → k ≠ j → dist x.2 y.2 < ratio * dist x.2 z.2) ∧
        (∃ k z, f1[k]? = some z ∧ error pose z.1 y.1 < threshold ∧ k ≠ i) ∧
        (∀ k z, f1[k]? = some z → error pose z.1 y.1 < threshold → k ≠ i → dist x.2 y.2 < ratio * dist z.2 y.2) := by
  unfold guidedRaw
  simp only
  rw [if_neg (by omega), (C126_matches hk (distOf_nonneg hd _ _) h0 h1 threshold pose _ _).1 i j]
  simp only [List.length_map, Distinct]
  have b1 : ∀ (k : ℕ) (z : V3 × F), f1[k]? = some z → (f1.map (·.1)).getD k 0 = z.1 := by
    intro k z h; rw [List.getD_eq_getElem?_getD, List.getElem?_map, h]; rfl
  have b2 : ∀ (k : ℕ) (z : V3 × F), f2[k]? = some z → (f2.map (·.1)).getD k 0 = z.1 := by
    intro k z h; rw [List.getD_eq_getElem?_getD, List.getElem?_map, h]; rfl
  have dd : ∀ (k l : ℕ) (x y : V3 × F), f1[k]? = some x → f2[l]? = some y →
      distOf dist (f1.map (·.2)) (f2.map (·.2)) k l = dist x.2 y.2 := by
    intro k l x y hx hy; unfold distOf; rw [List.getElem?_map, List.getElem?_map, hx, hy]; rfl
  have ex1 : ∀ k, k < f1.length → ∃ z, f1[k]? = some z := fun k h => ⟨f1[k], List.getElem?_eq_getElem h⟩
  have ex2 : ∀ k, k < f2.length → ∃ z, f2[k]? = some z := fun k h => ⟨f2[k], List.getElem?_eq_getElem h⟩
  have lt1 : ∀ (k : ℕ) (z : V3 × F), f1[k]? = some z → k < f1.length := fun k z h => (List.getElem?_eq_some_iff.1 h).1
  have lt2 : ∀ (k : ℕ) (z : V3 × F), f2[k]? = some z → k < f2.length := fun k z h => (List.getElem?_eq_some_iff.1 h).1
  constructor
  · rintro ⟨hi, hj, ⟨⟨-, he⟩, ⟨k, ⟨hk1, hk2⟩, hkj⟩, hall⟩, -, ⟨m, ⟨hm1, hm2⟩, hmi⟩, hall'⟩
    obtain ⟨x, hx⟩ := ex1 i hi
    obtain ⟨y, hy⟩ := ex2 j hj
    obtain ⟨z, hz⟩ := ex2 k hk1
    obtain ⟨w, hw⟩ := ex1 m hm1
    rw [b1 i x hx, b2 j y hy] at he
    rw [b1 i x hx, b2 k z hz] at hk2
    rw [b1 m w hw, b2 j y hy] at hm2
    refine ⟨x, y, hx, hy, he, ⟨k, z, hz, hk2, hkj⟩, ?_, ⟨m, w, hw, hm2, hmi⟩, ?_⟩
    · intro k z hz hk2 hkj
      have := hall k ⟨lt2 k z hz, by rw [b1 i x hx, b2 k z hz]; exact hk2⟩ hkj
      rwa [dd i j x y hx hy, dd i k x z hx hz] at this
    · intro k z hz hk2 hki
      have := hall' k ⟨lt1 k z hz, by rw [b1 k z hz, b2 j y hy]; exact hk2⟩ hki
      rwa [dd i j x y hx hy, dd k j z y hz hy] at this
  · rintro ⟨x, y, hx, hy, he, ⟨k, z, hz, hk2, hkj⟩, hall, ⟨m, w, hw, hm2, hmi⟩, hall'⟩
    refine ⟨lt1 i x hx, lt2 j y hy, ⟨⟨lt2 j y hy, by rw [b1 i x hx, b2 j y hy]; exact he⟩,
      ⟨k, ⟨lt2 k z hz, by rw [b1 i x hx, b2 k z hz]; exact hk2⟩, hkj⟩, ?_⟩,
      ⟨lt1 i x hx, by rw [b1 i x hx, b2 j y hy]; exact he⟩,
      ⟨m, ⟨lt1 m w hw, by rw [b1 m w hw, b2 j y hy]; exact hm2⟩, hmi⟩, ?_⟩
    · rintro k ⟨hk1, hk2⟩ hkj
      obtain ⟨z, hz⟩ := ex2 k hk1
      rw [b1 i x hx, b2 k z hz] at hk2
      rw [dd i j x y hx hy, dd i k x z hx hz]
      exact hall k z hz hk2 hkj
    · rintro k ⟨hk1, hk2⟩ hki
      obtain ⟨z, hz⟩ := ex1 k hk1
      rw [b1 k z hz, b2 j y hy] at hk2
      rw [dd i j x y hx hy, dd k j z y hz hy]
      exact hall' k z hz hk2 hki

/-- With poses, every match of the result joins two features whose bearings are within the threshold of the epipolar
constraint of the poses of the two images; with masks the features are those of all features that the masks keep. -/
theorem C126_pair {knn : (ℕ → ℝ) → List ℕ → List (ℕ × ℝ)} (hk : TwoNearest knn) {dist : F → F → ℝ}
    (hd : ∀ x y, 0 ≤ dist x y) {ratio : ℝ} (h0 : 0 < ratio) (h1 : ratio ≤ 1) (threshold : ℝ) (e : Estimators)
    (a b : ImageInfo ℝ) (useFilters undistorted : Bool) (minMatch : Int) (masks : Option (List Bool × List Bool))
    (s1 s2 : Side F) (plain out : List Match) (poses : List (Id × Pose ℝ)) (im1 im2 : Id) (hp : poses ≠ [])
    (h : matchWithPoses e a b useFilters undistorted minMatch masks knn dist ratio threshold s1 s2 plain poses im1 im2 =
      some out) :
    ∃ p1 p2, poses.lookup im1 = some p1 ∧ poses.lookup im2 = some p2 ∧
      (out = [] ∨ minMatch ≤ out.length) ∧
      ∀ m ∈ out, ∃ b1 b2 i j, s1.bearings = some b1 ∧ s2.bearings = some b2 ∧ i < b1.length ∧ j < b2.length ∧
        error (p2.relativeTo p1) (b1.getD i 0) (b2.getD j 0) < threshold ∧
        (masks = none → m = (i, j)) ∧
        ∀ m1 m2, masks = some (m1, m2) → m1.count true = b1.length → m2.count true = b2.length →
          IsKept m1 i m.1 ∧ IsKept m2 j m.2 := by
  unfold matchWithPoses guidedPose at h
  rw [if_neg (by simpa using hp)] at h
  cases e1 : poses.lookup im1 with
  | none => simp [e1] at h
  | some p1 =>
    cases e2 : poses.lookup im2 with
    | none => simp [e1, e2] at h
    | some p2 =>
      simp only [e1, e2] at h
      refine ⟨p1, p2, rfl, rfl, ?_⟩
      rcases C27_pair e a b useFilters undistorted minMatch masks _ out h with rfl | ⟨hlen, ms, keptM, -, -, hsub, -, -, hsub2, hout⟩
      · exact ⟨Or.inl rfl, by simp⟩
      · refine ⟨Or.inr hlen, ?_⟩
        have core : ∀ p ∈ keptM, ∃ b1 b2, s1.bearings = some b1 ∧ s2.bearings = some b2 ∧ p.1 < b1.length ∧ p.2 < b2.length ∧
            error (p2.relativeTo p1) (b1.getD p.1 0) (b2.getD p.2 0) < threshold := by
          intro p hpm
          obtain ⟨b1, b2, d1, d2, g1, g2, g3, g4, hm⟩ := raw_mem (hsub.subset (hsub2.subset hpm))
          obtain ⟨k1, k2, ⟨k3, -⟩, -⟩ := ((C126_matches hk (distOf_nonneg hd d1 d2) h0 h1 threshold (p2.relativeTo p1) b1 b2).1 p.1 p.2).1 hm
          exact ⟨b1, b2, g1, g2, k1, k2, k3.2⟩
        intro m hm
        rcases masks with _ | ⟨m1, m2⟩
        · simp only at hout
          subst hout
          obtain ⟨b1, b2, g⟩ := core m hm
          exact ⟨b1, b2, m.1, m.2, g.1, g.2.1, g.2.2.1, g.2.2.2.1, g.2.2.2.2, fun _ => rfl, fun _ _ h => by cases h⟩
        · simp only at hout
          subst hout
          obtain ⟨p, hpk, hpe⟩ := List.mem_map.1 hm
          obtain ⟨b1, b2, g⟩ := core p hpk
          refine ⟨b1, b2, p.1, p.2, g.1, g.2.1, g.2.2.1, g.2.2.2.1, g.2.2.2.2, fun h => (by cases h), ?_⟩
          intro m1' m2' hmm c1 c2
          cases hmm
          obtain ⟨x, hx, hx'⟩ := kept m1 0 p.1 (by rw [c1]; exact g.2.2.1)
          obtain ⟨y, hy, hy'⟩ := kept m2 0 p.2 (by rw [c2]; exact g.2.2.2.1)
          rw [Nat.zero_add] at hx hy
          subst hpe
          show IsKept m1 p.1 ((flatnonzeroFrom 0 m1).getD p.1 0) ∧ IsKept m2 p.2 ((flatnonzeroFrom 0 m2).getD p.2 0)
          rw [hx, hy]
          exact ⟨hx', hy'⟩

/-- Without poses the descriptor matches are used; with poses but none for one of the images, an exception; with fewer than
two features in one of the images, no matches. -/
theorem C126_poses (knn : (ℕ → ℝ) → List ℕ → List (ℕ × ℝ)) (dist : F → F → ℝ) (ratio threshold : ℝ) (e : Estimators)
    (a b : ImageInfo ℝ) (useFilters undistorted : Bool) (minMatch : Int) (masks : Option (List Bool × List Bool))
    (s1 s2 : Side F) (plain : List Match) (poses : List (Id × Pose ℝ)) (im1 im2 : Id) :
    (poses = [] → matchWithPoses e a b useFilters undistorted minMatch masks knn dist ratio threshold s1 s2 plain poses im1 im2
      = matchPair e a b useFilters undistorted minMatch masks plain) ∧
    (poses ≠ [] → poses.lookup im1 = none ∨ poses.lookup im2 = none →
      matchWithPoses e a b useFilters undistorted minMatch masks knn dist ratio threshold s1 s2 plain poses im1 im2 = none) ∧
    (∀ p1 p2, poses.lookup im1 = some p1 → poses.lookup im2 = some p2 → 0 < minMatch →
      (∀ n, s1.points = some n → n < 2) ∨ (∀ n, s2.points = some n → n < 2) →
      matchWithPoses e a b useFilters undistorted minMatch masks knn dist ratio threshold s1 s2 plain poses im1 im2
        = some []) := by
  unfold matchWithPoses guidedPose
  refine ⟨fun h => by simp [h], fun h hl => ?_, fun p1 p2 l1 l2 hm hs => ?_⟩
  · rw [if_neg (by simpa using h)]
    rcases hl with hl | hl
    · simp [hl]
    · rw [hl]
      cases poses.lookup im1 <;> rfl
  · have hne : poses.isEmpty = false := by
      cases poses with
      | nil => simp at l1
      | cons => rfl
    simp only [hne, Bool.false_eq_true, if_false, l1, l2]
    have hraw : guidedRaw knn dist ratio threshold (p2.relativeTo p1) s1 s2 = [] := by
      unfold guidedRaw
      split
      · rename_i n1 b1 n2 b2 e1 e2 e3 e4
        rw [if_pos]
        rcases hs with hs | hs
        · exact Or.inl (hs _ e1)
        · exact Or.inr (hs _ e3)
      · rfl
    rw [hraw]
    unfold matchPair
    have : (if useFilters = true then applyAdhocFilters a b ([] : List Match) else []) = [] := by
      cases useFilters <;> simp
      exact List.sublist_nil.1 (C27_stages e a b undistorted []).2.2.2.2.1
    simp only [this]
    rw [if_pos (by simpa using hm)]

/-! ### Cases -/

/-- Two nearest neighbours by sorting. -/
noncomputable def sortTwo (d : ℕ → ℝ) (cands : List ℕ) : List (ℕ × ℝ) :=
  ((cands.mergeSort (fun a b => decide (d a ≤ d b))).take 2).map (fun j => (j, d j))

theorem sortTwo_spec : TwoNearest sortTwo := by
  intro d cands hn
  obtain ⟨l, hl⟩ : ∃ l, l = cands.mergeSort (fun a b => decide (d a ≤ d b)) := ⟨_, rfl⟩
  have hs : l.Pairwise (fun a b => d a ≤ d b) := by
    have := List.pairwise_mergeSort (le := fun a b => decide (d a ≤ d b))
      (fun a b c h1 h2 => by simp only [decide_eq_true_eq] at *; exact h1.trans h2)
      (fun a b => by simp only [Bool.or_eq_true, decide_eq_true_eq]; exact le_total _ _) cands
    rw [← hl] at this
    exact this.imp (fun h => by simpa using h)
  have hp : l.Perm cands := hl ▸ List.mergeSort_perm _ _
  refine ⟨l.take 2, l.drop 2, by rw [List.take_append_drop]; exact hp, by rw [hl]; rfl, by
    rw [List.length_take, hp.length_eq], hs.sublist (List.take_sublist _ _), ?_⟩
  rw [← List.take_append_drop 2 l] at hs
  exact (List.pairwise_append.1 hs).2.2

/-- A camera at the origin and a camera 3/4 to its right, that look in the same direction. -/
noncomputable def left : Pose ℝ := Pose.ofWorldToCamera 1 0
noncomputable def right : Pose ℝ := Pose.ofWorldToCamera 1 ![-3 / 4, 0, 0]

theorem shift_rigid (t : V3) : Rigid (Pose.ofWorldToCamera 1 t) :=
  (rigid_iff_cons _).2 (cons_ofW2C (by unfold Orth; simp) t)

theorem origin_left : left.getOrigin = 0 := by simp [left, Pose.ofWorldToCamera, Pose.getOrigin]
theorem origin_right : right.getOrigin = ![3 / 4, 0, 0] := by
  simp [right, Pose.ofWorldToCamera, Pose.getOrigin]
  ring
theorem turn_left (v : V3) : left.cwR *ᵥ v = v := by simp [left, Pose.ofWorldToCamera]
theorem turn_right (v : V3) : right.cwR *ᵥ v = v := by simp [right, Pose.ofWorldToCamera]

/-- A point in front of the first camera is allowed to match; a feature above it is not. -/
theorem allowed_level (x z : ℝ) (X : V3) (b2 : V3) (d : ℝ) (u1 : ![x, 0, z] ⬝ᵥ ![x, 0, z] = 1) (u2 : b2 ⬝ᵥ b2 = 1)
    (d1 : ℝ) (s1 : X = d1 • ![x, 0, z]) (s2 : X + ![-3 / 4, 0, 0] = d • b2) :
    error (right.relativeTo left) ![x, 0, z] b2 = 0 := by
  refine (C126_seen (shift_rigid 0) (shift_rigid _) u1 u2 (X := X) (d1 := d1) (d2 := d) ?_ ?_ (threshold := 1) one_pos).1
  · simpa [left, Pose.ofWorldToCamera, Pose.transform] using s1
  · simpa [right, Pose.ofWorldToCamera, Pose.transform] using s2

theorem above : error (right.relativeTo left) ![0, 0, 1] ![0, 1, 0] = Real.pi / 2 := by
  have h := C126_error (p1 := left) (p2 := right) (b1 := ![0, 0, 1]) (b2 := ![0, 1, 0]) (n1 := ![0, 1, 0])
    (n2 := ![0, 0, 1]) (shift_rigid 0) (shift_rigid _) (by simp [dot3]) (by simp [dot3])
    (by rw [origin_left, origin_right]; intro h; have := congrFun h 0; simp at this)
    (by rw [origin_left, origin_right, turn_left]; rintro ⟨k, h⟩; have := congrFun h 0; simp at this)
    (by rw [origin_left, origin_right, turn_right]; rintro ⟨k, h⟩; have := congrFun h 0; simp at this)
    (by rw [origin_left, origin_right, turn_left]; refine ⟨?_, ?_, ?_⟩ <;> simp [dot3])
    (by rw [origin_left, origin_right, turn_right]; refine ⟨?_, ?_, ?_⟩ <;> simp [dot3])
  rw [h, turn_left, turn_right]
  simp [dot3]

/-- The third feature of the second image looks the most like the first of the first image, but it is not on its epipolar
line; the match is the best on the line. -/
example : (0, 0) ∈ guidedMatches sortTwo (fun i j => if j = 2 then 0 else if i = j then 1 else 10) (8 / 10) 1
    (right.relativeTo left) [![0, 0, 1], ![3 / 5, 0, 4 / 5]]
    [![-3 / 5, 0, 4 / 5], ![-4 / 5, 0, 3 / 5], ![0, 1, 0]] := by
  refine ((C126_matches sortTwo_spec (fun i j => by positivity) (by norm_num) (by norm_num) 1 _ _ _).1 0 0).2 ?_
  have u1 : (![0, 0, 1] : V3) ⬝ᵥ ![0, 0, 1] = 1 := by simp [dot3]
  have u2 : (![3 / 5, 0, 4 / 5] : V3) ⬝ᵥ ![3 / 5, 0, 4 / 5] = 1 := by simp [dot3]; norm_num
  have u3 : (![-3 / 5, 0, 4 / 5] : V3) ⬝ᵥ ![-3 / 5, 0, 4 / 5] = 1 := by simp [dot3]; norm_num
  have u4 : (![-4 / 5, 0, 3 / 5] : V3) ⬝ᵥ ![-4 / 5, 0, 3 / 5] = 1 := by simp [dot3]; norm_num
  have e00 : error (right.relativeTo left) ![0, 0, 1] ![-3 / 5, 0, 4 / 5] = 0 :=
    allowed_level 0 1 ![0, 0, 1] _ (5 / 4) u1 u3 1 (by simp) (by ext i; fin_cases i <;> simp <;> norm_num)
  have e01 : error (right.relativeTo left) ![0, 0, 1] ![-4 / 5, 0, 3 / 5] = 0 :=
    allowed_level 0 1 ![0, 0, 9 / 16] _ (15 / 16) u1 u4 (9 / 16) (by ext i; fin_cases i <;> simp)
      (by ext i; fin_cases i <;> simp <;> norm_num)
  have e10 : error (right.relativeTo left) ![3 / 5, 0, 4 / 5] ![-3 / 5, 0, 4 / 5] = 0 :=
    allowed_level (3 / 5) (4 / 5) ![3 / 8, 0, 1 / 2] _ (5 / 8) u2 u3 (5 / 8) (by ext i; fin_cases i <;> simp <;> norm_num)
      (by ext i; fin_cases i <;> simp <;> norm_num)
  have h2 : ¬ Real.pi / 2 < 1 := by have := Real.pi_gt_three; linarith
  refine ⟨by simp, by simp, ⟨⟨by simp, by simp [e00]⟩, ⟨1, ⟨by simp, by simp [e01]⟩, by simp⟩, ?_⟩,
    ⟨⟨by simp, by simp [e00]⟩, ⟨1, ⟨by simp, by simp [e10]⟩, by simp⟩, ?_⟩⟩
  · rintro k ⟨hk, hk'⟩ hne
    simp only [List.length_cons, List.length_nil] at hk
    have hc : k = 1 ∨ k = 2 := by omega
    rcases hc with rfl | rfl
    · norm_num
    · exact absurd hk' (by simpa [above] using not_lt.1 h2)
  · rintro k ⟨hk, hk'⟩ hne
    simp only [List.length_cons, List.length_nil] at hk
    have hc : k = 1 := by omega
    subst hc
    norm_num

end Verif.Guided
