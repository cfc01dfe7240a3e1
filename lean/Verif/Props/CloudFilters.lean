import Verif.Model.CloudFilters
import Verif.Props.Outliers
import Verif.Props.Triangulation
import Mathlib.Analysis.Matrix.Spectrum

/-!
# C127: filters of the final point cloud
-/
set_option linter.unusedSectionVars false
set_option linter.unusedSimpArgs false
set_option linter.unusedVariables false
namespace Verif.CloudFilters
open Verif.Depthmap Verif.Triangulation Verif.SMap Matrix

variable {Id A K B P : Type} [DecidableEq Id]

/-! ### Specification -/

/-- The mean. -/
noncomputable def mean (l : List ℝ) : ℝ := l.sum / l.length

/-- The standard deviation. -/
noncomputable def deviation (l : List ℝ) : ℝ := Real.sqrt ((l.map (fun x => (x - mean l) ^ 2)).sum / l.length)

/-- What the removal of the landmarks `gone` does to a map. -/
structure Removed (m m' : SMap Id A V3 K B P) (gone : Id → Prop) : Prop where
  frame : SameFrame m m'
  lost : ∀ l, gone l → m'.landmarks.get? l = none ∧ ∀ s, m'.shotObservation s l = none
  kept : ∀ l, ¬ gone l → m'.landmarks.get? l = m.landmarks.get? l ∧ ∀ s, m'.shotObservation s l = m.shotObservation s l

/-- Two shots see the point under more than an angle, but not from opposite sides. -/
def WellSeen (origin : Id → V3) (minAngleDeg : ℝ) (lm : LmSt Id V3) : Prop :=
  ∃ s ∈ lm.obs.keys, ∃ t ∈ lm.obs.keys, s ≠ t ∧
    minAngleDeg * Real.pi / 180 < InnerProductGeometry.angle (pt (lm.pos - origin s)) (pt (lm.pos - origin t)) ∧
    InnerProductGeometry.angle (pt (lm.pos - origin s)) (pt (lm.pos - origin t)) ≠ Real.pi

/-- The information matrix of a point: what moving it by `v` does to its projections, squared and added. -/
def IsInformation (jac : Id → V3 → Matrix (Fin 2) (Fin 3) ℝ) (lm : LmSt Id V3) (M : M3) : Prop :=
  Mᵀ = M ∧ ∀ v, v ⬝ᵥ (M *ᵥ v) = (lm.obs.keys.map (fun s => (jac s lm.pos *ᵥ v) ⬝ᵥ (jac s lm.pos *ᵥ v))).sum

/-- The ratio of the largest to the smallest standard deviation over all directions, at most 1000. -/
def IsCondition (M : M3) (c : ℝ) : Prop :=
  ∃ lo hi : ℝ, 0 < lo ∧ (∀ v : V3, v ⬝ᵥ v = 1 → lo ≤ v ⬝ᵥ (M⁻¹ *ᵥ v) ∧ v ⬝ᵥ (M⁻¹ *ᵥ v) ≤ hi) ∧
    (∃ v : V3, v ⬝ᵥ v = 1 ∧ v ⬝ᵥ (M⁻¹ *ᵥ v) = lo) ∧ (∃ v : V3, v ⬝ᵥ v = 1 ∧ v ⬝ᵥ (M⁻¹ *ᵥ v) = hi) ∧
    c = min (Real.sqrt (hi / lo)) 1000

/-- A landmark that passes the tests of its own, with its condition number. -/
def Sound (origin : Id → V3) (jac : Id → V3 → Matrix (Fin 2) (Fin 3) ℝ) (minAngleDeg minDet : ℝ) (lm : LmSt Id V3)
    (c : ℝ) : Prop :=
  WellSeen origin minAngleDeg lm ∧ ∃ M : M3, IsInformation jac lm M ∧ minDet ≤ |M.det| ∧ IsCondition M c

/-- Eigenvalues of symmetric matrices. -/
def IsEigs (eigs : M3 → V3) : Prop :=
  ∀ M : M3, Mᵀ = M → ∃ Q : M3, Qᵀ * Q = 1 ∧ M = Q * diagonal (eigs M) * Qᵀ

/-- The least mean of `k` of the numbers. -/
def IsLeastMean (k : ℕ) (l : List ℝ) (a : ℝ) : Prop :=
  (∃ s : List ℝ, s.Sublist l ∧ s.length = k ∧ a = s.sum / k) ∧ ∀ s : List ℝ, s.Sublist l → s.length = k → a ≤ s.sum / k

/-- The squared distances of a point to the other points of a map. -/
noncomputable def distances (landmarks : Dict Id (LmSt Id V3)) (l : Id) (x : V3) : List ℝ :=
  (landmarks.filter (fun e => decide (e.1 ≠ l))).map (fun e => dist (pt x) (pt e.2.pos) ^ 2)

/-! ### Removal -/

theorem removeIds_spec (ids : List Id) (m : SMap Id A V3 K B P) (h : Inv m) (n : ℕ) (hn : ids.Nodup)
    (hl : ∀ l ∈ ids, (m.landmarks.get? l).isSome) :
    ∃ m', removeIds m ids n = (m', .ok (n + ids.length)) ∧ Inv m' ∧ Removed m m' (· ∈ ids) := by
  induction ids generalizing m n with
  | nil => exact ⟨m, rfl, h, .refl m, by simp, by simp⟩
  | cons l rest ih =>
    rw [List.nodup_cons] at hn
    obtain ⟨lm, hlm⟩ := Option.isSome_iff_exists.1 (hl l (by simp))
    obtain ⟨m1, e1, i1, f1, g1, o1⟩ := removeLandmark_effect h hlm
    obtain ⟨m2, e2, i2, r2⟩ := ih m1 i1 (n + 1) hn.2 (by
      intro l' hl'
      rw [g1, if_neg (by rintro rfl; exact hn.1 hl')]
      exact hl l' (by simp [hl']))
    refine ⟨m2, ?_, i2, f1.trans r2.frame, ?_, ?_⟩
    · simp only [removeIds, hlm, Option.isSome_some, if_true, e1, e2, List.length_cons]
      congr 2
      omega
    · intro l' hl'
      by_cases h' : l' ∈ rest
      · exact r2.lost l' h'
      · have : l' = l := by simpa [h'] using hl'
        subst this
        obtain ⟨k1, k2⟩ := r2.kept l' h'
        exact ⟨by rw [k1, g1, if_pos rfl], fun s => by rw [k2, o1, if_pos rfl]⟩
    · intro l' hl'
      simp only [List.mem_cons, not_or] at hl'
      obtain ⟨k1, k2⟩ := r2.kept l' hl'.2
      exact ⟨by rw [k1, g1, if_neg (Ne.symm hl'.1)], fun s => by rw [k2, o1, if_neg (Ne.symm hl'.1)]⟩

/-! ### Shares -/

theorem sum_sq_ge (xs : List ℝ) (c a : ℝ) (ha : 0 ≤ c + a) :
    (xs.countP (fun x => decide (c < x)) : ℝ) * (c + a) ^ 2 ≤ (xs.map (fun x => (x + a) ^ 2)).sum := by
  induction xs with
  | nil => simp
  | cons x xs ih =>
    rw [List.countP_cons, List.map_cons, List.sum_cons]
    by_cases h : c < x
    · simp only [h, decide_true, if_true]
      push_cast
      nlinarith
    · simp only [h, decide_false, Bool.false_eq_true, if_false, Nat.add_zero]
      nlinarith [sq_nonneg (x + a)]

theorem sum_shift (xs : List ℝ) (μ a : ℝ) :
    (xs.map (fun x => (x + (a - μ)) ^ 2)).sum =
      (xs.map (fun x => (x - μ) ^ 2)).sum + 2 * a * (xs.sum - xs.length * μ) + xs.length * a ^ 2 := by
  induction xs with
  | nil => simp
  | cons x xs ih =>
    simp only [List.map_cons, List.sum_cons, ih, List.length_cons]
    push_cast
    ring

/-- The inequality of Cantelli. -/
theorem share (xs : List ℝ) {k : ℝ} (hk : 0 < k) :
    (1 + k ^ 2) * (xs.countP (fun x => decide (mean xs + k * deviation xs < x)) : ℝ) ≤ xs.length := by
  rcases xs.eq_nil_or_concat with rfl | ⟨l, b, hl⟩
  · simp
  have hn : (0 : ℝ) < xs.length := by rw [hl]; simp; positivity
  obtain ⟨σ, hσ⟩ : ∃ σ, σ = deviation xs := ⟨_, rfl⟩
  obtain ⟨μ, hμ⟩ : ∃ μ, μ = mean xs := ⟨_, rfl⟩
  have hsum : xs.sum = xs.length * μ := by rw [hμ]; unfold mean; field_simp
  have hss : 0 ≤ (xs.map (fun x => (x - μ) ^ 2)).sum := by
    apply List.sum_nonneg
    intro y hy
    obtain ⟨x, -, rfl⟩ := List.mem_map.1 hy
    positivity
  have hvar : (xs.map (fun x => (x - μ) ^ 2)).sum = xs.length * σ ^ 2 := by
    rw [hσ]; unfold deviation
    rw [Real.sq_sqrt (div_nonneg (by rw [← hμ]; exact hss) hn.le), ← hμ]
    field_simp
  have hσ0 : 0 ≤ σ := by rw [hσ]; exact Real.sqrt_nonneg _
  rw [← hσ, ← hμ]
  rcases hσ0.eq_or_lt with h0 | h0
  · have hz : ∀ x ∈ xs, x = μ := by
      intro x hx
      rw [← h0] at hvar
      have h1 : (x - μ) ^ 2 ≤ (xs.map (fun x => (x - μ) ^ 2)).sum := by
        apply List.single_le_sum _ _ (List.mem_map.2 ⟨x, hx, rfl⟩)
        intro y hy
        obtain ⟨x, -, rfl⟩ := List.mem_map.1 hy
        positivity
      have : (x - μ) ^ 2 = 0 := le_antisymm (by rw [hvar] at h1; simpa using h1) (sq_nonneg _)
      have := pow_eq_zero_iff (two_ne_zero) |>.1 this
      linarith
    have : xs.countP (fun x => decide (μ + k * σ < x)) = 0 := by
      rw [List.countP_eq_zero]
      intro x hx
      rw [hz x hx, ← h0]
      simp
    rw [this]
    simp
  · have h1 := sum_sq_ge xs (μ + k * σ) (σ / k - μ) (by
      have : 0 < k * σ + σ / k := by positivity
      linarith)
    rw [sum_shift, hvar, hsum] at h1
    have e : μ + k * σ + (σ / k - μ) = σ / k * (1 + k ^ 2) := by field_simp; ring
    rw [e] at h1
    have h2 : (xs.length : ℝ) * σ ^ 2 + 2 * (σ / k) * (xs.length * μ - xs.length * μ) + xs.length * (σ / k) ^ 2 =
        (σ / k) ^ 2 * (1 + k ^ 2) * xs.length := by field_simp; ring
    rw [h2, mul_pow] at h1
    have hp : 0 < (σ / k) ^ 2 * (1 + k ^ 2) := by positivity
    have h3 : (σ / k) ^ 2 * (1 + k ^ 2) * ((1 + k ^ 2) * (xs.countP (fun x => decide (μ + k * σ < x)) : ℝ)) ≤
        (σ / k) ^ 2 * (1 + k ^ 2) * xs.length := by
      calc _ = (xs.countP (fun x => decide (μ + k * σ < x)) : ℝ) * ((σ / k) ^ 2 * (1 + k ^ 2) ^ 2) := by ring
        _ ≤ _ := h1
    exact le_of_mul_le_mul_left h3 hp

/-! ### Conditions -/

theorem angle_normalized (u v : V3) : InnerProductGeometry.angle (pt (normalized u)) (pt (normalized v)) =
    InnerProductGeometry.angle (pt u) (pt v) := by
  have key : ∀ w : V3, w = 0 ∨ ∃ c : ℝ, 0 < c ∧ normalized w = c • w := by
    intro w
    by_cases h : w = 0
    · exact .inl h
    · refine .inr ⟨1 / norm3 w, ?_, rfl⟩
      have : 0 < w ⬝ᵥ w := lt_of_le_of_ne (dot_self_nonneg w) (fun e => h (dot_self_zero.1 e.symm))
      unfold norm3
      exact div_pos one_pos (Real.sqrt_pos.2 this)
  have ps : ∀ (c : ℝ) (w : V3), pt (c • w) = c • pt w := fun _ _ => rfl
  have nz : normalized (0 : V3) = 0 := by unfold normalized; simp
  rcases key u with rfl | ⟨c, hc, hu⟩
  · rw [nz]
    have : pt (0 : V3) = 0 := rfl
    rw [this, InnerProductGeometry.angle_zero_left, InnerProductGeometry.angle_zero_left]
  rcases key v with rfl | ⟨d, hd, hv⟩
  · rw [nz]
    have : pt (0 : V3) = 0 := rfl
    rw [this, InnerProductGeometry.angle_zero_right, InnerProductGeometry.angle_zero_right]
  rw [hu, hv, ps, ps, InnerProductGeometry.angle_smul_left_of_pos _ _ hc, InnerProductGeometry.angle_smul_right_of_pos _ _ hd]

theorem wide_pairwise (a : ℝ) (rays : List V3) : wideAngle a rays ↔
    ¬ rays.Pairwise (fun r q => ¬ angleBetween (normalized r) (normalized q) > a) := by
  induction rays with
  | nil => simp [wideAngle]
  | cons r rest ih =>
    rw [wideAngle, ih, List.pairwise_cons]
    push Not
    constructor
    · rintro (⟨q, hq, h⟩ | h)
      · exact fun hh => absurd h (not_lt.2 (hh q hq))
      · exact fun _ => h
    · intro h
      by_cases hh : ∀ q ∈ rest, angleBetween (normalized r) (normalized q) ≤ a
      · exact .inr (h hh)
      · push Not at hh
        exact .inl hh

theorem wide_iff (origin : Id → V3) {d : ℝ} (hd : 0 ≤ d) (lm : LmSt Id V3) (hn : lm.obs.keys.Nodup) :
    wideAngle (d * Real.pi / 180) ((lm.obs.map (·.1)).map (fun s => lm.pos - origin s)) ↔ WellSeen origin d lm := by
  have h0 : 0 ≤ d * Real.pi / 180 := by positivity
  rw [wide_pairwise, List.pairwise_map]
  have e : ∀ s t, (¬ angleBetween (normalized (lm.pos - origin s)) (normalized (lm.pos - origin t)) > d * Real.pi / 180) ↔
      ¬ (d * Real.pi / 180 < InnerProductGeometry.angle (pt (lm.pos - origin s)) (pt (lm.pos - origin t)) ∧
        InnerProductGeometry.angle (pt (lm.pos - origin s)) (pt (lm.pos - origin t)) ≠ Real.pi) := by
    intro s t
    rw [C85_angle, angle_normalized]
    by_cases hp : InnerProductGeometry.angle (pt (lm.pos - origin s)) (pt (lm.pos - origin t)) = Real.pi
    · rw [if_pos hp]
      simp only [hp, ne_eq, not_true_eq_false, and_false, not_false_eq_true, iff_true]
      exact not_lt.2 h0
    · rw [if_neg hp]
      simp [hp]
  simp only [e]
  have hs : Std.Symm (fun s t => ¬ (d * Real.pi / 180 < InnerProductGeometry.angle (pt (lm.pos - origin s)) (pt (lm.pos - origin t)) ∧
        InnerProductGeometry.angle (pt (lm.pos - origin s)) (pt (lm.pos - origin t)) ≠ Real.pi)) := by
    constructor
    intro s t h
    rw [InnerProductGeometry.angle_comm]
    exact h
  constructor
  · intro h
    by_contra hw
    apply h
    apply List.Nodup.pairwise_of_forall_ne hn
    intro s hs' t ht hst hh
    exact hw ⟨s, hs', t, ht, hst, hh⟩
  · rintro ⟨s, hs', t, ht, hst, hh⟩ hp
    exact hp.forall hs' ht hst hh

theorem information_is (jac : Id → V3 → Matrix (Fin 2) (Fin 3) ℝ) (lm : LmSt Id V3) :
    IsInformation jac lm (information jac (lm.obs.map (·.1)) lm.pos) := by
  unfold information IsInformation Dict.keys
  generalize lm.obs.map (·.1) = ss
  induction ss with
  | nil => simp
  | cons s ss ih =>
    simp only [List.map_cons, List.sum_cons]
    refine ⟨?_, fun v => ?_⟩
    · rw [Matrix.transpose_add, ih.1, Matrix.transpose_mul, Matrix.transpose_transpose]
    · rw [Matrix.add_mulVec, dotProduct_add, ih.2 v, ← Matrix.mulVec_mulVec, Matrix.dotProduct_mulVec,
        Matrix.vecMul_transpose]

theorem quad {M Q : M3} {e : V3} (h : M = Q * diagonal e * Qᵀ) (v : V3) :
    v ⬝ᵥ (M *ᵥ v) = e 0 * ((Qᵀ *ᵥ v) 0) ^ 2 + e 1 * ((Qᵀ *ᵥ v) 1) ^ 2 + e 2 * ((Qᵀ *ᵥ v) 2) ^ 2 := by
  rw [h, ← Matrix.mulVec_mulVec, ← Matrix.mulVec_mulVec, Matrix.dotProduct_mulVec v Q, ← Matrix.mulVec_transpose]
  generalize Qᵀ *ᵥ v = w
  simp only [dotProduct, Matrix.mulVec_diagonal, Fin.sum_univ_three]
  ring

/-- The least and the largest value of a quadratic form over the directions. -/
theorem extremes {M Q : M3} {e : V3} (hQ : Qᵀ * Q = 1) (h : M = Q * diagonal e * Qᵀ) :
    (∀ v : V3, v ⬝ᵥ v = 1 → minCoeff e ≤ v ⬝ᵥ (M *ᵥ v) ∧ v ⬝ᵥ (M *ᵥ v) ≤ maxCoeff e) ∧
    (∃ v : V3, v ⬝ᵥ v = 1 ∧ v ⬝ᵥ (M *ᵥ v) = minCoeff e) ∧ (∃ v : V3, v ⬝ᵥ v = 1 ∧ v ⬝ᵥ (M *ᵥ v) = maxCoeff e) := by
  have hQ' : Q * Qᵀ = 1 := _root_.mul_eq_one_comm.1 hQ
  have unit : ∀ v : V3, v ⬝ᵥ v = 1 → ((Qᵀ *ᵥ v) 0) ^ 2 + ((Qᵀ *ᵥ v) 1) ^ 2 + ((Qᵀ *ᵥ v) 2) ^ 2 = 1 := by
    intro v hv
    have := quad (M := Q * diagonal (fun _ => (1 : ℝ)) * Qᵀ) (Q := Q) (e := fun _ => (1 : ℝ)) rfl v
    have e1 : (diagonal (fun _ => (1 : ℝ)) : M3) = 1 := Matrix.diagonal_one
    rw [e1, mul_one, hQ', one_mulVec, hv] at this
    linarith
  have att : ∀ i : Fin 3, ∃ v : V3, v ⬝ᵥ v = 1 ∧ v ⬝ᵥ (M *ᵥ v) = e i := by
    intro i
    have hv : Qᵀ *ᵥ (Q *ᵥ Pi.single i 1) = Pi.single i (1 : ℝ) := by rw [Matrix.mulVec_mulVec, hQ, one_mulVec]
    refine ⟨Q *ᵥ Pi.single i 1, ?_, ?_⟩
    · rw [Matrix.dotProduct_mulVec, ← Matrix.mulVec_transpose, hv]
      simp
    · rw [quad h, hv]
      fin_cases i <;> simp
  refine ⟨fun v hv => ?_, ?_, ?_⟩
  · have u := unit v hv
    rw [quad h]
    have a0 : minCoeff e ≤ e 0 := min_le_left _ _
    have a1 : minCoeff e ≤ e 1 := (min_le_right _ _).trans (min_le_left _ _)
    have a2 : minCoeff e ≤ e 2 := (min_le_right _ _).trans (min_le_right _ _)
    have b0 : e 0 ≤ maxCoeff e := le_max_left _ _
    have b1 : e 1 ≤ maxCoeff e := (le_max_left _ _).trans (le_max_right _ _)
    have b2 : e 2 ≤ maxCoeff e := (le_max_right _ _).trans (le_max_right _ _)
    have s0 := sq_nonneg ((Qᵀ *ᵥ v) 0)
    have s1 := sq_nonneg ((Qᵀ *ᵥ v) 1)
    have s2 := sq_nonneg ((Qᵀ *ᵥ v) 2)
    constructor
    · calc minCoeff e = minCoeff e * (((Qᵀ *ᵥ v) 0) ^ 2 + ((Qᵀ *ᵥ v) 1) ^ 2 + ((Qᵀ *ᵥ v) 2) ^ 2) := by rw [u, mul_one]
        _ ≤ _ := by nlinarith [mul_le_mul_of_nonneg_right a0 s0, mul_le_mul_of_nonneg_right a1 s1, mul_le_mul_of_nonneg_right a2 s2]
    · calc _ ≤ maxCoeff e * (((Qᵀ *ᵥ v) 0) ^ 2 + ((Qᵀ *ᵥ v) 1) ^ 2 + ((Qᵀ *ᵥ v) 2) ^ 2) := by
            nlinarith [mul_le_mul_of_nonneg_right b0 s0, mul_le_mul_of_nonneg_right b1 s1, mul_le_mul_of_nonneg_right b2 s2]
        _ = maxCoeff e := by rw [u, mul_one]
  · have : minCoeff e = e 0 ∨ minCoeff e = e 1 ∨ minCoeff e = e 2 := by
      unfold minCoeff
      rcases min_choice (e 0) (min (e 1) (e 2)) with h | h
      · exact .inl h
      · rcases min_choice (e 1) (e 2) with h' | h'
        · exact .inr (.inl (h.trans h'))
        · exact .inr (.inr (h.trans h'))
    rcases this with h | h | h <;> rw [h] <;> exact att _
  · have : maxCoeff e = e 0 ∨ maxCoeff e = e 1 ∨ maxCoeff e = e 2 := by
      unfold maxCoeff
      rcases max_choice (e 0) (max (e 1) (e 2)) with h | h
      · exact .inl h
      · rcases max_choice (e 1) (e 2) with h' | h'
        · exact .inr (.inl (h.trans h'))
        · exact .inr (.inr (h.trans h'))
    rcases this with h | h | h <;> rw [h] <;> exact att _

/-- The inverse of an information matrix is positive. -/
theorem inverse_pos {jac : Id → V3 → Matrix (Fin 2) (Fin 3) ℝ} {lm : LmSt Id V3} {M : M3} (h : IsInformation jac lm M)
    (hd : M.det ≠ 0) {v : V3} (hv : v ⬝ᵥ v = 1) : 0 < v ⬝ᵥ (M⁻¹ *ᵥ v) := by
  have hu : IsUnit M.det := isUnit_iff_ne_zero.2 hd
  obtain ⟨w, hw⟩ : ∃ w, w = M⁻¹ *ᵥ v := ⟨_, rfl⟩
  have hvw : v = M *ᵥ w := by rw [hw, Matrix.mulVec_mulVec, Matrix.mul_nonsing_inv _ hu, one_mulVec]
  have nonneg : ∀ u : V3, 0 ≤ u ⬝ᵥ (M *ᵥ u) := by
    intro u
    rw [h.2]
    apply List.sum_nonneg
    intro y hy
    obtain ⟨s, -, rfl⟩ := List.mem_map.1 hy
    exact Finset.sum_nonneg (fun i _ => mul_self_nonneg _)
  have e : v ⬝ᵥ (M⁻¹ *ᵥ v) = w ⬝ᵥ (M *ᵥ w) := by rw [← hw, dotProduct_comm, ← hvw]
  rw [e]
  refine lt_of_le_of_ne (nonneg w) (fun h0 => ?_)
  -- the form vanishes at w, hence its derivative does
  have hz : v ⬝ᵥ v = 0 := by
    have sym : ∀ a b : V3, a ⬝ᵥ (M *ᵥ b) = b ⬝ᵥ (M *ᵥ a) := by
      intro a b
      rw [Matrix.dotProduct_mulVec, ← Matrix.mulVec_transpose, h.1, dotProduct_comm]
    obtain ⟨c, hc⟩ : ∃ c, c = v ⬝ᵥ (M *ᵥ v) := ⟨_, rfl⟩
    have hc0 : 0 ≤ c := hc ▸ nonneg v
    have key : ∀ t : ℝ, 0 ≤ 2 * t * (v ⬝ᵥ v) + t ^ 2 * c := by
      intro t
      have := nonneg (w + t • v)
      rw [Matrix.mulVec_add, dotProduct_add, add_dotProduct, add_dotProduct, ← h0, Matrix.mulVec_smul, dotProduct_smul,
        dotProduct_smul, smul_dotProduct, smul_dotProduct, sym w v, ← hvw, ← hc] at this
      simp only [smul_eq_mul] at this
      linarith
    rw [hv] at key
    have := key (-(1 / (1 + c)))
    have h1 : 0 < 1 + c := by linarith
    have e2 : 2 * (-(1 / (1 + c))) * 1 + (-(1 / (1 + c))) ^ 2 * c = -(2 + c) / (1 + c) ^ 2 := by
      field_simp
      ring
    rw [e2] at this
    have : -(2 + c) / (1 + c) ^ 2 < 0 := div_neg_of_neg_of_pos (by linarith) (by positivity)
    linarith
  rw [hv] at hz
  exact one_ne_zero hz

theorem information_unique {jac : Id → V3 → Matrix (Fin 2) (Fin 3) ℝ} {lm : LmSt Id V3} {M N : M3}
    (h : IsInformation jac lm M) (h' : IsInformation jac lm N) : M = N := by
  have sym : ∀ X : M3, Xᵀ = X → ∀ a b : V3, a ⬝ᵥ (X *ᵥ b) = b ⬝ᵥ (X *ᵥ a) := by
    intro X hX a b
    rw [Matrix.dotProduct_mulVec, ← Matrix.mulVec_transpose, hX, dotProduct_comm]
  have exp : ∀ X : M3, Xᵀ = X → ∀ a b : V3, a ⬝ᵥ (X *ᵥ b) =
      ((a + b) ⬝ᵥ (X *ᵥ (a + b)) - a ⬝ᵥ (X *ᵥ a) - b ⬝ᵥ (X *ᵥ b)) / 2 := by
    intro X hX a b
    rw [Matrix.mulVec_add, dotProduct_add, add_dotProduct, add_dotProduct, sym X hX b a]
    ring
  ext i j
  have ent : ∀ X : M3, X i j = Pi.single i 1 ⬝ᵥ (X *ᵥ Pi.single j 1) := by intro X; simp
  rw [ent M, ent N, exp M h.1, exp N h'.1, h.2, h.2, h.2, h'.2, h'.2, h'.2]

theorem condition_unique {M : M3} {c c' : ℝ} (h : IsCondition M c) (h' : IsCondition M c') : c = c' := by
  obtain ⟨lo, hi, h0, hb, ⟨v, v1, v2⟩, ⟨w, w1, w2⟩, rfl⟩ := h
  obtain ⟨lo', hi', h0', hb', ⟨v', v1', v2'⟩, ⟨w', w1', w2'⟩, rfl⟩ := h'
  have e1 : lo = lo' := le_antisymm (v2' ▸ (hb v' v1').1) (v2 ▸ (hb' v v1).1)
  have e2 : hi = hi' := le_antisymm (w2 ▸ (hb' w w1).2) (w2' ▸ (hb w' w1').2)
  rw [e1, e2]

theorem verdict_spec (origin : Id → V3) (jac : Id → V3 → Matrix (Fin 2) (Fin 3) ℝ) {eigs : M3 → V3} (he : IsEigs eigs)
    {d t : ℝ} (hd : 0 ≤ d) (ht : 0 < t) (lm : LmSt Id V3) (hn : lm.obs.keys.Nodup) (c : ℝ) :
    verdict origin jac eigs d t lm = some c ↔ Sound origin jac d t lm c := by
  have hi := information_is jac lm
  unfold verdict Sound
  simp only
  by_cases hw : WellSeen origin d lm
  swap
  · rw [if_pos (by rw [wide_iff origin hd lm hn]; exact hw)]
    simp [hw]
  rw [if_neg (by rw [wide_iff origin hd lm hn]; exact not_not.2 hw)]
  generalize hM : information jac (lm.obs.map (·.1)) lm.pos = M
  rw [hM] at hi
  by_cases hdet : |M.det| < t
  · rw [if_pos hdet]
    constructor
    · intro h; cases h
    · rintro ⟨-, N, hN, hd', -⟩
      rw [information_unique hN hi] at hd'
      exact absurd hdet (not_lt.2 hd')
  rw [if_neg hdet]
  have hdet' : M.det ≠ 0 := by
    intro h0
    rw [h0, abs_zero] at hdet
    exact hdet ht
  obtain ⟨Q, hQ, hQM⟩ := he M⁻¹ (by rw [Matrix.transpose_nonsing_inv, hi.1])
  obtain ⟨b1, ⟨v, v1, v2⟩, b3⟩ := extremes hQ hQM
  have hpos : 0 < minCoeff (eigs M⁻¹) := v2 ▸ inverse_pos hi hdet' v1
  have hcond : IsCondition M (condition (eigs M⁻¹)) := ⟨_, _, hpos, b1, ⟨v, v1, v2⟩, b3, rfl⟩
  rw [if_neg (not_le.2 hpos)]
  constructor
  · intro h
    cases h
    exact ⟨hw, M, hi, not_lt.1 hdet, hcond⟩
  · rintro ⟨-, N, hN, -, hc⟩
    rw [information_unique hN hi] at hc
    rw [condition_unique hc hcond]

theorem average_mean : average = mean := rfl
theorem stdDev_deviation : stdDev = deviation := rfl

theorem conds_keys_sublist (v : LmSt Id V3 → Option ℝ) (L : Dict Id (LmSt Id V3)) :
    ((conds v L).map (·.1)).Sublist (L.map (·.1)) := by
  induction L with
  | nil => exact List.Sublist.slnil
  | cons e L ih =>
    unfold conds at ih ⊢
    rw [List.filterMap_cons]
    cases v e.2 with
    | none => exact ih.cons _
    | some c => exact ih.cons_cons _

theorem mem_conds {v : LmSt Id V3 → Option ℝ} {L : Dict Id (LmSt Id V3)} (hw : L.Wf) {l : Id} {c : ℝ} :
    (l, c) ∈ conds v L ↔ ∃ lm, L.get? l = some lm ∧ v lm = some c := by
  unfold conds
  rw [List.mem_filterMap]
  constructor
  · rintro ⟨⟨l', lm⟩, hm, he⟩
    obtain ⟨c', hc, hp⟩ := Option.map_eq_some_iff.1 he
    cases hp
    exact ⟨lm, (Dict.mem_iff_get? hw).1 hm, hc⟩
  · rintro ⟨lm, hm, hc⟩
    exact ⟨(l, lm), (Dict.mem_iff_get? hw).2 hm, by rw [hc]; rfl⟩

theorem inj_of_nodup_keys {V : Type} {D : List (Id × V)} (hn : (D.map (·.1)).Nodup) {k : Id} {a b : V}
    (ha : (k, a) ∈ D) (hb : (k, b) ∈ D) : a = b := by
  have := List.inj_on_of_nodup_map hn ha hb rfl
  exact (Prod.mk.inj this).2

/-- The filter of badly conditioned points removes exactly the landmarks that are not sound, and of the sound ones those
whose condition number is more than one deviation above the mean of all of them. -/
theorem C127_conditioned [Group P] [DecidableEq P] (b0 : B) (ops : List (Op Id A V3 K B P)) (hd : Disciplined b0 ops)
    (origin : Id → V3) (jac : Id → V3 → Matrix (Fin 2) (Fin 3) ℝ) {eigs : M3 → V3} (he : IsEigs eigs)
    {minAngleDeg minDet : ℝ} (ha : 0 ≤ minAngleDeg) (ht : 0 < minDet) :
    ∃ (m' : SMap Id A V3 K B P) (gone : List Id) (sound : List (Id × ℝ)),
      filterBadlyConditioned origin jac eigs minAngleDeg minDet (run b0 ops) = (m', .ok gone.length) ∧
      (sound.map (·.1)).Nodup ∧
      (∀ l c, (l, c) ∈ sound ↔ ∃ lm, (run b0 ops).landmarks.get? l = some lm ∧
        Sound origin jac minAngleDeg minDet lm c) ∧
      gone.Nodup ∧
      (∀ l, l ∈ gone ↔ ((run b0 ops).landmarks.get? l).isSome ∧
        ¬ ∃ c, (l, c) ∈ sound ∧ c ≤ mean (sound.map (·.2)) + deviation (sound.map (·.2))) ∧
      Removed (run b0 ops) m' (· ∈ gone) := by
  have hinv := inv_run b0 ops hd
  generalize run b0 ops = m at hinv
  obtain ⟨v, hv⟩ : ∃ v, v = verdict origin jac eigs minAngleDeg minDet := ⟨_, rfl⟩
  obtain ⟨cs, hcs⟩ : ∃ cs, cs = conds v m.landmarks := ⟨_, rfl⟩
  have hcn : (cs.map (·.1)).Nodup := hcs ▸ (conds_keys_sublist v m.landmarks).nodup hinv.wfLms
  have hvs : ∀ l lm, m.landmarks.get? l = some lm → ∀ c, v lm = some c ↔ Sound origin jac minAngleDeg minDet lm c :=
    fun l lm hl c => hv ▸ verdict_spec origin jac he ha ht lm (hinv.lmWf l lm hl) c
  have hmem : ∀ l c, (l, c) ∈ cs ↔ ∃ lm, m.landmarks.get? l = some lm ∧ v lm = some c :=
    fun l c => hcs ▸ mem_conds hinv.wfLms
  have hgone : ∀ l, l ∈ toRemove v m.landmarks ↔ (m.landmarks.get? l).isSome ∧
      ¬ ∃ c, (l, c) ∈ cs ∧ c ≤ mean (cs.map (·.2)) + deviation (cs.map (·.2)) := by
    intro l
    unfold toRemove
    simp only [average_mean, stdDev_deviation, one_mul, ← hcs]
    rw [List.mem_append, List.mem_map, List.mem_map]
    constructor
    · rintro (⟨⟨l', lm⟩, h1, rfl⟩ | ⟨⟨l', c⟩, h1, rfl⟩)
      · rw [List.mem_filter, Dict.mem_iff_get? hinv.wfLms] at h1
        refine ⟨by simp [h1.1], ?_⟩
        rintro ⟨c, hc, -⟩
        obtain ⟨lm', e1, e2⟩ := (hmem _ _).1 hc
        have : lm' = lm := by simpa [h1.1] using e1.symm
        subst this
        have := h1.2
        simp [e2] at this
      · rw [List.mem_filter] at h1
        obtain ⟨lm', e1, e2⟩ := (hmem _ _).1 h1.1
        refine ⟨by simp [e1], ?_⟩
        rintro ⟨c', hc', hle⟩
        rw [inj_of_nodup_keys hcn hc' h1.1] at hle
        have := h1.2
        rw [decide_eq_true_eq] at this
        linarith
    · rintro ⟨h1, h2⟩
      obtain ⟨lm, hlm⟩ := Option.isSome_iff_exists.1 h1
      cases hc : v lm with
      | none =>
        exact .inl ⟨(l, lm), List.mem_filter.2 ⟨(Dict.mem_iff_get? hinv.wfLms).2 hlm, by simp [hc]⟩, rfl⟩
      | some c =>
        have hm : (l, c) ∈ cs := (hmem l c).2 ⟨lm, hlm, hc⟩
        refine .inr ⟨(l, c), List.mem_filter.2 ⟨hm, ?_⟩, rfl⟩
        rw [decide_eq_true_eq]
        by_contra hh
        exact h2 ⟨c, hm, not_lt.1 hh⟩
  have hnd : (toRemove v m.landmarks).Nodup := by
    unfold toRemove
    simp only [← hcs]
    refine List.nodup_append.2 ⟨?_, ?_, ?_⟩
    · exact ((List.filter_sublist).map _).nodup hinv.wfLms
    · exact ((List.filter_sublist).map _).nodup hcn
    · intro a ha b hb hab
      subst hab
      obtain ⟨⟨l', lm⟩, h1, rfl⟩ := List.mem_map.1 ha
      obtain ⟨⟨l'', c⟩, h2, h3⟩ := List.mem_map.1 hb
      simp only at h3
      subst h3
      rw [List.mem_filter, Dict.mem_iff_get? hinv.wfLms] at h1
      obtain ⟨lm', e1, e2⟩ := (hmem _ _).1 (List.mem_filter.1 h2).1
      have : lm' = lm := by simpa [h1.1] using e1.symm
      subst this
      have := h1.2
      simp [e2] at this
  obtain ⟨m', e, -, r⟩ := removeIds_spec (toRemove v m.landmarks) m hinv 0 hnd (fun l hl => ((hgone l).1 hl).1)
  refine ⟨m', toRemove v m.landmarks, cs, ?_, hcn, ?_, hnd, hgone, r⟩
  · unfold filterBadlyConditioned
    rw [← hv, e, Nat.zero_add]
  · intro l c
    rw [hmem]
    constructor
    · rintro ⟨lm, h1, h2⟩
      exact ⟨lm, h1, (hvs l lm h1 c).1 h2⟩
    · rintro ⟨lm, h1, h2⟩
      exact ⟨lm, h1, (hvs l lm h1 c).2 h2⟩

/-- At most half of the numbers are more than one deviation above the mean. -/
theorem C127_half (cs : List (Id × ℝ)) :
    2 * (cs.filter (fun e => decide (mean (cs.map (·.2)) + deviation (cs.map (·.2)) < e.2))).length ≤ cs.length := by
  have h := share (cs.map (·.2)) (k := 1) one_pos
  rw [List.countP_map, List.length_map, one_mul, List.countP_eq_length_filter] at h
  norm_num at h
  exact_mod_cast h

/-! ### Isolated points -/

theorem take_sum_le (l : List ℝ) (hl : l.Pairwise (· ≤ ·)) (s : List ℝ) (hs : s.Sublist l) :
    (l.take s.length).sum ≤ s.sum := by
  induction l generalizing s with
  | nil => rw [List.sublist_nil.1 hs]; simp
  | cons a l ih =>
    rw [List.pairwise_cons] at hl
    cases s with
    | nil => simp
    | cons b t =>
      rw [List.length_cons, List.take_succ_cons, List.sum_cons, List.sum_cons]
      rcases List.cons_sublist_cons'.1 hs with h | ⟨rfl, h⟩
      · have hb : b ∈ l := h.subset (by simp)
        have := ih hl.2 t ((List.sublist_cons_self b t).trans h)
        linarith [hl.1 b hb]
      · linarith [ih hl.2 t h]

theorem sorted_ge (l : List ℝ) : (l.mergeSort (fun a b => decide (a ≤ b))).Pairwise (· ≤ ·) := by
  have := List.pairwise_mergeSort (le := fun a b : ℝ => decide (a ≤ b)) (by
    intro a b c h1 h2
    rw [decide_eq_true_eq] at *
    exact h1.trans h2) (by
    intro a b
    rw [Bool.or_eq_true, decide_eq_true_eq, decide_eq_true_eq]
    exact le_total a b) l
  exact this.imp (by simp)

theorem least_mean (k : ℕ) (l : List ℝ) (h : k ≤ l.length) :
    IsLeastMean k l (((l.mergeSort (fun a b => decide (a ≤ b))).take k).sum / k) := by
  have hp := List.mergeSort_perm l (fun a b => decide (a ≤ b))
  have hlen : ((l.mergeSort (fun a b => decide (a ≤ b))).take k).length = k := by
    rw [List.length_take, hp.length_eq, min_eq_left h]
  constructor
  · obtain ⟨s, h1, h2⟩ := ((List.take_sublist k _).subperm.trans hp.subperm)
    exact ⟨s, h2, h1.length_eq.trans hlen, by rw [h1.sum_eq]⟩
  · intro s hs hk
    have h1 : (s.mergeSort (fun a b => decide (a ≤ b))).Sublist (l.mergeSort (fun a b => decide (a ≤ b))) :=
      List.sublist_of_subperm_of_pairwise
        ((List.mergeSort_perm s _).subperm.trans (hs.subperm.trans hp.symm.subperm)) (sorted_ge s) (sorted_ge l)
    have := take_sum_le _ (sorted_ge l) _ h1
    rw [(List.mergeSort_perm s _).length_eq, hk, (List.mergeSort_perm s _).sum_eq] at this
    exact div_le_div_of_nonneg_right this (Nat.cast_nonneg k)

theorem least_mean_unique {k : ℕ} {l : List ℝ} {a b : ℝ} (h : IsLeastMean k l a) (h' : IsLeastMean k l b) : a = b := by
  obtain ⟨⟨s, s1, s2, rfl⟩, hs⟩ := h
  obtain ⟨⟨t, t1, t2, rfl⟩, ht⟩ := h'
  exact le_antisymm (hs t t1 t2) (ht s s1 s2)

theorem least_mean_perm {k : ℕ} {l l' : List ℝ} (hp : l.Perm l') {a : ℝ} (h : IsLeastMean k l a) : IsLeastMean k l' a := by
  obtain ⟨⟨s, s1, s2, s3⟩, hs⟩ := h
  constructor
  · obtain ⟨t, t1, t2⟩ := s1.subperm.trans hp.subperm
    exact ⟨t, t2, t1.length_eq.trans s2, by rw [s3, t1.sum_eq]⟩
  · intro t t1 t2
    obtain ⟨u, u1, u2⟩ := t1.subperm.trans hp.symm.subperm
    rw [← u1.sum_eq]
    exact hs u u2 (u1.length_eq.trans t2)

theorem squared_dist (x y : V3) : squared x y = dist (pt x) (pt y) ^ 2 := by
  rw [dist_eq_norm]
  have : pt x - pt y = pt (x - y) := rfl
  rw [this, norm_pt, Real.sq_sqrt (dot_self_nonneg _)]
  rfl

theorem neighbor_spec (k : ℕ) (L : Dict Id (LmSt Id V3)) (hw : L.Wf) {l : Id} {lm : LmSt Id V3}
    (hl : L.get? l = some lm) (hk : k < L.length) :
    IsLeastMean k (distances L l lm.pos) (neighborAverage k (L.map (fun e => e.2.pos)) lm.pos) := by
  have hperm : L.Perm ((l, lm) :: L.filter (fun e => decide (e.1 ≠ l))) := by
    rw [← erase_eq_filter]
    have hm := (Dict.mem_iff_get? hw).2 hl
    clear hk
    induction L with
    | nil => simp at hm
    | cons p t ih =>
      obtain ⟨a, b⟩ := p
      have hwt : Dict.Wf t := (List.nodup_cons.1 hw).2
      rw [Dict.erase]
      by_cases h : a = l
      · subst h
        rw [if_pos rfl]
        rw [Dict.get?, if_pos rfl] at hl
        cases hl
        have : a ∉ t.map (·.1) := (List.nodup_cons.1 hw).1
        have e : Dict.erase t a = t := by
          rw [erase_eq_filter, List.filter_eq_self]
          intro q hq
          rw [decide_eq_true_eq]
          rintro rfl
          exact this (List.mem_map.2 ⟨q, hq, rfl⟩)
        rw [e]
      · rw [if_neg h]
        rw [Dict.get?, if_neg h] at hl
        have := ih hwt hl ((Dict.mem_iff_get? hwt).2 hl)
        exact (this.cons _).trans (List.Perm.swap _ _ _)
  have hd : ((L.map (fun e => e.2.pos)).map (squared lm.pos)).Perm (0 :: distances L l lm.pos) := by
    rw [List.map_map]
    have := hperm.map (squared lm.pos ∘ fun e => e.2.pos)
    rw [List.map_cons] at this
    have e0 : (squared lm.pos ∘ fun e => e.2.pos) (l, lm) = 0 := by simp [squared]
    rw [e0] at this
    have e1 : List.map (squared lm.pos ∘ fun e => e.2.pos) (L.filter (fun e => decide (e.1 ≠ l))) = distances L l lm.pos := by
      unfold distances
      exact List.map_congr_left (fun e _ => squared_dist _ _)
    rwa [e1] at this
  have hnn : ∀ x ∈ distances L l lm.pos, 0 ≤ x := by
    intro x hx
    unfold distances at hx
    obtain ⟨e, -, rfl⟩ := List.mem_map.1 hx
    positivity
  have hs : ((L.map (fun e => e.2.pos)).map (squared lm.pos)).mergeSort (fun a b => decide (a ≤ b)) =
      0 :: (distances L l lm.pos).mergeSort (fun a b => decide (a ≤ b)) := by
    apply List.Perm.eq_of_pairwise' (r := (· ≤ ·)) (sorted_ge _)
    · rw [List.pairwise_cons]
      refine ⟨fun x hx => hnn x ((List.mergeSort_perm _ _).mem_iff.1 hx), sorted_ge _⟩
    · exact (List.mergeSort_perm _ _).trans (hd.trans ((List.mergeSort_perm _ _).symm.cons 0))
  have hlen : (distances L l lm.pos).length + 1 = L.length := by
    have := hd.length_eq
    simp only [List.length_map, List.length_cons] at this
    exact this.symm
  have hm := least_mean k (distances L l lm.pos) (by omega)
  unfold neighborAverage nearest
  simp only
  rw [hs, List.take_succ_cons, List.drop_one, List.tail_cons]
  have hlen2 : (((distances L l lm.pos).mergeSort (fun a b => decide (a ≤ b))).take k).length = k := by
    rw [List.length_take, (List.mergeSort_perm _ _).length_eq, min_eq_left (by omega)]
  rw [hlen2]
  by_cases h0 : 0 < k
  · rw [if_pos h0]; exact hm
  · have : k = 0 := by omega
    subst this
    simpa using hm

theorem not_least {k : ℕ} {l : List ℝ} (h : l.length < k) (a : ℝ) : ¬ IsLeastMean k l a := by
  rintro ⟨⟨s, h1, h2, -⟩, -⟩
  have := h1.length_le
  omega

/-- The filter of isolated points removes exactly the landmarks whose mean squared distance to their `k` nearest others is
more than 5/4 of a deviation above the mean of all of them. -/
theorem C127_isolated [Group P] [DecidableEq P] (b0 : B) (ops : List (Op Id A V3 K B P)) (hd : Disciplined b0 ops) (k : ℕ) :
    ∃ (m' : SMap Id A V3 K B P) (gone : List Id) (avgs : List (Id × ℝ)),
      removeIsolated k (run b0 ops) = (m', .ok gone.length) ∧
      (avgs.map (·.1)).Nodup ∧
      (∀ l a, (l, a) ∈ avgs ↔ ∃ lm, (run b0 ops).landmarks.get? l = some lm ∧
        IsLeastMean k (distances (run b0 ops).landmarks l lm.pos) a) ∧
      gone.Nodup ∧
      (∀ l, l ∈ gone ↔ ∃ a, (l, a) ∈ avgs ∧ mean (avgs.map (·.2)) + 5 / 4 * deviation (avgs.map (·.2)) < a) ∧
      Removed (run b0 ops) m' (· ∈ gone) := by
  have hinv := inv_run b0 ops hd
  generalize run b0 ops = m at hinv
  obtain ⟨L, hL⟩ : ∃ L, L = m.landmarks := ⟨_, rfl⟩
  have hw : L.Wf := hL ▸ hinv.wfLms
  have hdl : ∀ l lm, L.get? l = some lm → (distances L l lm.pos).length < L.length := by
    intro l lm hl
    unfold distances
    rw [List.length_map]
    apply List.length_filter_lt_length_iff_exists.2
    exact ⟨(l, lm), (Dict.mem_iff_get? hw).2 hl, by simp⟩
  by_cases hk : L.length ≤ k
  · have e : isolated k (m.landmarks.map (fun e => (e.1, e.2.pos))) = [] := by
      unfold isolated
      rw [if_pos (by rw [List.length_map, ← hL]; exact hk)]
    refine ⟨m, [], [], ?_, List.nodup_nil, ?_, List.nodup_nil, by simp, .refl m, by simp, by simp⟩
    · unfold removeIsolated
      rw [e]
      rfl
    · intro l a
      constructor
      · intro h; cases h
      · rintro ⟨lm, h1, h2⟩
        rw [← hL] at h1 h2
        exact absurd h2 (not_least ((hdl l lm h1).trans_le hk) a)
  · obtain ⟨avgs, ha⟩ : ∃ avgs : List (Id × ℝ), avgs = L.map (fun e => (e.1, neighborAverage k (L.map (fun e => e.2.pos)) e.2.pos)) :=
      ⟨_, rfl⟩
    have hk' : k < L.length := not_le.1 hk
    have hkeys : (avgs.map (·.1)) = L.map (·.1) := by rw [ha, List.map_map]; rfl
    have hn : (avgs.map (·.1)).Nodup := by rw [hkeys]; exact hw
    have hmem : ∀ l a, (l, a) ∈ avgs ↔ ∃ lm, L.get? l = some lm ∧ IsLeastMean k (distances L l lm.pos) a := by
      intro l a
      rw [ha, List.mem_map]
      constructor
      · rintro ⟨⟨l', lm⟩, h1, h2⟩
        cases h2
        have := (Dict.mem_iff_get? hw).1 h1
        exact ⟨lm, this, neighbor_spec k L hw this hk'⟩
      · rintro ⟨lm, h1, h2⟩
        refine ⟨(l, lm), (Dict.mem_iff_get? hw).2 h1, ?_⟩
        rw [least_mean_unique h2 (neighbor_spec k L hw h1 hk')]
    have hiso : isolated k (m.landmarks.map (fun e => (e.1, e.2.pos))) =
        (avgs.filter (fun e => decide (mean (avgs.map (·.2)) + 5 / 4 * deviation (avgs.map (·.2)) < e.2))).map (·.1) := by
      unfold isolated
      rw [if_neg (by rw [List.length_map, ← hL]; exact hk), ← hL, ha]
      simp only [List.map_map, List.filter_map, average_mean, stdDev_deviation]
      rfl
    have hgone : ∀ l, l ∈ isolated k (m.landmarks.map (fun e => (e.1, e.2.pos))) ↔
        ∃ a, (l, a) ∈ avgs ∧ mean (avgs.map (·.2)) + 5 / 4 * deviation (avgs.map (·.2)) < a := by
      intro l
      rw [hiso, List.mem_map]
      constructor
      · rintro ⟨⟨l', a⟩, h1, rfl⟩
        rw [List.mem_filter, decide_eq_true_eq] at h1
        exact ⟨a, h1⟩
      · rintro ⟨a, h1, h2⟩
        exact ⟨(l, a), List.mem_filter.2 ⟨h1, by rw [decide_eq_true_eq]; exact h2⟩, rfl⟩
    have hnd : (isolated k (m.landmarks.map (fun e => (e.1, e.2.pos)))).Nodup := by
      rw [hiso]
      exact (List.filter_sublist.map _).nodup hn
    obtain ⟨m', e, -, r⟩ := removeIds_spec _ m hinv 0 hnd (by
      intro l hl
      obtain ⟨a, h1, -⟩ := (hgone l).1 hl
      obtain ⟨lm, h2, -⟩ := (hmem l a).1 h1
      rw [← hL, h2]; rfl)
    refine ⟨m', _, avgs, ?_, hn, ?_, hnd, hgone, r⟩
    · unfold removeIsolated
      rw [e, Nat.zero_add]
    · rw [← hL]; exact hmem

/-- At most 16 of 41 numbers are more than 5/4 of a deviation above the mean. -/
theorem C127_share (avgs : List (Id × ℝ)) :
    41 * (avgs.filter (fun e => decide (mean (avgs.map (·.2)) + 5 / 4 * deviation (avgs.map (·.2)) < e.2))).length ≤
      16 * avgs.length := by
  have h := share (avgs.map (·.2)) (k := 5 / 4) (by norm_num)
  rw [List.countP_map, List.length_map, List.countP_eq_length_filter] at h
  have h' : (41 : ℝ) * ((avgs.filter ((fun x => decide (mean (avgs.map (·.2)) + 5 / 4 * deviation (avgs.map (·.2)) < x)) ∘
      fun x => x.2)).length : ℝ) ≤ 16 * avgs.length := by
    norm_num at h ⊢
    linarith
  exact_mod_cast h'

/-! ### Units -/

theorem cond_scale {M : M3} {c q : ℝ} (hq : 0 < q) (h : IsCondition M c) : IsCondition (q • M) c := by
  obtain ⟨lo, hi, h0, hb, ⟨v, v1, v2⟩, ⟨w, w1, w2⟩, hc⟩ := h
  have hu : IsUnit M.det := by
    by_contra hu
    rw [Matrix.nonsing_inv_apply_not_isUnit _ hu, zero_mulVec, dotProduct_zero] at v2
    linarith
  have e : (q • M)⁻¹ = q⁻¹ • M⁻¹ := Matrix.inv_eq_left_inv (by
    rw [Matrix.smul_mul, Matrix.mul_smul, smul_smul, inv_mul_cancel₀ hq.ne', one_smul, Matrix.nonsing_inv_mul _ hu])
  have ev : ∀ u : V3, u ⬝ᵥ ((q • M)⁻¹ *ᵥ u) = q⁻¹ * (u ⬝ᵥ (M⁻¹ *ᵥ u)) := by
    intro u
    rw [e, smul_mulVec, dotProduct_smul, smul_eq_mul]
  have hq' : 0 < q⁻¹ := inv_pos.2 hq
  refine ⟨q⁻¹ * lo, q⁻¹ * hi, by positivity, ?_, ⟨v, v1, by rw [ev, v2]⟩, ⟨w, w1, by rw [ev, w2]⟩, ?_⟩
  · intro u hu
    rw [ev]
    exact ⟨mul_le_mul_of_nonneg_left (hb u hu).1 hq'.le, mul_le_mul_of_nonneg_left (hb u hu).2 hq'.le⟩
  · rw [hc, mul_div_mul_left _ _ hq'.ne']

/-- The same landmark in other units of length. -/
def Rescaled (s : ℝ) (origin origin' : Id → V3) (jac jac' : Id → V3 → Matrix (Fin 2) (Fin 3) ℝ) (lm lm' : LmSt Id V3) :
    Prop :=
  lm'.obs.keys = lm.obs.keys ∧ lm'.pos = s • lm.pos ∧ (∀ i, origin' i = s • origin i) ∧
    ∀ i, jac' i lm'.pos = (1 / s) • jac i lm.pos

theorem wellSeen_scale {s : ℝ} (hs : 0 < s) {origin origin' : Id → V3} {jac jac' : Id → V3 → Matrix (Fin 2) (Fin 3) ℝ}
    {lm lm' : LmSt Id V3} (h : Rescaled s origin origin' jac jac' lm lm') (d : ℝ) :
    WellSeen origin' d lm' ↔ WellSeen origin d lm := by
  obtain ⟨h1, h2, h3, h4⟩ := h
  have e : ∀ i, pt (lm'.pos - origin' i) = s • pt (lm.pos - origin i) := by
    intro i
    rw [h2, h3, ← smul_sub]
    rfl
  unfold WellSeen
  rw [h1]
  simp only [e, InnerProductGeometry.angle_smul_left_of_pos _ _ hs, InnerProductGeometry.angle_smul_right_of_pos _ _ hs]

theorem info_scale {s : ℝ} (hs : 0 < s) {origin origin' : Id → V3} {jac jac' : Id → V3 → Matrix (Fin 2) (Fin 3) ℝ}
    {lm lm' : LmSt Id V3} (h : Rescaled s origin origin' jac jac' lm lm') {M : M3} (hM : IsInformation jac lm M) :
    IsInformation jac' lm' ((1 / s ^ 2) • M) := by
  obtain ⟨h1, h2, h3, h4⟩ := h
  constructor
  · rw [Matrix.transpose_smul, hM.1]
  · intro v
    rw [smul_mulVec, dotProduct_smul, hM.2, h1, smul_eq_mul, ← List.sum_map_mul_left]
    congr 1
    apply List.map_congr_left
    intro i _
    rw [h4, smul_mulVec, smul_dotProduct, dotProduct_smul, smul_eq_mul, smul_eq_mul]
    field_simp

/-- In units of length that are `s` times smaller, a landmark is sound exactly when it is sound in the old units with a bound
for the determinant that is `s ^ 6` times larger: the condition and the angle do not depend on the units, the determinant
does. -/
theorem C127_units {s : ℝ} (hs : 0 < s) {origin origin' : Id → V3} {jac jac' : Id → V3 → Matrix (Fin 2) (Fin 3) ℝ}
    {lm lm' : LmSt Id V3} (h : Rescaled s origin origin' jac jac' lm lm') (d t c : ℝ) :
    Sound origin' jac' d t lm' c ↔ Sound origin jac d (t * s ^ 6) lm c := by
  have hq : 0 < 1 / s ^ 2 := by positivity
  have hdet : ∀ M : M3, |((1 / s ^ 2) • M).det| = |M.det| / s ^ 6 := by
    intro M
    rw [Matrix.det_smul, Fintype.card_fin, abs_mul, abs_of_pos (by positivity)]
    field_simp
  have hle : ∀ M : M3, t ≤ |((1 / s ^ 2) • M).det| ↔ t * s ^ 6 ≤ |M.det| := by
    intro M
    rw [hdet, le_div_iff₀ (by positivity)]
  have hM := information_is jac lm
  unfold Sound
  rw [wellSeen_scale hs h]
  constructor
  · rintro ⟨hw, N, hN, hd, hc⟩
    rw [information_unique hN (info_scale hs h hM)] at hd hc
    refine ⟨hw, _, hM, (hle _).1 hd, ?_⟩
    have := cond_scale (show 0 < s ^ 2 by positivity) hc
    rwa [smul_smul, mul_one_div_cancel (by positivity), one_smul] at this
  · rintro ⟨hw, N, hN, hd, hc⟩
    exact ⟨hw, _, info_scale hs h hN, (hle N).2 hd, cond_scale hq hc⟩

/-- So in small enough units no landmark is sound, and all are removed. -/
theorem C127_small_units (origin : Id → V3) (jac : Id → V3 → Matrix (Fin 2) (Fin 3) ℝ) (lm : LmSt Id V3) (d : ℝ) {t : ℝ}
    (ht : 0 < t) : ∃ s0 : ℝ, 0 < s0 ∧ ∀ s, s0 ≤ s → ∀ (origin' : Id → V3) (jac' : Id → V3 → Matrix (Fin 2) (Fin 3) ℝ)
      (lm' : LmSt Id V3), Rescaled s origin origin' jac jac' lm lm' → ∀ c, ¬ Sound origin' jac' d t lm' c := by
  have hM := information_is jac lm
  generalize information jac (lm.obs.map (·.1)) lm.pos = M at hM
  refine ⟨1 + |M.det| / t, by positivity, ?_⟩
  intro s hs origin' jac' lm' h c hc
  have h1 : 1 ≤ s := by
    have : 0 ≤ |M.det| / t := by positivity
    linarith
  obtain ⟨-, N, hN, hd, -⟩ := (C127_units (by linarith) h d t c).1 hc
  rw [information_unique hN hM] at hd
  have h2 : s ≤ s ^ 6 := le_self_pow₀ h1 (by norm_num)
  have h3 : t * (1 + |M.det| / t) = t + |M.det| := by field_simp
  have h4 : t * (1 + |M.det| / t) ≤ t * s ^ 6 := mul_le_mul_of_nonneg_left (hs.trans h2) ht.le
  linarith

/-- The two lists of points are the same but for a turn, a shift and the unit of length. -/
def Similar (s : ℝ) (R : M3) (t : V3) (points points' : List (Id × V3)) : Prop :=
  points' = points.map (fun e => (e.1, s • (R *ᵥ e.2) + t))

theorem mean_scale (q : ℝ) (l : List ℝ) : mean (l.map (q * ·)) = q * mean l := by
  unfold mean
  rw [List.sum_map_mul_left, List.length_map, List.map_id', mul_div_assoc]

theorem deviation_scale {q : ℝ} (hq : 0 ≤ q) (l : List ℝ) : deviation (l.map (q * ·)) = q * deviation l := by
  unfold deviation
  rw [mean_scale, List.map_map, List.length_map]
  have : ((l.map ((fun x => (x - q * mean l) ^ 2) ∘ fun x => q * x)).sum) = q ^ 2 * (l.map (fun x => (x - mean l) ^ 2)).sum := by
    rw [← List.sum_map_mul_left]
    congr 1
    apply List.map_congr_left
    intro x _
    simp only [Function.comp]
    ring
  rw [this, mul_div_assoc, Real.sqrt_mul (by positivity), Real.sqrt_sq hq]

/-- The isolated points do not depend on the frame or on the units. -/
theorem C127_frame {s : ℝ} (hs : 0 < s) {R : M3} (hR : Rᵀ * R = 1) {t : V3} {points points' : List (Id × V3)}
    (h : Similar s R t points points') (k : ℕ) : isolated k points' = isolated k points := by
  have hsq : ∀ x y : V3, squared (s • (R *ᵥ x) + t) (s • (R *ᵥ y) + t) = s ^ 2 * squared x y := by
    intro x y
    unfold squared
    have : s • (R *ᵥ x) + t - (s • (R *ᵥ y) + t) = s • (R *ᵥ (x - y)) := by
      rw [Matrix.mulVec_sub, smul_sub]
      abel
    rw [this, smul_dotProduct, dotProduct_smul, Matrix.dotProduct_mulVec, ← Matrix.mulVec_transpose, Matrix.mulVec_mulVec,
      hR, one_mulVec, smul_eq_mul, smul_eq_mul]
    ring
  have hq : 0 < s ^ 2 := by positivity
  have hn : ∀ x : V3, neighborAverage k (points'.map (·.2)) (s • (R *ᵥ x) + t) =
      s ^ 2 * neighborAverage k (points.map (·.2)) x := by
    intro x
    have hm : (points'.map (·.2)).map (squared (s • (R *ᵥ x) + t)) = ((points.map (·.2)).map (squared x)).map (s ^ 2 * ·) := by
      rw [h]
      simp only [List.map_map]
      apply List.map_congr_left
      intro e _
      exact hsq x e.2
    have hsort : (((points.map (·.2)).map (squared x)).map (s ^ 2 * ·)).mergeSort (fun a b => decide (a ≤ b)) =
        (((points.map (·.2)).map (squared x)).mergeSort (fun a b => decide (a ≤ b))).map (s ^ 2 * ·) := by
      apply List.Perm.eq_of_pairwise' (r := (· ≤ ·)) (sorted_ge _)
      · rw [List.pairwise_map]
        exact (sorted_ge _).imp (fun h => mul_le_mul_of_nonneg_left h hq.le)
      · exact (List.mergeSort_perm _ _).trans ((List.mergeSort_perm _ _).symm.map _)
    unfold neighborAverage nearest
    rw [hm, hsort, ← List.map_take, ← List.map_drop]
    simp only [List.length_map]
    split
    · rw [List.sum_map_mul_left, List.map_id', mul_div_assoc]
    · simp
  have hd : points'.map (fun e => neighborAverage k (points'.map (·.2)) e.2) =
      (points.map (fun e => neighborAverage k (points.map (·.2)) e.2)).map (s ^ 2 * ·) := by
    conv_lhs => arg 2; rw [h]
    rw [List.map_map, List.map_map]
    apply List.map_congr_left
    intro e _
    exact hn e.2
  have hl : points'.length = points.length := by rw [h, List.length_map]
  unfold isolated
  rw [hl]
  split
  · rfl
  simp only
  rw [hd, average_mean, stdDev_deviation, mean_scale, deviation_scale hq.le]
  conv_lhs => arg 2; arg 2; rw [h]
  rw [List.filter_map, List.map_map]
  have : ∀ (p q : Id × V3 → Bool) (l : List (Id × V3)), (∀ e, p e = q e) → l.filter p = l.filter q := by
    intro p q l hpq
    rw [show p = q from funext hpq]
  have hf : (List.filter ((fun e : Id × V3 => decide
      (s ^ 2 * mean (points.map (fun e => neighborAverage k (points.map (·.2)) e.2)) +
        5 / 4 * (s ^ 2 * deviation (points.map (fun e => neighborAverage k (points.map (·.2)) e.2))) <
        neighborAverage k (points'.map (·.2)) e.2)) ∘ fun e => (e.1, s • (R *ᵥ e.2) + t)) points) =
      points.filter (fun e => decide (mean (points.map (fun e => neighborAverage k (points.map (·.2)) e.2)) +
        5 / 4 * deviation (points.map (fun e => neighborAverage k (points.map (·.2)) e.2)) <
        neighborAverage k (points.map (·.2)) e.2)) := by
    apply this
    intro e
    simp only [Function.comp, hn]
    rw [decide_eq_decide]
    have : s ^ 2 * mean (points.map (fun e => neighborAverage k (points.map (·.2)) e.2)) +
        5 / 4 * (s ^ 2 * deviation (points.map (fun e => neighborAverage k (points.map (·.2)) e.2))) =
      s ^ 2 * (mean (points.map (fun e => neighborAverage k (points.map (·.2)) e.2)) +
        5 / 4 * deviation (points.map (fun e => neighborAverage k (points.map (·.2)) e.2))) := by ring
    rw [this]
    exact mul_lt_mul_iff_right₀ hq
  rw [hf]
  rfl

/-! ### Examples -/

/-- Symmetric matrices have eigenvalues. -/
theorem exEigs : ∃ eigs : M3 → V3, IsEigs eigs := by
  have : ∀ M : M3, ∃ e : V3, Mᵀ = M → ∃ Q : M3, Qᵀ * Q = 1 ∧ M = Q * diagonal e * Qᵀ := by
    intro M
    by_cases h : Mᵀ = M
    · have hA : M.IsHermitian := by
        unfold Matrix.IsHermitian
        rw [Matrix.conjTranspose_eq_transpose_of_trivial, h]
      refine ⟨hA.eigenvalues, fun _ => ⟨(hA.eigenvectorUnitary : M3), ?_, ?_⟩⟩
      · have := Matrix.UnitaryGroup.star_mul_self hA.eigenvectorUnitary
        rwa [Matrix.star_eq_conjTranspose, Matrix.conjTranspose_eq_transpose_of_trivial] at this
      · have := hA.spectral_theorem
        rw [Unitary.conjStarAlgAut_apply, Matrix.star_eq_conjTranspose, Matrix.conjTranspose_eq_transpose_of_trivial] at this
        exact this
    · exact ⟨0, fun h' => absurd h' h⟩
  choose e he using this
  exact ⟨e, he⟩

/-- Two shots look at the origin along the first two axes. -/
def exOrigin : ℕ → V3 := fun i => if i = 0 then ![-1, 0, 0] else ![0, -1, 0]

/-- Their derivatives. -/
def exJac : ℕ → V3 → Matrix (Fin 2) (Fin 3) ℝ := fun i _ => if i = 0 then !![0, 1, 0; 0, 0, 1] else !![1, 0, 0; 0, 0, 1]

example : Sound exOrigin exJac 1 1 (⟨0, [(0, 5), (1, 6)]⟩ : LmSt ℕ V3) (Real.sqrt 2) := by
  have inv : (diagonal ![1, 1, 2] : M3)⁻¹ = diagonal ![1, 1, 1 / 2] := by
    apply Matrix.inv_eq_left_inv
    rw [Matrix.diagonal_mul_diagonal, ← Matrix.diagonal_one]
    congr 1
    ext i
    fin_cases i <;> simp
  constructor
  · refine ⟨0, by simp [Dict.keys], 1, by simp [Dict.keys], by norm_num, ?_⟩
    have : InnerProductGeometry.angle (pt ((0 : V3) - exOrigin 0)) (pt ((0 : V3) - exOrigin 1)) = Real.pi / 2 := by
      rw [← InnerProductGeometry.inner_eq_zero_iff_angle_eq_pi_div_two, inner_pt]
      simp [exOrigin, dotProduct, Fin.sum_univ_three]
    rw [this]
    have := Real.pi_pos
    constructor <;> [linarith; (intro h; linarith)]
  · refine ⟨diagonal ![1, 1, 2], ⟨Matrix.diagonal_transpose _, ?_⟩, ?_, 1 / 2, 1, by norm_num, ?_, ?_, ?_, ?_⟩
    · intro v
      simp [Dict.keys, exJac, dotProduct, Fin.sum_univ_three, Matrix.mulVec_diagonal, Matrix.mulVec]
      ring
    · rw [Matrix.det_diagonal]
      simp [Fin.prod_univ_three]
    · intro v hv
      rw [inv]
      simp only [dotProduct, Fin.sum_univ_three, Matrix.mulVec_diagonal, Matrix.cons_val_zero, Matrix.cons_val_one,
        Matrix.cons_val] at hv ⊢
      constructor <;> nlinarith [sq_nonneg (v 0), sq_nonneg (v 1), sq_nonneg (v 2)]
    · refine ⟨![0, 0, 1], by simp, ?_⟩
      rw [inv]
      simp [dotProduct, Fin.sum_univ_three, Matrix.mulVec_diagonal]
    · refine ⟨![1, 0, 0], by simp, ?_⟩
      rw [inv]
      simp [dotProduct, Fin.sum_univ_three, Matrix.mulVec_diagonal]
    · rw [min_eq_left]
      · norm_num
      · rw [Real.sqrt_le_left (by norm_num)]
        norm_num

/-- A history with landmarks in space. -/
def exHistory : List (Op ℕ ℕ V3 ℕ ℕ (Multiplicative ℤ)) :=
  [.createCamera 1 0, .createRigCamera 10 (.ofAdd 3), .createRigInstance 20, .createShot 0 1 10 20 (some (.ofAdd 7)),
   .createRigInstance 21, .createShot 1 1 10 21 (some (.ofAdd 1)),
   .createLandmark 200 0, .createLandmark 201 ![1, 0, 0], .createLandmark 202 ![10, 0, 0],
   .addObservation 0 200 ⟨5, 0⟩, .addObservation 1 200 ⟨6, 0⟩]

example : Disciplined 0 exHistory ∧ ((run 0 exHistory).landmarks.get? 200).map (·.obs) = some [(0, 5), (1, 6)] :=
  ⟨disciplinedB_sound 0 _ rfl, rfl⟩

/-- Of three points on a line at 0, 1 and 10, the mean squared distances to the nearest other are 1, 1 and 81. -/
example : IsLeastMean 1 [1, 100] (1 : ℝ) ∧ IsLeastMean 1 [100, 81] (81 : ℝ) ∧
    mean [1, 1, 81] + 5 / 4 * deviation [1, 1, 81] < 81 := by
  have one : ∀ a b : ℝ, ∀ s : List ℝ, s.Sublist [a, b] → s.length = 1 → s = [a] ∨ s = [b] := by
    intro a b s h h1
    obtain ⟨x, rfl⟩ := List.length_eq_one_iff.1 h1
    have := h.subset (List.mem_singleton_self x)
    simpa using this
  refine ⟨⟨⟨[1], by simp, rfl, by norm_num⟩, ?_⟩, ⟨⟨[81], by simp, rfl, by norm_num⟩, ?_⟩, ?_⟩
  · intro s h h1
    rcases one _ _ s h h1 with rfl | rfl <;> norm_num
  · intro s h h1
    rcases one _ _ s h h1 with rfl | rfl <;> norm_num
  · have hm : mean [1, 1, 81] = 83 / 3 := by unfold mean; norm_num
    have hdv : deviation [1, 1, 81] < 40 := by
      unfold deviation
      rw [hm, Real.sqrt_lt' (by norm_num)]
      norm_num
    rw [hm]
    linarith

end Verif.CloudFilters
