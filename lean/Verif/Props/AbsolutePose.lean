import Verif.Model.AbsolutePose
import Verif.Props.RotationPair
import Verif.Props.ThreePoints

/-!
# C105 — The pose of a camera from many points
-/
set_option linter.unusedSectionVars false
set_option linter.unusedSimpArgs false
set_option linter.unusedVariables false
namespace Verif.AbsolutePose
open Verif.Triangulation hiding cross
open Verif.Depthmap Matrix
open Verif.AlignPrior (cross)
open Verif.Superimpose (Svd IsRot IsSvd mean centred orth_comm orth_det)
open Verif.RotationPair (rotationBetween moment misfit rotationOf_rot rotationOf estimate misfit_centred)
open Verif.RelativePose (RT)
open Verif.ThreePoints (norm3_sq normalized_smul normalized_unit norm3_pos_of)

/-! ### Specification -/

/-- Squared distance of a point to the line through the origin with direction `v`. -/
noncomputable def off (v x : V3) : ℝ := (cross v x ⬝ᵥ cross v x) / (v ⬝ᵥ v)

/-- Sum of the squared distances of the points, in the camera, to their lines of sight. -/
noncomputable def spaceError (pairs : List (V3 × V3)) (R : M3) (t : V3) : ℝ := (pairs.map (fun p => off p.1 (R *ᵥ p.2 + t))).sum

/-- Two of the bearings are not parallel. -/
def Spread (pairs : List (V3 × V3)) : Prop := ∃ p ∈ pairs, ∃ q ∈ pairs, cross p.1 q.1 ≠ 0

/-- No plane contains all points. -/
def Solid (pairs : List (V3 × V3)) : Prop := ∀ n : V3, (∀ p ∈ pairs, ∀ q ∈ pairs, n ⬝ᵥ (q.2 - p.2) = 0) → n = 0

/-- Each bearing is nonzero. -/
def Proper (pairs : List (V3 × V3)) : Prop := ∀ p ∈ pairs, p.1 ≠ 0

/-! ### Lines of sight -/

theorem dot_ne {v : V3} (h : v ≠ 0) : v ⬝ᵥ v ≠ 0 := fun h0 => h (Superimpose.dot_self_zero.1 h0)

theorem dot_pos {v : V3} (h : v ≠ 0) : 0 < v ⬝ᵥ v := lt_of_le_of_ne (Superimpose.dot_self_nonneg v) (Ne.symm (dot_ne h))

theorem line_mulVec (v x : V3) : line v *ᵥ x = ((v ⬝ᵥ x) / (v ⬝ᵥ v)) • v := by
  unfold line
  rw [smul_mulVec, vecMulVec_mulVec]
  funext i
  simp only [Pi.smul_apply, smul_eq_mul, MulOpposite.smul_eq_mul_unop, MulOpposite.unop_op]
  ring

theorem off_eq {v : V3} (h : v ≠ 0) (x : V3) : off v x = x ⬝ᵥ x - (v ⬝ᵥ x) ^ 2 / (v ⬝ᵥ v) := by
  unfold off
  rw [RelativePose.cross_dot_cross]
  have := dot_ne h
  field_simp

theorem off_nonneg (v x : V3) : 0 ≤ off v x := div_nonneg (Superimpose.dot_self_nonneg _) (Superimpose.dot_self_nonneg _)

theorem off_line {v : V3} (h : v ≠ 0) (x : V3) : off v x = (x - line v *ᵥ x) ⬝ᵥ (x - line v *ᵥ x) := by
  rw [off_eq h, line_mulVec, sub_dotProduct, dotProduct_sub, dotProduct_sub, smul_dotProduct, smul_dotProduct, dotProduct_smul, dotProduct_smul,
    dotProduct_comm x v]
  have := dot_ne h
  simp only [smul_eq_mul]
  field_simp
  ring

/-- `off` is the squared distance: no point of the line is nearer, and one is that near. -/
theorem off_least {v : V3} (h : v ≠ 0) (x : V3) :
    (∀ k : ℝ, off v x ≤ (x - k • v) ⬝ᵥ (x - k • v)) ∧ ∃ k : ℝ, (x - k • v) ⬝ᵥ (x - k • v) = off v x := by
  constructor
  · intro k
    rw [off_eq h, sub_dotProduct, dotProduct_sub, dotProduct_sub, smul_dotProduct, smul_dotProduct, dotProduct_smul, dotProduct_smul, dotProduct_comm x v]
    simp only [smul_eq_mul]
    have hp := dot_pos h
    have : x ⬝ᵥ x - k * (v ⬝ᵥ x) - (k * (v ⬝ᵥ x) - k * (k * (v ⬝ᵥ v))) - (x ⬝ᵥ x - (v ⬝ᵥ x) ^ 2 / (v ⬝ᵥ v)) =
        (k * (v ⬝ᵥ v) - v ⬝ᵥ x) ^ 2 / (v ⬝ᵥ v) := by field_simp; ring
    have h2 : 0 ≤ (k * (v ⬝ᵥ v) - v ⬝ᵥ x) ^ 2 / (v ⬝ᵥ v) := by positivity
    linarith
  · exact ⟨(v ⬝ᵥ x) / (v ⬝ᵥ v), by rw [off_line h, line_mulVec]⟩

theorem off_zero_iff {v : V3} (h : v ≠ 0) (x : V3) : off v x = 0 ↔ cross v x = 0 := by
  unfold off
  rw [div_eq_zero_iff]
  constructor
  · rintro (h1 | h1)
    · exact Superimpose.dot_self_zero.1 h1
    · exact absurd h1 (dot_ne h)
  · intro h1; left; rw [h1]; simp

theorem off_multiple (v : V3) (k : ℝ) : off v (k • v) = 0 := by
  unfold off
  rw [RelativePose.cross_smul_right]
  have : cross v v = 0 := by
    have := RelativePose.cross_anti v v
    funext i
    have := congrFun this i
    simp only [Pi.neg_apply, Pi.zero_apply] at this ⊢
    linarith
  rw [this]; simp

/-- `x - F x` is perpendicular to the line. -/
theorem off_add {v : V3} (h : v ≠ 0) (x y : V3) : off v (x + y) = off v x + 2 * (y ⬝ᵥ ((1 - line v) *ᵥ x)) + off v y := by
  rw [off_eq h, off_eq h, off_eq h, sub_mulVec, one_mulVec, line_mulVec, dotProduct_sub, dotProduct_smul, dotProduct_add, add_dotProduct, add_dotProduct,
    dotProduct_comm x y, dotProduct_comm y v, dotProduct_add]
  have := dot_ne h
  simp only [smul_eq_mul]
  field_simp
  ring

theorem parallel_zero {v w x : V3} (h : cross v w ≠ 0) (h1 : cross v x = 0) (h2 : cross w x = 0) : x = 0 := by
  have e : ∀ a b c : V3, cross (cross a b) c = (a ⬝ᵥ c) • b - (b ⬝ᵥ c) • a := by
    intro a b c
    apply RelativePose.vec_ext <;> simp [cross, dotProduct, Fin.sum_univ_three] <;> ring
  by_contra hx
  apply h
  have e1 := e v x w
  have e2 := e w x v
  rw [h1] at e1
  rw [h2] at e2
  have z : cross (0 : V3) w = 0 ∧ cross (0 : V3) v = 0 := by
    constructor <;> (apply RelativePose.vec_ext <;> simp [cross])
  rw [z.1] at e1
  rw [z.2] at e2
  -- v and w are multiples of x
  have f1 := e v x x
  have f2 := e w x x
  rw [h1] at f1
  rw [h2] at f2
  have zx : cross (0 : V3) x = 0 := by apply RelativePose.vec_ext <;> simp [cross]
  rw [zx] at f1 f2
  have hxx := dot_ne hx
  have g : ∀ a : V3, (0 : V3) = (a ⬝ᵥ x) • x - (x ⬝ᵥ x) • a → a = ((a ⬝ᵥ x) / (x ⬝ᵥ x)) • x := by
    intro a ha
    have : (x ⬝ᵥ x) • a = (a ⬝ᵥ x) • x := (sub_eq_zero.1 ha.symm).symm
    funext i
    have := congrFun this i
    simp only [Pi.smul_apply, smul_eq_mul] at this ⊢
    field_simp
    linarith
  rw [g v f1, g w f2, RelativePose.cross_smul_left, RelativePose.cross_smul_right]
  have : cross x x = 0 := by
    apply RelativePose.vec_ext <;> simp [cross] <;> ring
  rw [this]; simp

/-! ### The translation -/

theorem spaceError_add {pairs : List (V3 × V3)} (hp : Proper pairs) (R : M3) (t x : V3) :
    spaceError pairs R (t + x) = spaceError pairs R t + 2 * (x ⬝ᵥ (pairs.map (fun p => (1 - line p.1) *ᵥ (R *ᵥ p.2 + t))).sum) +
      (pairs.map (fun p => off p.1 x)).sum := by
  unfold spaceError
  induction pairs with
  | nil => simp
  | cons p l ih =>
    simp only [List.map_cons, List.sum_cons]
    have e : R *ᵥ p.2 + (t + x) = (R *ᵥ p.2 + t) + x := (add_assoc _ _ _).symm
    rw [ih (fun q hq => hp q (List.mem_cons_of_mem _ hq)), e, off_add (hp p (by simp)) (R *ᵥ p.2 + t) x, dotProduct_add]
    ring

theorem sum_off_pos {pairs : List (V3 × V3)} (hp : Proper pairs) (hs : Spread pairs) {x : V3} (hx : x ≠ 0) : 0 < (pairs.map (fun p => off p.1 x)).sum := by
  have h0 : 0 ≤ (pairs.map (fun p => off p.1 x)).sum := List.sum_nonneg (fun y hy => by
    obtain ⟨p, -, rfl⟩ := List.mem_map.1 hy; exact off_nonneg _ _)
  refine lt_of_le_of_ne h0 (fun h => ?_)
  have hz := RotationPair.sum_zero _ (fun y hy => by
    obtain ⟨p, -, rfl⟩ := List.mem_map.1 hy; exact off_nonneg _ _) h.symm
  obtain ⟨p, hpm, q, hqm, hc⟩ := hs
  have e1 := (off_zero_iff (hp p hpm) x).1 (hz _ (List.mem_map.2 ⟨p, hpm, rfl⟩))
  have e2 := (off_zero_iff (hp q hqm) x).1 (hz _ (List.mem_map.2 ⟨q, hqm, rfl⟩))
  exact hx (parallel_zero hc e1 e2)

/-- The matrix of the normal equations. -/
noncomputable def normal (pairs : List (V3 × V3)) : M3 := (pairs.map (fun p => 1 - line p.1)).sum

theorem normal_form {pairs : List (V3 × V3)} (hp : Proper pairs) (x : V3) : x ⬝ᵥ (normal pairs *ᵥ x) = (pairs.map (fun p => off p.1 x)).sum := by
  unfold normal
  induction pairs with
  | nil => simp
  | cons p l ih =>
    simp only [List.map_cons, List.sum_cons]
    rw [add_mulVec, dotProduct_add, ih (fun q hq => hp q (List.mem_cons_of_mem _ hq)), off_eq (hp p (by simp)), sub_mulVec, one_mulVec, line_mulVec,
      dotProduct_sub, dotProduct_smul, dotProduct_comm x p.1]
    congr 1
    simp only [smul_eq_mul]
    ring

theorem normal_det {pairs : List (V3 × V3)} (hp : Proper pairs) (hs : Spread pairs) : (normal pairs).det ≠ 0 := by
  intro h0
  obtain ⟨x, hx, hx0⟩ := Matrix.exists_mulVec_eq_zero_iff.2 h0
  have := sum_off_pos hp hs hx
  rw [← normal_form hp, hx0, dotProduct_zero] at this
  exact lt_irrefl _ this

theorem length_ne {pairs : List (V3 × V3)} (hs : Spread pairs) : (pairs.length : ℝ) ≠ 0 := by
  obtain ⟨p, hp, -⟩ := hs
  have := List.length_pos_of_mem hp
  exact_mod_cast this.ne'

theorem normal_eq {pairs : List (V3 × V3)} (hs : Spread pairs) :
    (1 - (1 / (pairs.length : ℝ)) • (pairs.map (fun p => line p.1)).sum : M3) = (1 / (pairs.length : ℝ)) • normal pairs := by
  have : normal pairs = (pairs.length : ℝ) • (1 : M3) - (pairs.map (fun p => line p.1)).sum := by
    unfold normal
    clear hs
    induction pairs with
    | nil => simp
    | cons p l ih =>
      simp only [List.map_cons, List.sum_cons, List.length_cons, Nat.cast_add, Nat.cast_one]
      rw [ih, add_smul, one_smul]; abel
  rw [this, smul_sub, smul_smul, one_div, inv_mul_cancel₀ (length_ne hs), one_smul]

theorem sum_normal (pairs : List (V3 × V3)) (R : M3) (t : V3) :
    (pairs.map (fun p => (1 - line p.1) *ᵥ (R *ᵥ p.2 + t))).sum = normal pairs *ᵥ t - (pairs.map (fun p => ((line p.1 - 1) * R) *ᵥ p.2)).sum := by
  unfold normal
  induction pairs with
  | nil => simp
  | cons p l ih =>
    simp only [List.map_cons, List.sum_cons]
    rw [ih, add_mulVec, mulVec_add, mulVec_mulVec, ← neg_sub (1 : M3) (line p.1), Matrix.neg_mul, neg_mulVec]
    abel

theorem translation_normal {pairs : List (V3 × V3)} (hp : Proper pairs) (hs : Spread pairs) (R : M3) :
    (pairs.map (fun p => (1 - line p.1) *ᵥ (R *ᵥ p.2 + translationBetween pairs R))).sum = 0 := by
  rw [sum_normal, sub_eq_zero]
  unfold translationBetween
  simp only
  rw [normal_eq hs]
  have hn := length_ne hs
  have hd : IsUnit (normal pairs).det := (normal_det hp hs).isUnit
  have hd' : ((1 / (pairs.length : ℝ)) • normal pairs : M3).det ≠ 0 := by
    rw [det_smul]; exact mul_ne_zero (pow_ne_zero _ (one_div_ne_zero hn)) (normal_det hp hs)
  have e : normal pairs = (pairs.length : ℝ) • ((1 / (pairs.length : ℝ)) • normal pairs : M3) := by
    rw [smul_smul, mul_one_div, div_self hn, one_smul]
  obtain ⟨N, hN⟩ : ∃ N, N = ((1 / (pairs.length : ℝ)) • normal pairs : M3) := ⟨_, rfl⟩
  rw [← hN] at e hd' ⊢
  rw [e, smul_mulVec, mulVec_mulVec, mul_nonsing_inv _ hd'.isUnit, one_mulVec, smul_smul, mul_one_div, div_self hn, one_smul]

/-- The translation is the only one with the smallest sum of squared distances of the points to their lines of sight. -/
theorem C105_translation (pairs : List (V3 × V3)) (hp : Proper pairs) (hs : Spread pairs) (R : M3) (t : V3) :
    spaceError pairs R (translationBetween pairs R) ≤ spaceError pairs R t ∧
    (spaceError pairs R t ≤ spaceError pairs R (translationBetween pairs R) → t = translationBetween pairs R) := by
  obtain ⟨x, rfl⟩ : ∃ x, t = translationBetween pairs R + x := ⟨t - translationBetween pairs R, by abel⟩
  rw [spaceError_add hp, translation_normal hp hs, dotProduct_zero]
  have h0 : 0 ≤ (pairs.map (fun p => off p.1 x)).sum := List.sum_nonneg (fun y hy => by
    obtain ⟨p, -, rfl⟩ := List.mem_map.1 hy; exact off_nonneg _ _)
  constructor
  · linarith
  · intro h
    by_contra hx
    have := sum_off_pos hp hs (x := x) (fun h => hx (by rw [h, add_zero]))
    linarith

theorem spaceError_nonneg (pairs : List (V3 × V3)) (R : M3) (t : V3) : 0 ≤ spaceError pairs R t :=
  List.sum_nonneg (fun y hy => by obtain ⟨p, -, rfl⟩ := List.mem_map.1 hy; exact off_nonneg _ _)

theorem spaceError_exact {pairs : List (V3 × V3)} {R : M3} {t : V3} (h : ∀ p ∈ pairs, ∃ k : ℝ, R *ᵥ p.2 + t = k • p.1) : spaceError pairs R t = 0 := by
  unfold spaceError
  apply List.sum_eq_zero
  intro y hy
  obtain ⟨p, hp, rfl⟩ := List.mem_map.1 hy
  obtain ⟨k, hk⟩ := h p hp
  rw [hk, off_multiple]

/-- With the right rotation and exact bearings, the translation is found. -/
theorem C105_translation_exact (pairs : List (V3 × V3)) (hp : Proper pairs) (hs : Spread pairs) (R : M3) (t : V3)
    (h : ∀ p ∈ pairs, ∃ k : ℝ, R *ᵥ p.2 + t = k • p.1) : translationBetween pairs R = t :=
  ((C105_translation pairs hp hs R t).2 (by rw [spaceError_exact h]; exact spaceError_nonneg _ _ _)).symm

/-- When all bearings are parallel the translation is not determined, and the matrix to invert is singular. -/
theorem C105_parallel (pairs : List (V3 × V3)) (v : V3) (hv : v ≠ 0) (h : ∀ p ∈ pairs, ∃ k : ℝ, k ≠ 0 ∧ p.1 = k • v) (hne : pairs ≠ []) :
    (∀ (R : M3) (t : V3) (k : ℝ), spaceError pairs R (t + k • v) = spaceError pairs R t) ∧
    (1 - (1 / (pairs.length : ℝ)) • (pairs.map (fun p => (1 / (p.1 ⬝ᵥ p.1)) • vecMulVec p.1 p.1)).sum : M3).det = 0 := by
  have hp : Proper pairs := fun p hpm => by
    obtain ⟨k, hk, e⟩ := h p hpm
    rw [e]; exact smul_ne_zero hk hv
  have ho : ∀ p ∈ pairs, ∀ k : ℝ, off p.1 (k • v) = 0 := by
    intro p hpm k
    obtain ⟨a, ha, e⟩ := h p hpm
    have : k • v = (k / a) • p.1 := by rw [e, smul_smul, div_mul_cancel₀ _ ha]
    rw [this, off_multiple]
  have hl : ∀ p ∈ pairs, line p.1 *ᵥ v = v := by
    intro p hpm
    obtain ⟨a, ha, e⟩ := h p hpm
    rw [line_mulVec, e, smul_dotProduct, dotProduct_smul, smul_smul, smul_dotProduct]
    have := dot_ne hv
    simp only [smul_eq_mul]
    have : a * (v ⬝ᵥ v) / (a * (a * (v ⬝ᵥ v))) * a = 1 := by field_simp
    rw [this, one_smul]
  constructor
  · intro R t k
    unfold spaceError
    congr 1
    apply List.map_congr_left
    intro p hpm
    have e : R *ᵥ p.2 + (t + k • v) = (R *ᵥ p.2 + t) + k • v := (add_assoc _ _ _).symm
    rw [e, off_add (hp p hpm) (R *ᵥ p.2 + t) (k • v), ho p hpm, smul_dotProduct]
    have : v ⬝ᵥ ((1 - line p.1) *ᵥ (R *ᵥ p.2 + t)) = 0 := by
      have hsym : (1 - line p.1)ᵀ = 1 - line p.1 := by
        unfold line
        ext i j
        simp [vecMulVec_apply, Matrix.one_apply, eq_comm, mul_comm]
      rw [dotProduct_mulVec, ← mulVec_transpose, hsym, sub_mulVec, one_mulVec, hl p hpm, sub_self, zero_dotProduct]
    rw [this]; simp
  · apply Matrix.exists_mulVec_eq_zero_iff.1
    refine ⟨v, hv, ?_⟩
    have : ((pairs.map (fun p => (1 / (p.1 ⬝ᵥ p.1)) • vecMulVec p.1 p.1)).sum : M3) *ᵥ v = (pairs.length : ℝ) • v := by
      clear hne ho hp
      induction pairs with
      | nil => simp
      | cons p l ih =>
        simp only [List.map_cons, List.sum_cons, List.length_cons, Nat.cast_add, Nat.cast_one]
        rw [add_mulVec, ih (fun q hq => h q (List.mem_cons_of_mem _ hq)) (fun q hq => hl q (List.mem_cons_of_mem _ hq)),
          show ((1 / (p.1 ⬝ᵥ p.1)) • vecMulVec p.1 p.1 : M3) *ᵥ v = v from hl p (by simp), add_smul, one_smul, add_comm]
    rw [sub_mulVec, one_mulVec, smul_mulVec, this, smul_smul, one_div, inv_mul_cancel₀, one_smul, sub_self]
    have := List.length_pos_of_ne_nil hne
    exact_mod_cast this.ne'

/-! ### The iterations -/

theorem sum_sq_shift (l : List V3) (a : V3) :
    (l.map (fun c => (c - mean l) ⬝ᵥ (c - mean l))).sum ≤ (l.map (fun c => (c - a) ⬝ᵥ (c - a))).sum := by
  have key : ∀ (m a : V3) (l : List V3), (l.map (fun c => (c - a) ⬝ᵥ (c - a))).sum =
      (l.map (fun c => (c - m) ⬝ᵥ (c - m))).sum + 2 * ((l.sum - (l.length : ℝ) • m) ⬝ᵥ (m - a)) + (l.length : ℝ) * ((m - a) ⬝ᵥ (m - a)) := by
    intro m a l
    induction l with
    | nil => simp
    | cons c l ih =>
      simp only [List.map_cons, List.sum_cons, List.length_cons, Nat.cast_add, Nat.cast_one]
      rw [ih]
      have e : c - a = (c - m) + (m - a) := by abel
      have e2 : c + l.sum - ((l.length : ℝ) + 1) • m = (c - m) + (l.sum - (l.length : ℝ) • m) := by rw [add_smul, one_smul]; abel
      rw [e2]
      nth_rewrite 1 [e]
      nth_rewrite 1 [e]
      rw [add_dotProduct (c - m) (m - a), dotProduct_add, dotProduct_add, add_dotProduct (c - m) (l.sum - _), dotProduct_comm (m - a) (c - m)]
      ring
  rw [key (mean l) a l]
  have h0 : l.sum - (l.length : ℝ) • mean l = 0 := by
    unfold mean
    by_cases hn : (l.length : ℝ) = 0
    · have : l = [] := List.length_eq_zero_iff.1 (by exact_mod_cast hn)
      subst this; simp
    · rw [smul_smul, mul_inv_cancel₀ hn, one_smul, sub_self]
  rw [h0, zero_dotProduct]
  have := mul_nonneg (Nat.cast_nonneg (α := ℝ) l.length) (Superimpose.dot_self_nonneg (mean l - a))
  linarith

theorem mean_affine (R : M3) (l : List (V3 × V3)) :
    mean (l.map (fun p => p.1 - R *ᵥ p.2)) = mean (l.map (·.1)) - R *ᵥ mean (l.map (·.2)) := by
  unfold mean
  simp only [List.length_map]
  rw [mulVec_smul, ← smul_sub]
  congr 1
  induction l with
  | nil => simp
  | cons p l ih =>
    simp only [List.map_cons, List.sum_cons]
    rw [ih, mulVec_add]; abel

/-- The misfit is the smallest sum over all translations. -/
theorem misfit_le (R : M3) (l : List (V3 × V3)) (t : V3) :
    misfit R l ≤ (l.map (fun p => (p.1 - R *ᵥ p.2 - t) ⬝ᵥ (p.1 - R *ᵥ p.2 - t))).sum := by
  have h := sum_sq_shift (l.map (fun p => p.1 - R *ᵥ p.2)) t
  rw [mean_affine, List.map_map, List.map_map] at h
  refine le_trans (le_of_eq ?_) h
  unfold misfit
  congr 1
  apply List.map_congr_left
  intro p _
  have : p.1 - mean (l.map (·.1)) - R *ᵥ (p.2 - mean (l.map (·.2))) = p.1 - R *ᵥ p.2 - (mean (l.map (·.1)) - R *ᵥ mean (l.map (·.2))) := by
    rw [mulVec_sub]; abel
  simp only [Function.comp_apply, this]

/-- The misfit of the points put on the lines is at least the error with some translation. -/
theorem misfit_ge {pairs : List (V3 × V3)} (hp : Proper pairs) (x : RT) (Q : M3) :
    ∃ t, spaceError pairs Q t ≤ misfit Q (current pairs x) := by
  refine ⟨mean ((current pairs x).map (·.1)) - Q *ᵥ mean ((current pairs x).map (·.2)), ?_⟩
  obtain ⟨a, ha⟩ : ∃ a, a = mean ((current pairs x).map (·.1)) := ⟨_, rfl⟩
  obtain ⟨b, hb⟩ : ∃ b, b = mean ((current pairs x).map (·.2)) := ⟨_, rfl⟩
  unfold misfit spaceError
  rw [← ha, ← hb]
  unfold current
  rw [List.map_map]
  apply List.sum_le_sum
  intro p hpm
  simp only [Function.comp_apply]
  obtain ⟨k, hk⟩ : ∃ k : ℝ, line p.1 *ᵥ (x.R *ᵥ p.2 + x.t) = k • p.1 := ⟨_, line_mulVec _ _⟩
  rw [hk]
  refine le_trans ((off_least (hp p hpm) _).1 k) (le_of_eq ?_)
  have : k • p.1 - a - Q *ᵥ (p.2 - b) = -(Q *ᵥ p.2 + (a - Q *ᵥ b) - k • p.1) := by rw [mulVec_sub]; abel
  rw [this, neg_dotProduct_neg]

theorem misfit_current {pairs : List (V3 × V3)} (hp : Proper pairs) (x : RT) : misfit x.R (current pairs x) ≤ spaceError pairs x.R x.t := by
  refine le_trans (misfit_le x.R (current pairs x) x.t) (le_of_eq ?_)
  unfold spaceError current
  rw [List.map_map]
  congr 1
  apply List.map_congr_left
  intro p hpm
  simp only [Function.comp_apply]
  rw [off_line (hp p hpm), ← neg_sub, neg_dotProduct_neg]
  congr 1 <;> abel

/-- An iteration does not increase the sum of squared distances, provided that the moment of the points put on their lines has a positive
determinant. -/
theorem C105_decreases (svd : M3 → Svd 3) (hs : ∀ C, IsSvd C (svd C)) (pairs : List (V3 × V3)) (hp : Proper pairs) (hsp : Spread pairs) (x : RT)
    (hx : IsRot x.R) (q : V3 × V3 → V3) (hq : ∀ p, q p = ((p.1 ⬝ᵥ (x.R *ᵥ p.2 + x.t)) / (p.1 ⬝ᵥ p.1)) • p.1)
    (hdet : 0 < (pairs.map (fun p => vecMulVec (q p - mean (pairs.map q)) (p.2 - mean (pairs.map (·.2))))).sum.det) :
    IsRot (step svd pairs x).R ∧ spaceError pairs (step svd pairs x).R (step svd pairs x).t ≤ spaceError pairs x.R x.t := by
  refine ⟨rotationOf_rot (hs _), ?_⟩
  have hc : current pairs x = pairs.map (fun p => (q p, p.2)) := by
    unfold current
    apply List.map_congr_left
    intro p _
    rw [line_mulVec, hq]
  have hbest := (RotationPair.C102_best_worst svd hs (current pairs x) _ rfl x.R hx).1 (by
    rw [hc]
    simp only [List.map_map, Function.comp_def]
    exact hdet)
  rw [RotationPair.estimate_transpose] at hbest
  obtain ⟨t, ht⟩ := misfit_ge hp x (rotationBetween svd (current pairs x))
  have h1 := (C105_translation pairs hp hsp (rotationBetween svd (current pairs x)) t).1
  have h2 := misfit_current hp x
  exact le_trans h1 (le_trans ht (le_trans hbest h2))

theorem general_loop (f : RT → RT) (P : RT → Prop) (L : ℕ → RT → RT) (h0 : ∀ x, L 0 x = x)
    (hpos : ∀ n x, P x → L (n + 1) x = { R := (f x).R, t := x.t }) (hneg : ∀ n x, ¬ P x → L (n + 1) x = L n (f x)) (n : ℕ) (x : RT) :
    ((∀ j < n, ¬ P (f^[j] x)) ∧ L n x = f^[n] x) ∨
    (∃ k < n, P (f^[k] x) ∧ (∀ j < k, ¬ P (f^[j] x)) ∧ L n x = { R := (f^[k + 1] x).R, t := (f^[k] x).t }) := by
  induction n generalizing x with
  | zero => left; exact ⟨fun j hj => absurd hj (Nat.not_lt_zero _), h0 x⟩
  | succ n ih =>
    by_cases hc : P x
    · right
      exact ⟨0, Nat.succ_pos _, hc, fun j hj => absurd hj (Nat.not_lt_zero _), hpos n x hc⟩
    · rw [hneg n x hc]
      rcases ih (f x) with ⟨a, b⟩ | ⟨k, hk, a, b, c⟩
      · left
        refine ⟨?_, b⟩
        intro j hj
        cases j with
        | zero => exact hc
        | succ j => exact a j (by omega)
      · right
        refine ⟨k + 1, by omega, a, ?_, c⟩
        intro j hj
        cases j with
        | zero => exact hc
        | succ j => exact b j (by omega)

theorem close_iff (t t' : V3) : close t t' ↔ 0 < norm3 t ∧ norm3 (t' - t) < 1 / 10000000 * norm3 t := by
  unfold close
  have hn : 0 ≤ norm3 t := Real.sqrt_nonneg _
  constructor
  · rintro ⟨a, b⟩
    have a' := lt_of_le_of_ne hn (Ne.symm a)
    exact ⟨a', by rw [div_lt_iff₀ a'] at b; exact b⟩
  · rintro ⟨a, b⟩
    exact ⟨a.ne', by rw [div_lt_iff₀ a]; exact b⟩

theorem loop_pos (svd : M3 → Svd 3) (pairs : List (V3 × V3)) (n : ℕ) (x : RT) (h : close x.t (step svd pairs x).t) :
    loop svd pairs (n + 1) x = { R := (step svd pairs x).R, t := x.t } := by rw [loop, if_pos h]

theorem loop_neg (svd : M3 → Svd 3) (pairs : List (V3 × V3)) (n : ℕ) (x : RT) (h : ¬ close x.t (step svd pairs x).t) :
    loop svd pairs (n + 1) x = loop svd pairs n (step svd pairs x) := by rw [loop, if_neg h]

theorem loop_zero (svd : M3 → Svd 3) (pairs : List (V3 × V3)) (x : RT) : loop svd pairs 0 x = x := by rw [loop]

/-- The iterations: at most one hundred poses after the first one; the first change of translation of less than 1e-7 of its length ends them, with the
translation before the change and the rotation after it. -/
theorem C105_iterations (svd : M3 → Svd 3) (pairs : List (V3 × V3)) (x : ℕ → RT) (hx : ∀ k, x k = (step svd pairs)^[k] (first svd pairs))
    (small : ℕ → Prop) (hsm : ∀ j, small j ↔ 0 < norm3 (x j).t ∧ norm3 ((x (j + 1)).t - (x j).t) < 1 / 10000000 * norm3 (x j).t) :
    ((∀ j < 100, ¬ small j) ∧ nPoints svd pairs = x 100) ∨
    (∃ k < 100, small k ∧ (∀ j < k, ¬ small j) ∧ nPoints svd pairs = { R := (x (k + 1)).R, t := (x k).t }) := by
  have h := general_loop (step svd pairs) (fun y => close y.t (step svd pairs y).t) (loop svd pairs) (loop_zero svd pairs) (loop_pos svd pairs)
    (loop_neg svd pairs) 100 (first svd pairs)
  have hP : ∀ j, close ((step svd pairs)^[j] (first svd pairs)).t (step svd pairs ((step svd pairs)^[j] (first svd pairs))).t ↔ small j := by
    intro j
    rw [close_iff, hsm, hx, hx, Function.iterate_succ_apply']
  have hn : nPoints svd pairs = loop svd pairs 100 (first svd pairs) := rfl
  rw [hn]
  rcases h with ⟨a, b⟩ | ⟨k, hk, a, b, c⟩
  · left
    exact ⟨fun j hj h => a j hj ((hP j).2 h), by rw [b, hx]⟩
  · right
    exact ⟨k, hk, (hP k).1 a, fun j hj h => b j hj ((hP j).2 h), by rw [c, hx, hx]⟩

/-! ### Exact bearings -/

theorem solid_ne {pairs : List (V3 × V3)} (h : Solid pairs) : pairs ≠ [] := by
  rintro rfl
  have := h ![1, 0, 0] (fun p hp => absurd hp (by simp))
  have := congrFun this 0
  simp at this

theorem mean_scaled {pairs : List (V3 × V3)} (hne : pairs ≠ []) {R : M3} {t : V3} {k : ℝ} (h : ∀ p ∈ pairs, R *ᵥ p.2 + t = k • p.1) :
    R *ᵥ mean (pairs.map (·.2)) + t = k • mean (pairs.map (·.1)) := by
  have hn : (pairs.length : ℝ) ≠ 0 := by
    have := List.length_pos_of_ne_nil hne
    exact_mod_cast this.ne'
  have e : R *ᵥ (pairs.map (·.2)).sum + (pairs.length : ℝ) • t = k • (pairs.map (·.1)).sum := by
    clear hne hn
    induction pairs with
    | nil => simp
    | cons p l ih =>
      simp only [List.map_cons, List.sum_cons, List.length_cons, Nat.cast_add, Nat.cast_one]
      rw [mulVec_add, smul_add, ← h p (by simp), ← ih (fun q hq => h q (List.mem_cons_of_mem _ hq)), add_smul, one_smul]; abel
  unfold mean
  simp only [List.length_map]
  rw [smul_comm, ← e, mulVec_smul, smul_add, smul_smul, inv_mul_cancel₀ hn, one_smul]

theorem centred_scaled {pairs : List (V3 × V3)} {R : M3} {t : V3} {k : ℝ} (h : ∀ p ∈ pairs, R *ᵥ p.2 + t = k • p.1) :
    ∀ p ∈ pairs, R *ᵥ (p.2 - mean (pairs.map (·.2))) = k • (p.1 - mean (pairs.map (·.1))) := by
  intro p hp
  have e := mean_scaled (List.ne_nil_of_mem hp) h
  rw [mulVec_sub, smul_sub, ← e, ← h p hp]; abel

/-- The pairs of the turned points and the points. -/
def turnedPairs (R : M3) (pairs : List (V3 × V3)) : List (V3 × V3) := pairs.map (fun p => (R *ᵥ p.2, p.2))

theorem moment_scaled {pairs : List (V3 × V3)} {R : M3} {t : V3} {k : ℝ} (h : ∀ p ∈ pairs, R *ᵥ p.2 + t = k • p.1) :
    k • moment pairs = moment (turnedPairs R pairs) := by
  have e1 := centred_scaled h
  have h' : ∀ p ∈ turnedPairs R pairs, R *ᵥ p.2 + 0 = (1 : ℝ) • p.1 := by
    intro p hp
    obtain ⟨q, -, rfl⟩ := List.mem_map.1 hp
    simp
  have e2 := centred_scaled h'
  have hm : mean ((turnedPairs R pairs).map (·.2)) = mean (pairs.map (·.2)) := by
    unfold turnedPairs; rw [List.map_map]; rfl
  unfold moment
  rw [List.smul_sum, List.map_map]
  unfold centred
  rw [hm]
  conv_rhs => rw [show (turnedPairs R pairs).map (fun p => (p.1 - mean ((turnedPairs R pairs).map (·.1)), p.2 - mean (pairs.map (·.2)))) =
    pairs.map (fun p => (R *ᵥ p.2 - mean ((turnedPairs R pairs).map (·.1)), p.2 - mean (pairs.map (·.2)))) from by
      rw [turnedPairs, List.map_map]; rfl]
  rw [List.map_map, List.map_map]
  congr 1
  apply List.map_congr_left
  intro p hp
  simp only [Function.comp_apply]
  have f1 := e1 p hp
  have f2 := e2 (R *ᵥ p.2, p.2) (List.mem_map.2 ⟨p, hp, rfl⟩)
  simp only [one_smul] at f2
  rw [hm] at f2
  rw [← f2, f1, smul_vecMulVec]

/-- Points and bearings that agree up to one scale give the rotation. -/
theorem rotation_scaled (svd : M3 → Svd 3) (hs : ∀ C, IsSvd C (svd C)) {pairs : List (V3 × V3)} {R : M3} (hR : IsRot R) {t : V3} {k : ℝ} (hk : 0 < k)
    (h : ∀ p ∈ pairs, R *ᵥ p.2 + t = k • p.1) (hf : Solid pairs) : rotationBetween svd pairs = R := by
  classical
  have hm := moment_scaled h
  obtain ⟨d, hd⟩ : ∃ d, d = svd (moment pairs) := ⟨_, rfl⟩
  have hsd : IsSvd (moment pairs) d := hd ▸ hs _
  obtain ⟨d', hd'⟩ : ∃ d' : Svd 3, d' = ⟨d.u, k • d.s, d.vh⟩ := ⟨_, rfl⟩
  have hsd' : IsSvd (moment (turnedPairs R pairs)) d' := by
    subst hd'
    refine ⟨hsd.u, hsd.vh, fun i => mul_nonneg hk.le (hsd.pos i), fun i j hij => mul_le_mul_of_nonneg_left (hsd.desc i j hij) hk.le, ?_⟩
    show _ = d.u * diagonal (k • d.s) * d.vh
    have hds : (diagonal (k • d.s) : M3) = k • diagonal d.s := diagonal_smul k d.s
    rw [← hm, hds, Matrix.mul_smul, Matrix.smul_mul]
    exact congrArg (fun M => k • M) hsd.eq
  obtain ⟨svd', hv⟩ : ∃ svd' : M3 → Svd 3, svd' = fun C => if C = moment (turnedPairs R pairs) then d' else svd C := ⟨_, rfl⟩
  have hs' : ∀ C, IsSvd C (svd' C) := by
    intro C
    rw [hv]
    simp only
    split
    · rename_i hC; rw [hC]; exact hsd'
    · exact hs C
  have he := RotationPair.C102_exact svd' hs' Rᵀ (RelativePose.rot_transpose hR) (turnedPairs R pairs) (by
    intro p hp
    obtain ⟨q, -, rfl⟩ := List.mem_map.1 hp
    simp only
    rw [mulVec_mulVec, hR.1, one_mulVec]) (by
    intro n hn
    have hz := hf (Rᵀ *ᵥ n) (fun p hp q hq => by
      have := hn (R *ᵥ p.2, p.2) (List.mem_map.2 ⟨p, hp, rfl⟩) (R *ᵥ q.2, q.2) (List.mem_map.2 ⟨q, hq, rfl⟩)
      simp only at this
      rw [← mulVec_sub, dotProduct_mulVec, ← mulVec_transpose] at this
      exact this)
    have : R *ᵥ (Rᵀ *ᵥ n) = 0 := by rw [hz, mulVec_zero]
    rwa [mulVec_mulVec, orth_comm.1 hR.1, one_mulVec] at this)
  have e1 : rotationBetween svd' (turnedPairs R pairs) = R := by
    have := congrArg Matrix.transpose he
    rwa [transpose_transpose, RotationPair.estimate, transpose_transpose] at this
  rw [← e1]
  unfold rotationBetween
  rw [hv]
  simp only [if_true]
  rw [hd', ← hd]
  rfl

theorem current_exact {pairs : List (V3 × V3)} (hp : Proper pairs) {x : RT} (h : ∀ p ∈ pairs, ∃ k : ℝ, x.R *ᵥ p.2 + x.t = k • p.1) :
    current pairs x = pairs.map (fun p => (x.R *ᵥ p.2 + x.t, p.2)) := by
  unfold current
  apply List.map_congr_left
  intro p hpm
  obtain ⟨k, hk⟩ := h p hpm
  rw [hk, line_mulVec, dotProduct_smul, smul_eq_mul, mul_div_assoc, div_self (dot_ne (hp p hpm)), mul_one]

theorem step_exact (svd : M3 → Svd 3) (hs : ∀ C, IsSvd C (svd C)) {pairs : List (V3 × V3)} (hp : Proper pairs) (hsp : Spread pairs) (hf : Solid pairs)
    {x : RT} (hR : IsRot x.R) (h : ∀ p ∈ pairs, ∃ k : ℝ, x.R *ᵥ p.2 + x.t = k • p.1) : step svd pairs x = x := by
  have hr : rotationBetween svd (current pairs x) = x.R := by
    rw [current_exact hp h]
    apply rotation_scaled svd hs hR (k := 1) (t := x.t) one_pos
    · intro p hpm
      obtain ⟨q, -, rfl⟩ := List.mem_map.1 hpm
      simp
    · intro n hn
      refine hf n (fun p hpm q hqm => ?_)
      exact hn (x.R *ᵥ p.2 + x.t, p.2) (List.mem_map.2 ⟨p, hpm, rfl⟩) (x.R *ᵥ q.2 + x.t, q.2) (List.mem_map.2 ⟨q, hqm, rfl⟩)
  unfold step
  rw [hr, C105_translation_exact pairs hp hsp x.R x.t h]

/-- An exact pose is not changed by the iterations, when no plane contains all points. -/
theorem C105_fixed (svd : M3 → Svd 3) (hs : ∀ C, IsSvd C (svd C)) (pairs : List (V3 × V3)) (hp : Proper pairs) (hsp : Spread pairs) (hf : Solid pairs)
    (R : M3) (hR : IsRot R) (t : V3) (h : ∀ p ∈ pairs, ∃ k : ℝ, R *ᵥ p.2 + t = k • p.1) (n : ℕ) : loop svd pairs n ⟨R, t⟩ = ⟨R, t⟩ := by
  have he := step_exact svd hs hp hsp hf (x := ⟨R, t⟩) hR h
  induction n with
  | zero => exact loop_zero _ _ _
  | succ n ih =>
    by_cases hc : close (⟨R, t⟩ : RT).t (step svd pairs ⟨R, t⟩).t
    · rw [loop_pos _ _ _ _ hc, he]
    · rw [loop_neg _ _ _ _ hc, he, ih]

theorem sum_sq_scaled (k : ℝ) (R : M3) (hR : IsRot R) (l : List (V3 × V3)) (h : ∀ p ∈ l, R *ᵥ p.2 = k • p.1) :
    (l.map (fun p => norm3 p.2 ^ 2)).sum = k ^ 2 * (l.map (fun p => norm3 p.1 ^ 2)).sum := by
  induction l with
  | nil => simp
  | cons p l ih =>
    simp only [List.map_cons, List.sum_cons]
    rw [ih (fun q hq => h q (List.mem_cons_of_mem _ hq)), sq (norm3 p.2), sq (norm3 p.1), norm3_sq, norm3_sq, ← Superimpose.rot_dot hR.1, h p (by simp),
      smul_dotProduct, dotProduct_smul]
    simp only [smul_eq_mul]
    ring

/-- When all points are equally distant from the camera, and no plane contains them, exact bearings give the pose. -/
theorem C105_sphere (svd : M3 → Svd 3) (hs : ∀ C, IsSvd C (svd C)) (pairs : List (V3 × V3)) (hsp : Spread pairs) (hf : Solid pairs)
    (R : M3) (hR : IsRot R) (t : V3) (k : ℝ) (hk : 0 < k) (hu : ∀ p ∈ pairs, p.1 ⬝ᵥ p.1 = 1) (h : ∀ p ∈ pairs, R *ᵥ p.2 + t = k • p.1) :
    nPoints svd pairs = ⟨R, t⟩ := by
  have hp : Proper pairs := fun p hpm h0 => by
    have := hu p hpm
    rw [h0] at this; simp at this
  have hr := rotation_scaled svd hs hR hk h hf
  have hc : ∀ p ∈ centred pairs, R *ᵥ p.2 = k • p.1 := by
    intro p hpm
    unfold centred at hpm
    obtain ⟨q, hq, rfl⟩ := List.mem_map.1 hpm
    exact centred_scaled h q hq
  have hsc : scale pairs = k := by
    unfold scale
    rw [sum_sq_scaled k R hR _ hc]
    have hne : ((centred pairs).map (fun p => norm3 p.1 ^ 2)).sum ≠ 0 := by
      intro h0
      have hz := RotationPair.sum_zero _ (fun y hy => by
        obtain ⟨p, -, rfl⟩ := List.mem_map.1 hy; positivity) h0
      have hall : ∀ p ∈ pairs, p.2 = mean (pairs.map (·.2)) := by
        intro p hpm
        have hmem : (p.1 - mean (pairs.map (·.1)), p.2 - mean (pairs.map (·.2))) ∈ centred pairs := List.mem_map.2 ⟨p, hpm, rfl⟩
        have h1 := hz _ (List.mem_map.2 ⟨_, hmem, rfl⟩)
        simp only at h1
        rw [sq, norm3_sq] at h1
        have h2 := hc _ hmem
        simp only at h2
        rw [Superimpose.dot_self_zero.1 h1, smul_zero] at h2
        have h3 : Rᵀ *ᵥ (R *ᵥ (p.2 - mean (pairs.map (·.2)))) = 0 := by rw [h2, mulVec_zero]
        rw [mulVec_mulVec, hR.1, one_mulVec] at h3
        exact sub_eq_zero.1 h3
      have := hf ![1, 0, 0] (fun p hp q hq => by rw [hall p hp, hall q hq, sub_self, dotProduct_zero])
      have := congrFun this 0
      simp at this
    rw [mul_div_assoc, div_self hne, mul_one, Real.sqrt_sq hk.le]
  have hfirst : first svd pairs = ⟨R, t⟩ := by
    unfold first
    rw [hr, hsc]
    congr 1
    have := mean_scaled (solid_ne hf) h
    rw [← this]; abel
  unfold nPoints
  rw [hfirst]
  exact C105_fixed svd hs pairs hp hsp hf R hR t (fun p hpm => ⟨k, h p hpm⟩) 100

/-- When a plane contains all points, the rotation after the exact pose is decided by a sign that the decomposition leaves free: with one choice
it is right on the plane, with the other each direction of the plane is turned to its opposite. -/
theorem C105_flat (pairs : List (V3 × V3)) (hp : Proper pairs) (n : V3) (hn : n ≠ 0) (hpl : ∀ p ∈ pairs, ∀ q ∈ pairs, n ⬝ᵥ (q.2 - p.2) = 0)
    (R : M3) (hR : IsRot R) (t : V3) (h : ∀ p ∈ pairs, ∃ k : ℝ, R *ᵥ p.2 + t = k • p.1) :
    ∃ svd svd' : M3 → Svd 3, (∀ C, IsSvd C (svd C)) ∧ (∀ C, IsSvd C (svd' C)) ∧
      (∀ p ∈ pairs, ∀ q ∈ pairs, (step svd pairs ⟨R, t⟩).R *ᵥ (q.2 - p.2) = R *ᵥ (q.2 - p.2)) ∧
      (∀ p ∈ pairs, ∀ q ∈ pairs, (step svd' pairs ⟨R, t⟩).R *ᵥ (q.2 - p.2) = -(R *ᵥ (q.2 - p.2))) := by
  by_cases hne : pairs = []
  · obtain ⟨svd, hs⟩ := Superimpose.C88_svd 3
    exact ⟨svd, svd, hs, hs, by rw [hne]; simp, by rw [hne]; simp⟩
  have hcur := current_exact hp (x := ⟨R, t⟩) h
  have hmom : moment (current pairs ⟨R, t⟩) = moment (turnedPairs R pairs) := by
    have := moment_scaled (pairs := current pairs ⟨R, t⟩) (R := R) (t := t) (k := 1) (by
      rw [hcur]
      intro p hpm
      obtain ⟨q, -, rfl⟩ := List.mem_map.1 hpm
      simp)
    rw [one_smul] at this
    rw [this, hcur]
    unfold turnedPairs
    rw [List.map_map]; rfl
  have hdet : (moment (turnedPairs R pairs)).det = 0 := by
    apply Matrix.exists_mulVec_eq_zero_iff.1
    refine ⟨n, hn, ?_⟩
    have hmean : ∀ p ∈ pairs, (p.2 - mean (pairs.map (·.2))) ⬝ᵥ n = 0 := by
      intro p hpm
      have hs : ∀ l : List (V3 × V3), (∀ q ∈ l, q ∈ pairs) → (l.map (·.2)).sum ⬝ᵥ n = (l.length : ℝ) * (p.2 ⬝ᵥ n) := by
        intro l hl
        induction l with
        | nil => simp
        | cons q l ih =>
          simp only [List.map_cons, List.sum_cons, List.length_cons, Nat.cast_add, Nat.cast_one]
          have := hpl p hpm q (hl q (by simp))
          rw [dotProduct_comm, sub_dotProduct] at this
          rw [add_dotProduct, ih (fun r hr => hl r (List.mem_cons_of_mem _ hr))]
          linarith
      have hl : (pairs.length : ℝ) ≠ 0 := by
        have := List.length_pos_of_ne_nil hne
        exact_mod_cast this.ne'
      rw [sub_dotProduct]
      unfold mean
      rw [smul_dotProduct, hs pairs (fun _ h => h), List.length_map, smul_eq_mul, ← mul_assoc, inv_mul_cancel₀ hl, one_mul, sub_self]
    unfold moment centred
    rw [List.map_map]
    have hm2 : (turnedPairs R pairs).map (·.2) = pairs.map (·.2) := by unfold turnedPairs; rw [List.map_map]; rfl
    obtain ⟨m1, hm1⟩ : ∃ m1, m1 = mean ((turnedPairs R pairs).map (·.1)) := ⟨_, rfl⟩
    obtain ⟨m2, hm2'⟩ : ∃ m2, m2 = mean ((turnedPairs R pairs).map (·.2)) := ⟨_, rfl⟩
    rw [hm2] at hm2'
    rw [hm2, ← hm1, ← hm2']
    rw [← hm2'] at hmean
    unfold turnedPairs
    rw [List.map_map]
    have : ∀ l : List (V3 × V3), (∀ q ∈ l, q ∈ pairs) → (l.map (fun p => vecMulVec (R *ᵥ p.2 - m1) (p.2 - m2))).sum *ᵥ n = 0 := by
      intro l hl
      induction l with
      | nil => simp
      | cons q l ih =>
        simp only [List.map_cons, List.sum_cons]
        rw [add_mulVec, ih (fun r hr => hl r (List.mem_cons_of_mem _ hr)), vecMulVec_mulVec, hmean q (hl q (by simp))]
        simp
    exact this pairs (fun _ h => h)
  obtain ⟨svd, svd', h1, h2, h3, h4⟩ := RotationPair.singular_choice Rᵀ (RelativePose.rot_transpose hR) (turnedPairs R pairs) hdet (by
    intro p hpm
    obtain ⟨q, -, rfl⟩ := List.mem_map.1 hpm
    simp only
    rw [mulVec_mulVec, hR.1, one_mulVec])
  have hst : ∀ sv : M3 → Svd 3, (step sv pairs ⟨R, t⟩).R = (estimate sv (turnedPairs R pairs))ᵀ := by
    intro sv
    rw [RotationPair.estimate_transpose]
    show rotationBetween sv (current pairs ⟨R, t⟩) = _
    unfold rotationBetween
    rw [hmom]
  have horth : ∀ sv : M3 → Svd 3, (∀ C, IsSvd C (sv C)) → (estimate sv (turnedPairs R pairs))ᵀ * estimate sv (turnedPairs R pairs) = 1 :=
    fun sv hsv => (RotationPair.C102_rotation sv hsv _).1
  refine ⟨svd, svd', h1, h2, ?_, ?_⟩
  · intro p hpm q hqm
    have e := h3 (R *ᵥ p.2, p.2) (List.mem_map.2 ⟨p, hpm, rfl⟩) (R *ᵥ q.2, q.2) (List.mem_map.2 ⟨q, hqm, rfl⟩)
    simp only at e
    rw [hst]
    nth_rewrite 1 [← e]
    rw [mulVec_mulVec, horth svd h1, one_mulVec, mulVec_sub]
  · intro p hpm q hqm
    have e := h4 (R *ᵥ p.2, p.2) (List.mem_map.2 ⟨p, hpm, rfl⟩) (R *ᵥ q.2, q.2) (List.mem_map.2 ⟨q, hqm, rfl⟩)
    simp only at e
    have e' : q.2 - p.2 = -(estimate svd' (turnedPairs R pairs) *ᵥ (R *ᵥ q.2 - R *ᵥ p.2)) := by rw [e, neg_neg]
    rw [hst]
    nth_rewrite 1 [e']
    rw [mulVec_neg, mulVec_mulVec, horth svd' h2, one_mulVec, mulVec_sub]

/-- A known rotation: exact bearings give the position of the camera. -/
theorem C105_known_rotation (pairs : List (V3 × V3)) (hp : Proper pairs) (hs : Spread pairs) (o : V3)
    (h : ∀ p ∈ pairs, ∃ k : ℝ, p.2 - o = k • p.1) : (cameraToWorldKnown (knownRotation pairs)).t = o ∧ (cameraToWorldKnown (knownRotation pairs)).R = 1 := by
  have := C105_translation_exact pairs hp hs 1 (-o) (fun p hpm => by
    obtain ⟨k, hk⟩ := h p hpm
    exact ⟨k, by rw [one_mulVec, ← sub_eq_add_neg, hk]⟩)
  refine ⟨?_, rfl⟩
  unfold cameraToWorldKnown knownRotation
  rw [this, neg_neg]

/-! ### Errors and resection -/

theorem norm_ne {v : V3} (h : v ≠ 0) : norm3 v ≠ 0 := norm3_pos_of h

theorem normalized_dot {u v : V3} (hu : u ≠ 0) (hv : v ≠ 0) :
    normalized u ⬝ᵥ normalized v = Real.cos (InnerProductGeometry.angle (pt u) (pt v)) := by
  rw [InnerProductGeometry.cos_angle, inner_pt, norm_pt, norm_pt]
  unfold normalized
  rw [smul_dotProduct, dotProduct_smul]
  simp only [smul_eq_mul]
  unfold norm3
  have h1 : Real.sqrt (u ⬝ᵥ u) ≠ 0 := norm_ne hu
  have h2 : Real.sqrt (v ⬝ᵥ v) ≠ 0 := norm_ne hv
  field_simp

theorem angle_error {u v : V3} (hu : u ≠ 0) (hv : v ≠ 0) (θ : ℝ) (h0 : 0 ≤ θ) (hθ : θ ≤ Real.pi) :
    1 - normalized u ⬝ᵥ normalized v < thresholdAdapter θ ↔ InnerProductGeometry.angle (pt u) (pt v) < θ := by
  rw [normalized_dot hu hv]
  unfold thresholdAdapter
  constructor
  · intro h
    by_contra hn
    have := Real.cos_le_cos_of_nonneg_of_le_pi h0 (InnerProductGeometry.angle_le_pi _ _) (not_lt.1 hn)
    linarith
  · intro h
    have := Real.cos_lt_cos_of_nonneg_of_le_pi (InnerProductGeometry.angle_nonneg _ _) hθ h
    linarith

/-- A point is below the threshold of the robust estimation exactly when its bearing is within the angle of the direction in which the camera sees it;
the same with a known rotation. -/
theorem C105_error (x : RT) (b X : V3) (hb : b ≠ 0) (θ : ℝ) (h0 : 0 ≤ θ) (hθ : θ ≤ Real.pi) :
    (x.R *ᵥ X + x.t ≠ 0 → (evaluate x (b, X) < thresholdAdapter θ ↔ InnerProductGeometry.angle (pt b) (pt (x.R *ᵥ X + x.t)) < θ)) ∧
    (X + x.t ≠ 0 → (evaluateKnown x.t (b, X) < thresholdAdapter θ ↔ InnerProductGeometry.angle (pt b) (pt (X + x.t)) < θ)) :=
  ⟨fun h => angle_error hb h θ h0 hθ, fun h => angle_error hb h θ h0 hθ⟩

theorem back (x : RT) (hR : IsRot x.R) (X : V3) : (cameraToWorld x).Rᵀ *ᵥ (X - (cameraToWorld x).t) = x.R *ᵥ X + x.t := by
  unfold cameraToWorld
  simp only [transpose_transpose]
  rw [sub_neg_eq_add, mulVec_add, mulVec_mulVec, orth_comm.1 hR.1, one_mulVec]

/-- What the scripts call the pose of the camera: its columns are the axes of the camera and its position, and the point with these coordinates in
the camera is seen there. -/
theorem C105_camera_to_world (x : RT) (hR : IsRot x.R) (Y : V3) :
    x.R *ᵥ ((cameraToWorld x).R *ᵥ Y + (cameraToWorld x).t) + x.t = Y := by
  have := back x hR ((cameraToWorld x).R *ᵥ Y + (cameraToWorld x).t)
  rw [← this, add_sub_cancel_right]
  unfold cameraToWorld
  simp only [transpose_transpose]
  rw [mulVec_mulVec, orth_comm.1 hR.1, one_mulVec]

/-- Seen from the pose, the point is at a distance of less than the threshold from the bearing on the unit sphere. -/
def Agrees (x : RT) (threshold : ℝ) (b X : V3) : Prop :=
  x.R *ᵥ X + x.t ≠ 0 ∧ dist (pt ((1 / Real.sqrt ((x.R *ᵥ X + x.t) ⬝ᵥ (x.R *ᵥ X + x.t))) • (x.R *ᵥ X + x.t))) (pt b) < threshold

theorem isInlier_iff (x : RT) (hR : IsRot x.R) (thr : ℝ) (b X : V3) : isInlier (cameraToWorld x) thr (b, X) = true ↔ Agrees x thr b X := by
  unfold isInlier Agrees
  simp only [decide_eq_true_eq]
  rw [back x hR, dist_pt]
  constructor
  · rintro ⟨h1, h2⟩
    refine ⟨?_, h2⟩
    intro h0
    apply h1
    rw [h0]
    exact ThreePoints.norm3_zero
  · rintro ⟨h1, h2⟩
    exact ⟨norm_ne h1, h2⟩

theorem chord {u b : V3} (hu : u ≠ 0) (hb : b ⬝ᵥ b = 1) :
    dist (pt (normalized u)) (pt b) = 2 * Real.sin (InnerProductGeometry.angle (pt b) (pt u) / 2) := by
  have hb0 : b ≠ 0 := fun h => by rw [h] at hb; simp at hb
  have hnb : normalized b = b := by unfold normalized norm3; rw [hb]; simp
  have hdot := normalized_dot hb0 hu
  rw [hnb] at hdot
  have hs : 0 ≤ Real.sin (InnerProductGeometry.angle (pt b) (pt u) / 2) := by
    apply Real.sin_nonneg_of_nonneg_of_le_pi
    · have := InnerProductGeometry.angle_nonneg (pt b) (pt u); linarith
    · have := InnerProductGeometry.angle_le_pi (pt b) (pt u)
      have := InnerProductGeometry.angle_nonneg (pt b) (pt u)
      linarith
  rw [dist_pt]
  have hsq : (normalized u - b) ⬝ᵥ (normalized u - b) = (2 * Real.sin (InnerProductGeometry.angle (pt b) (pt u) / 2)) ^ 2 := by
    rw [sub_dotProduct, dotProduct_sub, dotProduct_sub, normalized_unit (norm_ne hu), hb, dotProduct_comm (normalized u) b, hdot, mul_pow, Real.sin_sq, Real.cos_sq,
      mul_div_cancel₀ _ (two_ne_zero)]
    ring
  rw [hsq, Real.sqrt_sq (by linarith)]

/-- The test of `resect` compares the distance on the unit sphere and not the angle with the threshold: every inlier of the robust estimation passes,
and for a threshold of at most two a point passes exactly when the angle is less than `2 arcsin (threshold / 2)`. -/
theorem C105_inliers (x : RT) (hR : IsRot x.R) (b X : V3) (hb : b ⬝ᵥ b = 1) (hX : x.R *ᵥ X + x.t ≠ 0) (θ : ℝ) (h0 : 0 ≤ θ) :
    (θ ≤ Real.pi → evaluate x (b, X) < thresholdAdapter θ → isInlier (cameraToWorld x) θ (b, X) = true) ∧
    (θ ≤ 2 → (isInlier (cameraToWorld x) θ (b, X) = true ↔ InnerProductGeometry.angle (pt b) (pt (x.R *ᵥ X + x.t)) < 2 * Real.arcsin (θ / 2))) := by
  have hb0 : b ≠ 0 := fun h => by rw [h] at hb; simp at hb
  have hi : isInlier (cameraToWorld x) θ (b, X) = true ↔ 2 * Real.sin (InnerProductGeometry.angle (pt b) (pt (x.R *ᵥ X + x.t)) / 2) < θ := by
    rw [isInlier_iff x hR, ← chord hX hb]
    unfold Agrees
    exact ⟨fun h => h.2, fun h => ⟨hX, h⟩⟩
  have ha0 := InnerProductGeometry.angle_nonneg (pt b) (pt (x.R *ᵥ X + x.t))
  have hap := InnerProductGeometry.angle_le_pi (pt b) (pt (x.R *ᵥ X + x.t))
  constructor
  · intro hθ he
    have ha := ((C105_error x b X hb0 θ h0 hθ).1 hX).1 he
    rw [hi]
    have := Real.sin_le (x := InnerProductGeometry.angle (pt b) (pt (x.R *ᵥ X + x.t)) / 2) (by linarith)
    linarith
  · intro hθ
    rw [hi]
    have h1 : Real.sin (InnerProductGeometry.angle (pt b) (pt (x.R *ᵥ X + x.t)) / 2) < θ / 2 ↔
        InnerProductGeometry.angle (pt b) (pt (x.R *ᵥ X + x.t)) / 2 < Real.arcsin (θ / 2) := by
      have := Real.lt_arcsin_iff_sin_lt (x := InnerProductGeometry.angle (pt b) (pt (x.R *ᵥ X + x.t)) / 2) (y := θ / 2)
        ⟨by linarith [Real.pi_pos], by linarith⟩ ⟨by linarith, by linarith⟩
      exact this.symm
    constructor
    · intro h; have := h1.1 (by linarith); linarith
    · intro h; have := h1.2 (by linarith); linarith

open Classical in
/-- The answer of `resect`. With `n` tracks of the image among the points and `m` of them that agree with the pose of the robust estimation: less than
five tracks, or less than `min_inliers` that agree, leave the reconstruction as it is; else the shot gets that pose, from world to camera, and an observation of
exactly the tracks that agree. -/
theorem C105_resect {Id : Type} (ransac : ℝ → List (V3 × V3) → RT) (hR : ∀ t l, IsRot (ransac t l).R) (seen : List (Id × V3)) (points : Id → Option V3)
    (thr : ℝ) (minInliers : ℕ) (data : List (Id × (V3 × V3)))
    (hdata : data = seen.filterMap (fun s => (points s.1).map (fun X => (s.1, s.2, X)))) :
    match resect ransac seen points thr minInliers with
    | .few n => n = data.length ∧ n < 5
    | .refused n m => n = data.length ∧ 5 ≤ n ∧ m < minInliers ∧
        m = (data.filter (fun d => decide (Agrees (ransac thr (data.map (·.2))) thr d.2.1 d.2.2))).length
    | .added pose obs n m => n = data.length ∧ 5 ≤ n ∧ minInliers ≤ m ∧ pose = ransac thr (data.map (·.2)) ∧
        m = obs.length ∧ obs = (data.filter (fun d => decide (Agrees pose thr d.2.1 d.2.2))).map (·.1) := by
  unfold resect
  simp only
  rw [← hdata]
  have hrot := hR thr (data.map (·.2))
  obtain ⟨x, hx⟩ : ∃ x, x = ransac thr (data.map (·.2)) := ⟨_, rfl⟩
  rw [← hx] at hrot ⊢
  have hg : data.filter (fun d => isInlier (cameraToWorld x) thr d.2) = data.filter (fun d => decide (Agrees x thr d.2.1 d.2.2)) := by
    apply List.filter_congr
    intro d _
    rw [Bool.eq_iff_iff, decide_eq_true_eq]
    exact isInlier_iff x hrot thr d.2.1 d.2.2
  have hpose : ({ R := (cameraToWorld x).Rᵀ, t := -((cameraToWorld x).Rᵀ *ᵥ (cameraToWorld x).t) } : RT) = x := by
    unfold cameraToWorld
    simp only [transpose_transpose]
    rw [mulVec_neg, neg_neg, mulVec_mulVec, orth_comm.1 hrot.1, one_mulVec]
  by_cases h5 : data.length < 5
  · rw [if_pos h5]; exact ⟨rfl, h5⟩
  · rw [if_neg h5]
    by_cases hm : (data.filter (fun d => isInlier (cameraToWorld x) thr d.2)).length ≥ minInliers
    · rw [if_pos hm, hpose]
      exact ⟨rfl, not_lt.1 h5, hm, rfl, by rw [List.length_map], by rw [hg]⟩
    · rw [if_neg hm]
      exact ⟨rfl, not_lt.1 h5, not_le.1 hm, by rw [hg]⟩

/-! ### Examples -/

/-- Four points at distance two of a camera at `-t`. -/
noncomputable def exPairs : List (V3 × V3) :=
  [(![1, 0, 0], ![2, 0, -5]), (![0, 1, 0], ![0, 2, -5]), (![0, 0, 1], ![0, 0, -3]), (![-1, 0, 0], ![-2, 0, -5])]

theorem ex_spread : Spread exPairs := by
  refine ⟨(![1, 0, 0], ![2, 0, -5]), by simp [exPairs], (![0, 1, 0], ![0, 2, -5]), by simp [exPairs], ?_⟩
  intro h
  have := congrFun h 2
  simp [cross] at this

theorem ex_solid : Solid exPairs := by
  intro n hn
  have h1 := hn (![1, 0, 0], ![2, 0, -5]) (by simp [exPairs]) (![-1, 0, 0], ![-2, 0, -5]) (by simp [exPairs])
  have h2 := hn (![1, 0, 0], ![2, 0, -5]) (by simp [exPairs]) (![0, 1, 0], ![0, 2, -5]) (by simp [exPairs])
  have h3 := hn (![1, 0, 0], ![2, 0, -5]) (by simp [exPairs]) (![0, 0, 1], ![0, 0, -3]) (by simp [exPairs])
  simp [dotProduct, Fin.sum_univ_three] at h1 h2 h3
  have h1 : n 0 = 0 := by rcases h1 with h | h <;> [exact h; norm_num at h]
  apply RelativePose.vec_ext <;> simp <;> linarith

/-- The hypotheses of `C105_sphere`, and with them those of `C105_translation`, `C105_translation_exact` and `C105_fixed`, are met. -/
example (svd : M3 → Svd 3) (hs : ∀ C, IsSvd C (svd C)) : nPoints svd exPairs = ⟨1, ![0, 0, 5]⟩ := by
  apply C105_sphere svd hs exPairs ex_spread ex_solid 1 ⟨by simp, by simp⟩ ![0, 0, 5] 2 two_pos
  · intro p hp
    simp only [exPairs, List.mem_cons, List.not_mem_nil, or_false] at hp
    rcases hp with rfl | rfl | rfl | rfl <;> simp [dotProduct, Fin.sum_univ_three]
  · intro p hp
    simp only [exPairs, List.mem_cons, List.not_mem_nil, or_false] at hp
    rcases hp with rfl | rfl | rfl | rfl <;> (rw [one_mulVec]; apply RelativePose.vec_ext <;> simp <;> norm_num)

/-- The determinant of `C105_decreases` is positive for a pose that is not exact. -/
example : 0 < ([((![1, 0, 0] : V3), (![1, 1, 0] : V3)), (![0, 1, 0], ![0, 1, 0]), (![0, 0, 1], ![0, 0, 1]), (![-1, 0, 0], ![-1, 0, 0])].map
    (fun p => vecMulVec (((p.1 ⬝ᵥ ((1 : M3) *ᵥ p.2 + 0)) / (p.1 ⬝ᵥ p.1)) • p.1 -
      mean ([((![1, 0, 0] : V3), (![1, 1, 0] : V3)), (![0, 1, 0], ![0, 1, 0]), (![0, 0, 1], ![0, 0, 1]), (![-1, 0, 0], ![-1, 0, 0])].map
        (fun p => ((p.1 ⬝ᵥ ((1 : M3) *ᵥ p.2 + 0)) / (p.1 ⬝ᵥ p.1)) • p.1)))
      (p.2 - mean ([((![1, 0, 0] : V3), (![1, 1, 0] : V3)), (![0, 1, 0], ![0, 1, 0]), (![0, 0, 1], ![0, 0, 1]), (![-1, 0, 0], ![-1, 0, 0])].map (·.2))))).sum.det := by
  rw [det_fin_three]
  simp [mean, vecMulVec_apply, dotProduct, Fin.sum_univ_three, Matrix.add_apply]
  norm_num

/-- A flat scene meets the hypotheses of `C105_flat`. -/
example : ∃ (pairs : List (V3 × V3)) (n : V3), Proper pairs ∧ n ≠ 0 ∧ (∀ p ∈ pairs, ∀ q ∈ pairs, n ⬝ᵥ (q.2 - p.2) = 0) ∧
    (∀ p ∈ pairs, ∃ k : ℝ, (1 : M3) *ᵥ p.2 + ![0, 0, 2] = k • p.1) ∧ ∃ p ∈ pairs, ∃ q ∈ pairs, q.2 - p.2 ≠ 0 := by
  refine ⟨[(![1, 0, 2], ![1, 0, 0]), (![0, 1, 2], ![0, 1, 0]), (![0, 0, 1], ![0, 0, 0])], ![0, 0, 1], ?_, ?_, ?_, ?_, ?_⟩
  · intro p hp h
    simp only [List.mem_cons, List.not_mem_nil, or_false] at hp
    rcases hp with rfl | rfl | rfl <;> (have := congrFun h 2; simp at this)
  · intro h; have := congrFun h 2; simp at this
  · intro p hp q hq
    simp only [List.mem_cons, List.not_mem_nil, or_false] at hp hq
    rcases hp with rfl | rfl | rfl <;> rcases hq with rfl | rfl | rfl <;> simp [dotProduct, Fin.sum_univ_three]
  · intro p hp
    simp only [List.mem_cons, List.not_mem_nil, or_false] at hp
    rcases hp with rfl | rfl | rfl
    · exact ⟨1, by rw [one_mulVec]; apply RelativePose.vec_ext <;> simp⟩
    · exact ⟨1, by rw [one_mulVec]; apply RelativePose.vec_ext <;> simp⟩
    · exact ⟨2, by rw [one_mulVec]; apply RelativePose.vec_ext <;> simp⟩
  · refine ⟨(![1, 0, 2], ![1, 0, 0]), by simp, (![0, 1, 2], ![0, 1, 0]), by simp, ?_⟩
    intro h; have := congrFun h 0; simp at this

/-- Parallel bearings. -/
example : ∀ p ∈ [((![0, 0, 1] : V3), (![0, 0, 4] : V3)), (![0, 0, 2], ![0, 0, 7])], ∃ k : ℝ, k ≠ 0 ∧ p.1 = k • (![0, 0, 1] : V3) := by
  intro p hp
  simp only [List.mem_cons, List.not_mem_nil, or_false] at hp
  rcases hp with rfl | rfl
  · exact ⟨1, one_ne_zero, by simp⟩
  · exact ⟨2, two_ne_zero, by apply RelativePose.vec_ext <;> simp⟩

end Verif.AbsolutePose
