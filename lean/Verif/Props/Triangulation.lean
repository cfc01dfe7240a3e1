import Verif.Model.Triangulation
import Mathlib.Geometry.Euclidean.Angle.Unoriented.Basic
import Mathlib.Analysis.InnerProductSpace.PiL2
import Mathlib.Topology.MetricSpace.HausdorffDistance
import Mathlib.LinearAlgebra.Matrix.ToLinearEquiv
import Mathlib.Tactic.FinCases
import Mathlib.Analysis.Real.Pi.Bounds

/-!
# C85: triangulation
-/
set_option linter.unusedSectionVars false
set_option linter.unusedSimpArgs false
namespace Verif.Triangulation
open Verif.Depthmap Matrix

/-- A point of Euclidean space from its coordinates. -/
noncomputable def pt (x : V3) : EuclideanSpace ℝ (Fin 3) := WithLp.toLp 2 x

/-! ### Angles -/

theorem inner_pt (x y : V3) : inner ℝ (pt x) (pt y) = x ⬝ᵥ y := by
  unfold pt
  rw [EuclideanSpace.inner_toLp_toLp, dotProduct_comm]
  rfl

theorem norm_pt (x : V3) : ‖pt x‖ = Real.sqrt (x ⬝ᵥ x) := by
  rw [← inner_pt x x, real_inner_self_eq_norm_sq, Real.sqrt_sq (norm_nonneg _)]

theorem dot_self_nonneg (x : V3) : 0 ≤ x ⬝ᵥ x := by rw [← inner_pt]; exact real_inner_self_nonneg

theorem dot_self_zero {x : V3} : x ⬝ᵥ x = 0 ↔ x = 0 := by
  rw [← inner_pt, inner_self_eq_zero]
  exact ⟨fun h => (WithLp.toLp_injective 2) (h.trans rfl), fun h => by rw [h]; rfl⟩

theorem angle_cos (u v : V3) : angleBetween u v = if |Real.cos (InnerProductGeometry.angle (pt u) (pt v))| ≥ 1 then 0
    else InnerProductGeometry.angle (pt u) (pt v) := by
  have h : Real.cos (InnerProductGeometry.angle (pt u) (pt v)) = (u ⬝ᵥ v) / Real.sqrt ((u ⬝ᵥ u) * (v ⬝ᵥ v)) := by
    rw [InnerProductGeometry.cos_angle, inner_pt, norm_pt, norm_pt, Real.sqrt_mul (dot_self_nonneg u)]
  rw [h]
  unfold angleBetween InnerProductGeometry.angle
  simp only [inner_pt, norm_pt, ← Real.sqrt_mul (dot_self_nonneg u)]

/-- The computed angle is the angle, but for opposite vectors, for which it is zero. -/
theorem C85_angle (u v : V3) :
    angleBetween u v = if InnerProductGeometry.angle (pt u) (pt v) = Real.pi then 0
      else InnerProductGeometry.angle (pt u) (pt v) := by
  rw [angle_cos]
  have h0 := InnerProductGeometry.angle_nonneg (pt u) (pt v)
  have h1 := InnerProductGeometry.angle_le_pi (pt u) (pt v)
  set a := InnerProductGeometry.angle (pt u) (pt v)
  by_cases ha : a = Real.pi
  · rw [if_pos ha, if_pos]; rw [ha]; simp
  · rw [if_neg ha]
    by_cases hb : a = 0
    · rw [hb]; simp
    · rw [if_neg]
      have hlt : a < Real.pi := lt_of_le_of_ne h1 ha
      have hpos : 0 < a := lt_of_le_of_ne h0 (Ne.symm hb)
      have := Real.sin_pos_of_pos_of_lt_pi hpos hlt
      have hs := Real.sin_sq_add_cos_sq a
      rw [ge_iff_le, not_le, ← sq_lt_one_iff_abs_lt_one]
      nlinarith [sq_nonneg (Real.sin a), sq_pos_of_pos this]

/-- Rays that form an angle, whatever their orientation. -/
def Wide (minAngle : ℝ) (u v : V3) : Prop :=
  minAngle ≤ InnerProductGeometry.angle (pt u) (pt v) ∧ InnerProductGeometry.angle (pt u) (pt v) ≤ Real.pi - minAngle

theorem wide_iff {minAngle : ℝ} (h : 0 < minAngle) (u v : V3) : wide minAngle u v ↔ Wide minAngle u v := by
  unfold wide Wide
  rw [C85_angle]
  split
  · rename_i ha
    rw [ha]
    constructor
    · rintro ⟨h1, -⟩; exact absurd h1 (by simpa using h)
    · rintro ⟨-, h1⟩; linarith
  · rfl

theorem wide_comm (minAngle : ℝ) (u v : V3) : Wide minAngle u v ↔ Wide minAngle v u := by
  unfold Wide; rw [InnerProductGeometry.angle_comm]

theorem angleOk_iff (minAngle : ℝ) (seen bs : List V3) :
    angleOk minAngle seen bs ↔ ∃ (i : ℕ) (b p : V3), bs[i]? = some b ∧ (p ∈ seen ∨ ∃ j, j < i ∧ bs[j]? = some p) ∧
      wide minAngle b p := by
  induction bs generalizing seen with
  | nil => simp [angleOk]
  | cons a bs ih =>
    unfold angleOk
    rw [ih]
    constructor
    · rintro (⟨p, hp, hw⟩ | ⟨i, b, p, h1, h2, h3⟩)
      · exact ⟨0, a, p, rfl, Or.inl hp, hw⟩
      · refine ⟨i + 1, b, p, by simpa using h1, ?_, h3⟩
        rcases h2 with h2 | ⟨j, hj, h2⟩
        · rcases List.mem_cons.1 h2 with rfl | h2
          · exact Or.inr ⟨0, by omega, rfl⟩
          · exact Or.inl h2
        · exact Or.inr ⟨j + 1, by omega, by simpa using h2⟩
    · rintro ⟨i, b, p, h1, h2, h3⟩
      cases i with
      | zero =>
        simp only [List.getElem?_cons_zero, Option.some.injEq] at h1
        subst h1
        rcases h2 with h2 | ⟨j, hj, -⟩
        · exact Or.inl ⟨p, h2, h3⟩
        · omega
      | succ i =>
        refine Or.inr ⟨i, b, p, by simpa using h1, ?_, h3⟩
        rcases h2 with h2 | ⟨j, hj, h2⟩
        · exact Or.inl (List.mem_cons_of_mem _ h2)
        · cases j with
          | zero =>
            simp only [List.getElem?_cons_zero, Option.some.injEq] at h2
            subst h2
            exact Or.inl (by simp)
          | succ j => exact Or.inr ⟨j, by omega, by simpa using h2⟩

/-- Two bearings of the list form an angle of at least `minAngle`. -/
def Separated (minAngle : ℝ) (bs : List V3) : Prop :=
  ∃ b ∈ bs, ∃ p ∈ bs, Wide minAngle b p

theorem wide_self {minAngle : ℝ} (h : 0 < minAngle) {b : V3} (hb : b ≠ 0) : ¬ Wide minAngle b b := by
  rintro ⟨h1, -⟩
  have : pt b ≠ 0 := by
    intro h0
    apply hb
    have h2 : b ⬝ᵥ b = 0 := by rw [← inner_pt, h0]; simp
    exact dot_self_zero.1 h2
  rw [InnerProductGeometry.angle_self this] at h1
  linarith

theorem angleOk_sep {minAngle : ℝ} (h : 0 < minAngle) {bs : List V3} (hb : ∀ b ∈ bs, b ≠ 0) :
    angleOk minAngle [] bs ↔ Separated minAngle bs := by
  rw [angleOk_iff]
  constructor
  · rintro ⟨i, b, p, h1, h2, h3⟩
    rcases h2 with h2 | ⟨j, -, h2⟩
    · simp at h2
    · exact ⟨b, List.mem_of_getElem? h1, p, List.mem_of_getElem? h2, (wide_iff h b p).1 h3⟩
  · rintro ⟨b, h1, p, h2, h3⟩
    obtain ⟨i, hi⟩ := List.getElem?_of_mem h1
    obtain ⟨j, hj⟩ := List.getElem?_of_mem h2
    rcases Nat.lt_trichotomy j i with hij | rfl | hij
    · exact ⟨i, b, p, hi, Or.inr ⟨j, hij, hj⟩, (wide_iff h b p).2 h3⟩
    · rw [hi] at hj
      cases hj
      exact absurd h3 (wide_self h (hb b h1))
    · exact ⟨j, p, b, hj, Or.inr ⟨i, hij, hi⟩, (wide_iff h p b).2 ((wide_comm _ _ _).1 h3)⟩

/-! ### The least squares solution -/

/-- The square of the distance to a ray with unit bearing. -/
def q (b v : V3) : ℝ := v ⬝ᵥ v - (b ⬝ᵥ v) ^ 2

theorem dot3 (u v : V3) : u ⬝ᵥ v = u 0 * v 0 + u 1 * v 1 + u 2 * v 2 := by
  rw [dotProduct, Fin.sum_univ_three]

theorem q_nonneg {b : V3} (hb : b ⬝ᵥ b = 1) (v : V3) : 0 ≤ q b v := by
  unfold q
  have := real_inner_mul_inner_self_le (pt b) (pt v)
  rw [inner_pt, inner_pt, inner_pt, hb] at this
  nlinarith

theorem q_zero {b v : V3} (hb : b ⬝ᵥ b = 1) (h : q b v = 0) : v = (b ⬝ᵥ v) • b := by
  have : (v - (b ⬝ᵥ v) • b) ⬝ᵥ (v - (b ⬝ᵥ v) • b) = 0 := by
    have e : (v - (b ⬝ᵥ v) • b) ⬝ᵥ (v - (b ⬝ᵥ v) • b) = q b v + (b ⬝ᵥ v) ^ 2 * (b ⬝ᵥ b - 1) := by
      unfold q
      simp only [dot3, Pi.sub_apply, Pi.smul_apply, smul_eq_mul]
      ring
    rw [e, h, hb]; ring
  have := dot_self_zero.1 this
  rwa [sub_eq_zero] at this

/-- Projection on the plane orthogonal to a unit bearing. -/
def proj (b v : V3) : V3 := v - (b ⬝ᵥ v) • b

theorem q_expand (b x y : V3) : q b y = q b x + 2 * ((y - x) ⬝ᵥ proj b x) + q b (y - x) := by
  unfold q proj
  simp only [dot3, Pi.sub_apply, Pi.smul_apply, smul_eq_mul]
  ring

/-- The sum of squared distances to the rays. -/
def f (rays : List Ray) (y : V3) : ℝ := (rays.map (fun r : Ray => q r.b (y - r.c))).sum

/-- Half of the gradient. -/
def g (rays : List Ray) (x : V3) : V3 := (rays.map (fun r : Ray => proj r.b (x - r.c))).sum

theorem f_expand (rays : List Ray) (x y : V3) :
    f rays y = f rays x + 2 * ((y - x) ⬝ᵥ g rays x) + (rays.map (fun r : Ray => q r.b (y - x))).sum := by
  unfold f g
  induction rays with
  | nil => simp
  | cons r rays ih =>
    simp only [List.map_cons, List.sum_cons, dotProduct_add, ih, q_expand r.b (x - r.c) (y - r.c)]
    rw [sub_sub_sub_cancel_right]
    ring

theorem sum_q_nonneg {rays : List Ray} (hu : ∀ r ∈ rays, r.b ⬝ᵥ r.b = 1) (v : V3) :
    0 ≤ (rays.map (fun r : Ray => q r.b v)).sum :=
  List.sum_nonneg (by
    intro x hx
    obtain ⟨r, hr, rfl⟩ := List.mem_map.1 hx
    exact q_nonneg (hu r hr) v)

theorem q_le_sum {rays : List Ray} (hu : ∀ r ∈ rays, r.b ⬝ᵥ r.b = 1) (v : V3) {r : Ray} (hr : r ∈ rays) :
    q r.b v ≤ (rays.map (fun r : Ray => q r.b v)).sum :=
  List.single_le_sum (by
    intro x hx
    obtain ⟨r, hr, rfl⟩ := List.mem_map.1 hx
    exact q_nonneg (hu r hr) v) _ (List.mem_map.2 ⟨r, hr, rfl⟩)

/-- Not all bearings are parallel. -/
def NotParallel (bs : List V3) : Prop := ∃ b ∈ bs, ∃ p ∈ bs, ∀ s : ℝ, p ≠ s • b

theorem sum_q_pos {rays : List Ray} (hu : ∀ r ∈ rays, r.b ⬝ᵥ r.b = 1) (hn : NotParallel (rays.map Ray.b)) {v : V3}
    (hv : (rays.map (fun r : Ray => q r.b v)).sum ≤ 0) : v = 0 := by
  obtain ⟨b, hb, p, hp, hbp⟩ := hn
  obtain ⟨r, hr, rfl⟩ := List.mem_map.1 hb
  obtain ⟨r', hr', rfl⟩ := List.mem_map.1 hp
  have h1 : q r.b v = 0 := le_antisymm ((q_le_sum hu v hr).trans hv) (q_nonneg (hu r hr) v)
  have h2 : q r'.b v = 0 := le_antisymm ((q_le_sum hu v hr').trans hv) (q_nonneg (hu r' hr') v)
  have e1 := q_zero (hu r hr) h1
  have e2 := q_zero (hu r' hr') h2
  by_contra hv0
  have ht : r'.b ⬝ᵥ v ≠ 0 := by
    intro h0; rw [h0, zero_smul] at e2; exact hv0 e2
  refine hbp ((r'.b ⬝ᵥ v)⁻¹ * (r.b ⬝ᵥ v)) ?_
  rw [mul_smul, ← e1]
  nth_rewrite 2 [e2]
  rw [smul_smul, inv_mul_cancel₀ ht, one_smul]

theorem proj_mat (b v : V3) : proj b v = ((1 : M3) - vecMulVec b b) *ᵥ v := by
  unfold proj
  rw [sub_mulVec, one_mulVec, vecMulVec_mulVec]
  simp

theorem mat_sum (rays : List Ray) :
    ((rays.length : ℝ) • (1 : M3) - (rays.map (fun r : Ray => vecMulVec r.b r.b)).sum) =
      (rays.map (fun r : Ray => (1 : M3) - vecMulVec r.b r.b)).sum := by
  induction rays with
  | nil => simp
  | cons r rays ih =>
    simp only [List.map_cons, List.sum_cons, List.length_cons, Nat.cast_add, Nat.cast_one, add_smul, one_smul, ← ih]
    abel

theorem mat_mul_sum (rays : List Ray) (v : V3) :
    (rays.map (fun r : Ray => (1 : M3) - vecMulVec r.b r.b)).sum *ᵥ v =
      (rays.map (fun r : Ray => proj r.b v)).sum := by
  induction rays with
  | nil => simp
  | cons r rays ih => simp only [List.map_cons, List.sum_cons, add_mulVec, ih, proj_mat]

theorem vec_sum (rays : List Ray) :
    (rays.map (fun r : Ray => r.c)).sum - (rays.map (fun r : Ray => vecMulVec r.b r.b *ᵥ r.c)).sum =
      (rays.map (fun r : Ray => proj r.b r.c)).sum := by
  induction rays with
  | nil => simp
  | cons r rays ih =>
    have e : proj r.b r.c = r.c - vecMulVec r.b r.b *ᵥ r.c := by rw [proj_mat, sub_mulVec, one_mulVec]
    simp only [List.map_cons, List.sum_cons, ← ih, e]
    abel

theorem g_eq (rays : List Ray) (x : V3) :
    g rays x = (rays.map (fun r : Ray => proj r.b x)).sum - (rays.map (fun r : Ray => proj r.b r.c)).sum := by
  unfold g
  induction rays with
  | nil => simp
  | cons r rays ih =>
    have e : proj r.b (x - r.c) = proj r.b x - proj r.b r.c := by simp only [proj_mat, mulVec_sub]
    simp only [List.map_cons, List.sum_cons, ih, e]
    abel

theorem dot_mat (rays : List Ray) (v : V3) :
    v ⬝ᵥ (rays.map (fun r : Ray => proj r.b v)).sum = (rays.map (fun r : Ray => q r.b v)).sum := by
  induction rays with
  | nil => simp
  | cons r rays ih =>
    simp only [List.map_cons, List.sum_cons, dotProduct_add, ih]
    congr 1
    unfold proj q
    rw [dotProduct_sub, dotProduct_smul, smul_eq_mul, dotProduct_comm v r.b, sq]

theorem solve_grad {rays : List Ray} (hu : ∀ r ∈ rays, r.b ⬝ᵥ r.b = 1) (hn : NotParallel (rays.map Ray.b)) :
    g rays (midpointSolve rays) = 0 := by
  have hlen : (rays.length : ℝ) ≠ 0 := by
    obtain ⟨b, hb, -⟩ := hn
    rw [Nat.cast_ne_zero]
    intro h0
    rw [List.length_eq_zero_iff.1 h0] at hb
    simp at hb
  set M := (rays.map (fun r : Ray => (1 : M3) - vecMulVec r.b r.b)).sum with hM
  have hdet : IsUnit M.det := by
    rw [isUnit_iff_ne_zero]
    intro h0
    obtain ⟨v, hv, hv0⟩ := Matrix.exists_mulVec_eq_zero_iff.2 h0
    rw [hM, mat_mul_sum] at hv0
    apply hv
    apply sum_q_pos hu hn
    rw [← dot_mat, hv0]
    simp
  have hsolve : midpointSolve rays = M⁻¹ *ᵥ (rays.map (fun r : Ray => proj r.b r.c)).sum := by
    unfold midpointSolve
    simp only
    rw [mat_sum, ← hM]
    have hB : (rays.map (fun r : Ray => vecMulVec r.b r.b)).sum = (rays.length : ℝ) • (1 : M3) - M := by
      rw [hM, ← mat_sum]; abel
    rw [hB, ← vec_sum, Matrix.sub_mul, Matrix.mul_nonsing_inv _ hdet, Matrix.smul_mul, Matrix.one_mul, add_sub_cancel,
      smul_mulVec, smul_smul, one_div, inv_mul_cancel₀ hlen, one_smul, mulVec_sub]
  rw [g_eq, ← mat_mul_sum, ← hM, hsolve, mulVec_mulVec, Matrix.mul_nonsing_inv _ hdet, one_mulVec, sub_self]

/-- The line of a ray. -/
def line (r : Ray) : Set (EuclideanSpace ℝ (Fin 3)) := {z | ∃ t : ℝ, z = pt (r.c + t • r.b)}

theorem dist_pt (x y : V3) : dist (pt x) (pt y) = Real.sqrt ((x - y) ⬝ᵥ (x - y)) := by
  rw [dist_eq_norm, ← norm_pt]; rfl

theorem infDist_line {r : Ray} (hu : r.b ⬝ᵥ r.b = 1) (y : V3) : Metric.infDist (pt y) (line r) ^ 2 = q r.b (y - r.c) := by
  have hexp : ∀ t : ℝ, (y - (r.c + t • r.b)) ⬝ᵥ (y - (r.c + t • r.b)) = q r.b (y - r.c) + (t - r.b ⬝ᵥ (y - r.c)) ^ 2 := by
    intro t
    have e : (y - (r.c + t • r.b)) ⬝ᵥ (y - (r.c + t • r.b)) =
        q r.b (y - r.c) + (t - r.b ⬝ᵥ (y - r.c)) ^ 2 + t ^ 2 * (r.b ⬝ᵥ r.b - 1) := by
      unfold q
      simp only [dot3, Pi.sub_apply, Pi.add_apply, Pi.smul_apply, smul_eq_mul]
      ring
    rw [e, hu]; ring
  have h0 := q_nonneg hu (y - r.c)
  have hne : (line r).Nonempty := ⟨pt (r.c + (0 : ℝ) • r.b), 0, rfl⟩
  have : Metric.infDist (pt y) (line r) = Real.sqrt (q r.b (y - r.c)) := by
    apply le_antisymm
    · have := Metric.infDist_le_dist_of_mem (x := pt y) (s := line r) ⟨r.b ⬝ᵥ (y - r.c), rfl⟩
      rw [dist_pt, hexp, sub_self] at this
      simpa using this
    · rw [Metric.le_infDist hne]
      rintro z ⟨t, rfl⟩
      rw [dist_pt, hexp]
      exact Real.sqrt_le_sqrt (by linarith [sq_nonneg (t - r.b ⬝ᵥ (y - r.c))])
  rw [this, Real.sq_sqrt h0]

/-- The sum of the squared distances of a point to the lines. -/
noncomputable def cost (rays : List Ray) (y : V3) : ℝ := (rays.map (fun r : Ray => Metric.infDist (pt y) (line r) ^ 2)).sum

theorem cost_eq {rays : List Ray} (hu : ∀ r ∈ rays, r.b ⬝ᵥ r.b = 1) (y : V3) : cost rays y = f rays y := by
  unfold cost f
  congr 1
  exact List.map_congr_left fun r hr => infDist_line (hu r hr) y

/-- The solution is the only point for which the sum of squared distances to the lines is least. -/
theorem C85_least (rays : List Ray) (hu : ∀ r ∈ rays, r.b ⬝ᵥ r.b = 1) (hn : NotParallel (rays.map Ray.b)) (y : V3) :
    cost rays (midpointSolve rays) ≤ cost rays y ∧ (cost rays y ≤ cost rays (midpointSolve rays) → y = midpointSolve rays) := by
  have h := f_expand rays (midpointSolve rays) y
  rw [solve_grad hu hn, dotProduct_zero, mul_zero, add_zero] at h
  rw [cost_eq hu, cost_eq hu]
  refine ⟨by linarith [sum_q_nonneg hu (y - midpointSolve rays)], ?_⟩
  intro hle
  have := sum_q_pos hu hn (v := y - midpointSolve rays) (by linarith)
  rwa [sub_eq_zero] at this

/-- A point on all the lines is found exactly. -/
theorem C85_exact (rays : List Ray) (hu : ∀ r ∈ rays, r.b ⬝ᵥ r.b = 1) (hn : NotParallel (rays.map Ray.b)) (X : V3)
    (hX : ∀ r ∈ rays, ∃ d : ℝ, X = r.c + d • r.b) : midpointSolve rays = X := by
  symm
  apply (C85_least rays hu hn X).2
  have h0 : cost rays X = 0 := by
    rw [cost_eq hu]
    unfold f
    apply List.sum_eq_zero
    intro x hx
    obtain ⟨r, hr, rfl⟩ := List.mem_map.1 hx
    obtain ⟨d, hd⟩ := hX r hr
    have : X - r.c = d • r.b := by rw [hd]; simp
    rw [this]
    unfold q
    rw [smul_dotProduct, dotProduct_smul, hu r hr]
    simp; ring
  rw [h0, cost_eq hu]
  exact List.sum_nonneg (by
    intro x hx
    obtain ⟨r, hr, rfl⟩ := List.mem_map.1 hx
    exact q_nonneg (hu r hr) _)

/-! ### Accepted points -/

theorem unit_ne_zero {b : V3} (h : b ⬝ᵥ b = 1) : b ≠ 0 := by
  rintro rfl; simp at h

theorem pt_zero {b : V3} : pt b = 0 ↔ b = 0 :=
  ⟨fun h => dot_self_zero.1 (by rw [← inner_pt, h]; simp), fun h => by rw [h]; rfl⟩

theorem sep_notParallel {minAngle : ℝ} (h : 0 < minAngle) {bs : List V3} (hb : ∀ b ∈ bs, b ⬝ᵥ b = 1)
    (hs : Separated minAngle bs) : NotParallel bs := by
  obtain ⟨b, h1, p, h2, h3, h4⟩ := hs
  refine ⟨b, h1, p, h2, ?_⟩
  rintro s rfl
  have hb0 : pt b ≠ 0 := fun h0 => unit_ne_zero (hb b h1) (pt_zero.1 h0)
  have e : pt (s • b) = s • pt b := rfl
  rw [e] at h3 h4
  rcases lt_trichotomy s 0 with hs | rfl | hs
  · rw [InnerProductGeometry.angle_smul_right_of_neg _ _ hs, InnerProductGeometry.angle_neg_right,
      InnerProductGeometry.angle_self hb0] at h4
    linarith
  · have := hb _ h2
    simp at this
  · rw [InnerProductGeometry.angle_smul_right_of_pos _ _ hs, InnerProductGeometry.angle_self hb0] at h3
    linarith

/-- A direction that agrees with a bearing: at least `minDepth` ahead, and within the threshold. -/
def Agrees (minDepth threshold : ℝ) (projected measured : V3) : Prop :=
  minDepth ≤ inner ℝ (pt projected) (pt measured) ∧ InnerProductGeometry.angle (pt projected) (pt measured) ≤ threshold

theorem fits_iff {minDepth threshold : ℝ} (hd : 0 < minDepth) (u v : V3) :
    fits minDepth u v threshold ↔ Agrees minDepth threshold u v := by
  unfold fits Agrees
  rw [not_lt, not_lt, inner_pt, and_comm]
  apply and_congr_right
  intro h
  rw [C85_angle, if_neg]
  intro ha
  have : inner ℝ (pt u) (pt v) < 0 := by
    rw [InnerProductGeometry.inner_eq_neg_mul_norm_of_angle_eq_pi ha, neg_lt_zero]
    have h1 : inner ℝ (pt u) (pt v) ≠ 0 := by rw [inner_pt]; linarith
    refine mul_pos ?_ ?_
    · rw [norm_pos_iff]; intro h0; rw [h0] at h1; simp at h1
    · rw [norm_pos_iff]; intro h0; rw [h0] at h1; simp at h1
  rw [inner_pt] at this
  linarith

/-- What is accepted: exactly when two rays form an angle and the point of least squares agrees with every ray. -/
theorem C85_accept (rays : List Ray) (hu : ∀ r ∈ rays, r.b ⬝ᵥ r.b = 1) (thresholds : List ℝ)
    (hl : thresholds.length = rays.length) (minAngle minDepth : ℝ) (ha : 0 < minAngle) (hd : 0 < minDepth) (X : V3) :
    midpoint rays thresholds minAngle minDepth = some X ↔
      Separated minAngle (rays.map Ray.b) ∧ (∀ y, cost rays X ≤ cost rays y) ∧
        ∀ (i : ℕ) (r : Ray) (t : ℝ), rays[i]? = some r → thresholds[i]? = some t → Agrees minDepth t (X - r.c) r.b := by
  have hub : ∀ b ∈ rays.map Ray.b, b ⬝ᵥ b = 1 := by
    intro b hb; obtain ⟨r, hr, rfl⟩ := List.mem_map.1 hb; exact hu r hr
  have hzip : ∀ (Y : V3), (∀ p ∈ rays.zip thresholds, fits minDepth (Y - p.1.c) p.1.b p.2) ↔
      ∀ (i : ℕ) (r : Ray) (t : ℝ), rays[i]? = some r → thresholds[i]? = some t → Agrees minDepth t (Y - r.c) r.b := by
    intro Y
    constructor
    · intro h i r t h1 h2
      rw [← fits_iff hd]
      exact h (r, t) (List.mem_of_getElem? (i := i) (List.getElem?_zip_eq_some.2 ⟨h1, h2⟩))
    · intro h p hp
      obtain ⟨i, hi⟩ := List.getElem?_of_mem hp
      have := List.getElem?_zip_eq_some.1 hi
      rw [fits_iff hd]
      exact h i _ _ this.1 this.2
  unfold midpoint
  rw [if_neg (by omega)]
  by_cases hs : angleOk minAngle [] (rays.map Ray.b)
  · rw [if_neg (not_not.2 hs)]
    have hs' := (angleOk_sep ha (fun b hb => unit_ne_zero (hub b hb))).1 hs
    have hn := sep_notParallel ha hub hs'
    constructor
    · intro h
      simp only at h
      split at h
      · rename_i hz
        cases h
        exact ⟨hs', fun y => (C85_least rays hu hn y).1, (hzip _).1 hz⟩
      · exact absurd h (by simp)
    · rintro ⟨-, h2, h3⟩
      have e : X = midpointSolve rays := (C85_least rays hu hn X).2 (h2 _)
      subst e
      simp only
      rw [if_pos ((hzip _).2 h3)]
  · rw [if_pos hs]
    constructor
    · intro h; exact absurd h (by simp)
    · rintro ⟨h1, -⟩
      exact absurd ((angleOk_sep ha (fun b hb => unit_ne_zero (hub b hb))).2 h1) hs

/-- Points seen exactly are accepted and exact. -/
theorem C85_complete (rays : List Ray) (hu : ∀ r ∈ rays, r.b ⬝ᵥ r.b = 1) (thresholds : List ℝ)
    (hl : rays.length ≤ thresholds.length) (ht : ∀ t ∈ thresholds, 0 ≤ t) (minAngle minDepth : ℝ) (ha : 0 < minAngle)
    (hd : 0 < minDepth) (hs : Separated minAngle (rays.map Ray.b)) (X : V3)
    (hX : ∀ r ∈ rays, ∃ d : ℝ, minDepth ≤ d ∧ X = r.c + d • r.b) :
    midpoint rays thresholds minAngle minDepth = some X := by
  have hub : ∀ b ∈ rays.map Ray.b, b ⬝ᵥ b = 1 := by
    intro b hb; obtain ⟨r, hr, rfl⟩ := List.mem_map.1 hb; exact hu r hr
  have hn := sep_notParallel ha hub hs
  have e := C85_exact rays hu hn X (fun r hr => by obtain ⟨d, -, h⟩ := hX r hr; exact ⟨d, h⟩)
  unfold midpoint
  rw [if_neg (by omega), if_neg (not_not.2 ((angleOk_sep ha (fun b hb => unit_ne_zero (hub b hb))).2 hs))]
  simp only
  rw [if_pos, e]
  rw [e]
  intro p hp
  obtain ⟨hr, hth⟩ := List.of_mem_zip hp
  obtain ⟨d, hdd, h⟩ := hX p.1 hr
  have hv : X - p.1.c = d • p.1.b := by rw [h]; simp
  rw [fits_iff hd, hv]
  have hb0 : pt p.1.b ≠ 0 := fun h0 => unit_ne_zero (hu _ hr) (pt_zero.1 h0)
  refine ⟨?_, ?_⟩
  · rw [inner_pt, smul_dotProduct, hu _ hr]; simpa using hdd
  · have e2 : pt (d • p.1.b) = d • pt p.1.b := rfl
    rw [e2, InnerProductGeometry.angle_smul_left_of_pos _ _ (by linarith), InnerProductGeometry.angle_self hb0]
    exact ht _ hth

/-- Fewer thresholds than rays, or less than two rays: no point. -/
theorem C85_refuses (rays : List Ray) (thresholds : List ℝ) (minAngle minDepth : ℝ)
    (h : thresholds.length < rays.length ∨ rays.length < 2) : midpoint rays thresholds minAngle minDepth = none := by
  unfold midpoint
  by_cases h1 : thresholds.length < rays.length
  · rw [if_pos h1]
  · have h2 : rays.length < 2 := h.resolve_left h1
    rw [if_neg h1, if_pos]
    rw [angleOk_iff]
    rintro ⟨i, b, p, hb, hp | ⟨j, hj, hp⟩, -⟩
    · simp at hp
    · have := (List.getElem?_eq_some_iff.1 hb).1
      simp at this
      omega

/-- The Python triangulation of control points is stricter than the one of the bundle adjustment, and where it finds a
point both find the same. -/
theorem C85_gcp {S : Type} (shots : S → Option GShot) (observations : List (S × (ℝ × ℝ))) (X : V3)
    (hu : ∀ s g p, shots s = some g → g.R * g.Rᵀ = 1 ∧ g.bearing p ⬝ᵥ g.bearing p = 1)
    (h : gcpPython shots observations = some X) : gcpCpp shots observations = some X := by
  unfold gcpPython at h
  unfold gcpCpp
  simp only at h ⊢
  have hun : ∀ r ∈ gcpRays shots observations, r.b ⬝ᵥ r.b = 1 := by
    intro r hr
    unfold gcpRays at hr
    obtain ⟨o, -, ho⟩ := List.mem_filterMap.1 hr
    obtain ⟨g, hg, rfl⟩ := Option.map_eq_some_iff.1 ho
    obtain ⟨h1, h2⟩ := hu o.1 g o.2 hg
    show (g.Rᵀ *ᵥ g.bearing o.2) ⬝ᵥ (g.Rᵀ *ᵥ g.bearing o.2) = 1
    rw [dotProduct_mulVec, vecMul_transpose, mulVec_mulVec, h1, one_mulVec, h2]
  generalize gcpRays shots observations = rays at *
  have hpi := Real.pi_pos
  split at h
  · rename_i hlen
    rw [if_pos hlen]
    rw [C85_accept rays hun _ (by simp) _ _ (by positivity) (by norm_num)] at h ⊢
    obtain ⟨h1, h2, h3⟩ := h
    refine ⟨?_, h2, ?_⟩
    · obtain ⟨b, hb, p, hp, h4, h5⟩ := h1
      exact ⟨b, hb, p, hp, by linarith, by linarith⟩
    · intro i r t hr ht
      have hi : i < rays.length := (List.getElem?_eq_some_iff.1 hr).1
      have := h3 i r (2 / 100) hr (by simp [hi])
      refine ⟨this.1, this.2.trans ?_⟩
      have e : t = 1 := by simpa [hi, eq_comm] using ht
      rw [e]; norm_num
  · exact absurd h (by simp)

/-! ### Two rays -/

theorem two_system {r1 r2 : Ray} {X : V3} (h : twoMidpoint r1 r2 = some X) :
    ∃ s t : ℝ, X = (1 / 2 : ℝ) • ((r1.c + s • r1.b) + (r2.c + t • r2.b)) ∧
      ((r1.c + s • r1.b) - (r2.c + t • r2.b)) ⬝ᵥ r1.b = 0 ∧ ((r1.c + s • r1.b) - (r2.c + t • r2.b)) ⬝ᵥ r2.b = 0 := by
  unfold twoMidpoint at h
  simp only at h
  split at h
  · exact absurd h (by simp)
  · rename_i hdet
    set A : Matrix (Fin 2) (Fin 2) ℝ := !![r1.b ⬝ᵥ r1.b, -(r1.b ⬝ᵥ r2.b); r1.b ⬝ᵥ r2.b, -(r2.b ⬝ᵥ r2.b)] with hA
    set b : Fin 2 → ℝ := ![(r2.c - r1.c) ⬝ᵥ r1.b, (r2.c - r1.c) ⬝ᵥ r2.b] with hb
    have hu : IsUnit A.det := by
      rw [isUnit_iff_ne_zero]
      intro h0
      rw [h0] at hdet
      exact hdet ⟨by norm_num, by norm_num⟩
    have hsol : A *ᵥ (A⁻¹ *ᵥ b) = b := by rw [mulVec_mulVec, Matrix.mul_nonsing_inv _ hu, one_mulVec]
    set l := A⁻¹ *ᵥ b with hl
    have e0 := congrFun hsol 0
    have e1 := congrFun hsol 1
    have e0' : (r1.b ⬝ᵥ r1.b) * l 0 + -(r1.b ⬝ᵥ r2.b) * l 1 = (r2.c - r1.c) ⬝ᵥ r1.b := by
      rw [mulVec, dotProduct, Fin.sum_univ_two] at e0
      exact e0
    have e1' : (r1.b ⬝ᵥ r2.b) * l 0 + -(r2.b ⬝ᵥ r2.b) * l 1 = (r2.c - r1.c) ⬝ᵥ r2.b := by
      rw [mulVec, dotProduct, Fin.sum_univ_two] at e1
      exact e1
    refine ⟨l 0, l 1, (Option.some.inj h).symm, ?_, ?_⟩
    · simp only [dot3, Pi.sub_apply, Pi.add_apply, Pi.smul_apply, smul_eq_mul] at e0' ⊢
      linarith
    · simp only [dot3, Pi.sub_apply, Pi.add_apply, Pi.smul_apply, smul_eq_mul] at e1' ⊢
      linarith

/-- The point of two rays is halfway between the two points where the lines come closest. -/
theorem C85_two (r1 r2 : Ray) (X : V3) (h : twoMidpoint r1 r2 = some X) :
    ∃ x1 x2, pt x1 ∈ line r1 ∧ pt x2 ∈ line r2 ∧ X = (1 / 2 : ℝ) • (x1 + x2) ∧
      ∀ y1 y2, pt y1 ∈ line r1 → pt y2 ∈ line r2 → dist (pt x1) (pt x2) ≤ dist (pt y1) (pt y2) := by
  obtain ⟨s, t, h1, h2, h3⟩ := two_system h
  refine ⟨_, _, ⟨s, rfl⟩, ⟨t, rfl⟩, h1, ?_⟩
  rintro y1 y2 ⟨s', h4⟩ ⟨t', h5⟩
  have h4 : y1 = r1.c + s' • r1.b := WithLp.toLp_injective 2 h4
  have h5 : y2 = r2.c + t' • r2.b := WithLp.toLp_injective 2 h5
  subst h4 h5
  rw [dist_pt, dist_pt]
  apply Real.sqrt_le_sqrt
  set d := (r1.c + s • r1.b) - (r2.c + t • r2.b) with hd
  have e : (r1.c + s' • r1.b) - (r2.c + t' • r2.b) = d + ((s' - s) • r1.b - (t' - t) • r2.b) := by
    rw [hd]
    funext i
    simp only [Pi.sub_apply, Pi.add_apply, Pi.smul_apply, smul_eq_mul]
    ring
  rw [e, add_dotProduct, dotProduct_add, dotProduct_add]
  have h6 : d ⬝ᵥ ((s' - s) • r1.b - (t' - t) • r2.b) = 0 := by
    rw [dotProduct_sub, dotProduct_smul, dotProduct_smul, h2, h3]; simp
  rw [dotProduct_comm ((s' - s) • r1.b - (t' - t) • r2.b) d, h6]
  linarith [dot_self_nonneg ((s' - s) • r1.b - (t' - t) • r2.b)]

theorem two_none (r1 r2 : Ray) : twoMidpoint r1 r2 = none ↔
    |(r1.b ⬝ᵥ r1.b) * (r2.b ⬝ᵥ r2.b) - (r1.b ⬝ᵥ r2.b) ^ 2| < 1 / 10 ^ 10 := by
  unfold twoMidpoint
  simp only [Matrix.det_fin_two_of]
  have e : r1.b ⬝ᵥ r1.b * -(r2.b ⬝ᵥ r2.b) - -(r1.b ⬝ᵥ r2.b) * (r1.b ⬝ᵥ r2.b) =
      -((r1.b ⬝ᵥ r1.b) * (r2.b ⬝ᵥ r2.b) - (r1.b ⬝ᵥ r2.b) ^ 2) := by ring
  rw [e, abs_lt]
  split
  · rename_i h
    exact ⟨fun _ => ⟨by linarith [h.2], by linarith [h.1]⟩, fun _ => rfl⟩
  · rename_i h
    constructor
    · intro h'; exact absurd h' (by simp)
    · intro h'; exact absurd ⟨by linarith [h'.2], by linarith [h'.1]⟩ h

theorem unit_angle {u v : V3} (hu : u ⬝ᵥ u = 1) (hv : v ⬝ᵥ v = 1) :
    (u ⬝ᵥ u) * (v ⬝ᵥ v) - (u ⬝ᵥ v) ^ 2 = Real.sin (InnerProductGeometry.angle (pt u) (pt v)) ^ 2 := by
  have hc : Real.cos (InnerProductGeometry.angle (pt u) (pt v)) = u ⬝ᵥ v := by
    rw [InnerProductGeometry.cos_angle, inner_pt, norm_pt, norm_pt, hu, hv]; simp
  have := Real.sin_sq_add_cos_sq (InnerProductGeometry.angle (pt u) (pt v))
  rw [hu, hv, ← hc]
  linarith

/-- Two rays have no point exactly when the sine of their angle is less than 1e-5. -/
theorem C85_two_refuses (r1 r2 : Ray) (h1 : r1.b ⬝ᵥ r1.b = 1) (h2 : r2.b ⬝ᵥ r2.b = 1) :
    twoMidpoint r1 r2 = none ↔ Real.sin (InnerProductGeometry.angle (pt r1.b) (pt r2.b)) < 1 / 10 ^ 5 := by
  rw [two_none, unit_angle h1 h2]
  have hs : 0 ≤ Real.sin (InnerProductGeometry.angle (pt r1.b) (pt r2.b)) :=
    Real.sin_nonneg_of_nonneg_of_le_pi (InnerProductGeometry.angle_nonneg _ _) (InnerProductGeometry.angle_le_pi _ _)
  rw [abs_of_nonneg (sq_nonneg _), show (1 : ℝ) / 10 ^ 10 = (1 / 10 ^ 5) ^ 2 by norm_num]
  constructor
  · intro h; exact lt_of_pow_lt_pow_left₀ 2 (by norm_num) h
  · intro h; exact pow_lt_pow_left₀ h hs (by norm_num)

theorem two_notParallel {r1 r2 : Ray} (h1 : r1.b ⬝ᵥ r1.b = 1) {X : V3} (h : twoMidpoint r1 r2 = some X) :
    NotParallel ([r1, r2].map Ray.b) := by
  refine ⟨r1.b, by simp, r2.b, by simp, ?_⟩
  intro s hs
  have : twoMidpoint r1 r2 = none := by
    rw [two_none, hs, smul_dotProduct, dotProduct_smul, h1]
    simp only [smul_eq_mul, mul_one, one_mul]
    rw [show s * s - s ^ 2 = 0 by ring]
    norm_num
  rw [this] at h
  exact absurd h (by simp)

/-- For two rays both functions give the same point. -/
theorem C85_two_agree (r1 r2 : Ray) (h1 : r1.b ⬝ᵥ r1.b = 1) (h2 : r2.b ⬝ᵥ r2.b = 1) (X : V3)
    (h : twoMidpoint r1 r2 = some X) : X = midpointSolve [r1, r2] := by
  have hn := two_notParallel h1 h
  have hu : ∀ r ∈ [r1, r2], r.b ⬝ᵥ r.b = 1 := by
    intro r hr
    simp only [List.mem_cons, List.not_mem_nil, or_false] at hr
    rcases hr with rfl | rfl
    · exact h1
    · exact h2
  have hg : g [r1, r2] X = 0 := by
    obtain ⟨s, t, e1, e2, e3⟩ := two_system h
    unfold g
    simp only [List.map_cons, List.map_nil, List.sum_cons, List.sum_nil, add_zero]
    set d := (r1.c + s • r1.b) - (r2.c + t • r2.b) with hd
    have p1 : X - r1.c = s • r1.b - (1 / 2 : ℝ) • d := by
      rw [e1, hd]; funext i
      simp only [Pi.sub_apply, Pi.add_apply, Pi.smul_apply, smul_eq_mul]; ring
    have p2 : X - r2.c = t • r2.b + (1 / 2 : ℝ) • d := by
      rw [e1, hd]; funext i
      simp only [Pi.sub_apply, Pi.add_apply, Pi.smul_apply, smul_eq_mul]; ring
    have q1 : proj r1.b (X - r1.c) = -((1 / 2 : ℝ) • d) := by
      unfold proj
      rw [p1, dotProduct_sub, dotProduct_smul, dotProduct_smul, h1, dotProduct_comm, e2]
      simp
    have q2 : proj r2.b (X - r2.c) = (1 / 2 : ℝ) • d := by
      unfold proj
      rw [p2, dotProduct_add, dotProduct_smul, dotProduct_smul, h2, dotProduct_comm _ d, e3]
      simp
    rw [q1, q2]
    simp
  have hf := f_expand [r1, r2] X (midpointSolve [r1, r2])
  rw [hg, dotProduct_zero, mul_zero, add_zero] at hf
  apply (C85_least [r1, r2] hu hn X).2
  rw [cost_eq hu, cost_eq hu]
  linarith [sum_q_nonneg hu (midpointSolve [r1, r2] - X)]

/-- A point seen exactly by two cameras, the second one at `t` with rotation `R`, is found exactly. -/
theorem C85_many (b1 b2 : V3) (R : M3) (t : V3) (hR : R * Rᵀ = 1) (h1 : b1 ⬝ᵥ b1 = 1) (h2 : b2 ⬝ᵥ b2 = 1) (X : V3)
    (d1 d2 : ℝ) (e1 : X = d1 • b1) (e2 : Rᵀ *ᵥ (X - t) = d2 • b2)
    (ha : 1 / 10 ^ 5 ≤ Real.sin (InnerProductGeometry.angle (pt b1) (pt (R *ᵥ b2)))) : twoMany b1 b2 R t = some X := by
  have hR' : Rᵀ * R = 1 := mul_eq_one_comm.1 hR
  have h2' : (R *ᵥ b2) ⬝ᵥ (R *ᵥ b2) = 1 := by
    rw [dotProduct_mulVec, ← mulVec_transpose, mulVec_mulVec, hR', one_mulVec, h2]
  unfold twoMany
  cases hm : twoMidpoint ⟨0, b1⟩ ⟨t, R *ᵥ b2⟩ with
  | none => exact absurd ((C85_two_refuses ⟨0, b1⟩ ⟨t, R *ᵥ b2⟩ h1 h2').1 hm) (not_lt.2 ha)
  | some Y =>
    rw [C85_two_agree ⟨0, b1⟩ ⟨t, R *ᵥ b2⟩ h1 h2' Y hm]
    congr 1
    apply C85_exact _ _ (two_notParallel (r1 := ⟨0, b1⟩) h1 hm)
    · intro r hr
      simp only [List.mem_cons, List.not_mem_nil, or_false] at hr
      rcases hr with rfl | rfl
      · exact ⟨d1, by simpa using e1⟩
      · refine ⟨d2, ?_⟩
        show X = t + d2 • (R *ᵥ b2)
        rw [← mulVec_smul, ← e2, mulVec_mulVec, hR, one_mulVec]
        simp
    · intro r hr
      simp only [List.mem_cons, List.not_mem_nil, or_false] at hr
      rcases hr with rfl | rfl
      · exact h1
      · exact h2'

theorem norm3_unit {v : V3} (hv : v ≠ 0) : normalized v ⬝ᵥ normalized v = 1 := by
  unfold normalized norm3
  rw [smul_dotProduct, dotProduct_smul]
  have h : 0 < v ⬝ᵥ v := lt_of_le_of_ne (dot_self_nonneg v) (fun h => hv (dot_self_zero.1 h.symm))
  have hs : Real.sqrt (v ⬝ᵥ v) ≠ 0 := (Real.sqrt_pos.2 h).ne'
  simp only [smul_eq_mul]
  field_simp
  exact (Real.sq_sqrt h.le).symm

theorem normalized_smul {d : ℝ} (hd : 0 < d) {b : V3} (hb : b ⬝ᵥ b = 1) : normalized (d • b) = b := by
  unfold normalized norm3
  rw [smul_dotProduct, dotProduct_smul, hb]
  simp only [smul_eq_mul, mul_one]
  rw [Real.sqrt_mul_self hd.le, smul_smul, one_div, inv_mul_cancel₀ hd.ne', one_smul]

/-- Pairs of bearings that see a point in front of both cameras are inliers. -/
theorem C85_inliers_complete (b1 b2 : V3) (R : M3) (t : V3) (hR : R * Rᵀ = 1) (h1 : b1 ⬝ᵥ b1 = 1) (h2 : b2 ⬝ᵥ b2 = 1)
    (X : V3) (d1 d2 : ℝ) (hd1 : 0 < d1) (hd2 : 0 < d2) (e1 : X = d1 • b1) (e2 : Rᵀ *ᵥ (X - t) = d2 • b2)
    (ha : 1 / 10 ^ 5 ≤ Real.sin (InnerProductGeometry.angle (pt b1) (pt (R *ᵥ b2)))) (threshold : ℝ)
    (ht : 0 < threshold) : inlierBearings b1 b2 R t threshold = true := by
  unfold inlierBearings
  rw [C85_many b1 b2 R t hR h1 h2 X d1 d2 e1 e2 ha]
  simp only
  rw [e2, e1, normalized_smul hd1 h1, normalized_smul hd2 h2, sub_self, sub_self]
  simp [norm3, ht]

theorem chord {v b : V3} (hb : b ⬝ᵥ b = 1) {threshold : ℝ} (ht : threshold ≤ 1)
    (h : norm3 (normalized v - b) < threshold) : 0 < v ⬝ᵥ b := by
  have h2 : (normalized v - b) ⬝ᵥ (normalized v - b) < 2 := by
    unfold norm3 at h
    have := h.trans_le ht
    rw [Real.sqrt_lt' one_pos] at this
    linarith
  have hv : v ≠ 0 := by
    rintro rfl
    unfold norm3 normalized at h
    simp only [smul_zero, zero_sub, neg_dotProduct_neg, hb, Real.sqrt_one] at h
    linarith
  have hu := norm3_unit hv
  rw [sub_dotProduct, dotProduct_sub, dotProduct_sub, hu, hb, dotProduct_comm b] at h2
  have h3 : 0 < normalized v ⬝ᵥ b := by linarith
  unfold normalized at h3
  rw [smul_dotProduct, smul_eq_mul] at h3
  exact (pos_iff_pos_of_mul_pos h3).1 (by
    unfold norm3
    have : 0 < v ⬝ᵥ v := lt_of_le_of_ne (dot_self_nonneg v) (fun h => hv (dot_self_zero.1 h.symm))
    positivity)

/-- Inliers are in front of both cameras: the triangulated point is on the side the bearings point to. -/
theorem C85_inliers_front (b1 b2 : V3) (R : M3) (t : V3) (h1 : b1 ⬝ᵥ b1 = 1) (h2 : b2 ⬝ᵥ b2 = 1) (threshold : ℝ)
    (ht : threshold ≤ 1) (h : inlierBearings b1 b2 R t threshold = true) :
    ∃ X, twoMany b1 b2 R t = some X ∧ 0 < X ⬝ᵥ b1 ∧ 0 < (Rᵀ *ᵥ (X - t)) ⬝ᵥ b2 := by
  unfold inlierBearings at h
  cases hm : twoMany b1 b2 R t with
  | none => rw [hm] at h; exact absurd h (by simp)
  | some X =>
    rw [hm] at h
    simp only [Bool.and_eq_true, decide_eq_true_eq] at h
    exact ⟨X, rfl, chord h1 ht h.1, chord h2 ht h.2⟩

/-! ### The linear method -/

theorem dlt_zero (o : Obs) (hz : o.b 2 ≠ 0) (w : V3) (s : ℝ) :
    (dltRows o w s).1 = 0 ∧ (dltRows o w s).2 = 0 ↔ ∃ m : ℝ, o.cam.apply w s = m • o.b := by
  unfold dltRows
  simp only
  constructor
  · rintro ⟨h1, h2⟩
    refine ⟨o.cam.apply w s 2 / o.b 2, ?_⟩
    funext i
    fin_cases i
    · show o.cam.apply w s 0 = o.cam.apply w s 2 / o.b 2 * o.b 0
      field_simp; linarith
    · show o.cam.apply w s 1 = o.cam.apply w s 2 / o.b 2 * o.b 1
      field_simp; linarith
    · show o.cam.apply w s 2 = o.cam.apply w s 2 / o.b 2 * o.b 2
      field_simp
  · rintro ⟨m, hm⟩
    rw [hm]
    simp only [Pi.smul_apply, smul_eq_mul]
    constructor <;> ring

/-- A point seen exactly by cameras with bearings out of the image plane is the only solution of the linear system: the
decomposition finds it whatever vector it returns. -/
theorem C85_dlt_exact (obs : List Obs) (hR : ∀ o ∈ obs, o.cam.R * o.cam.Rᵀ = 1) (hz : ∀ o ∈ obs, o.b 2 ≠ 0)
    (hn : NotParallel (obs.map (fun o : Obs => o.cam.Rᵀ *ᵥ o.b))) (X : V3)
    (hX : ∀ o ∈ obs, ∃ d : ℝ, o.cam.R *ᵥ X + o.cam.t = d • o.b) (v : V3 × ℝ) (hv : IsDLTSolve obs v) :
    v.2 ≠ 0 ∧ (1 / v.2) • v.1 = X := by
  have hzero : dltCost obs v = 0 := by
    have hpos : 0 < X ⬝ᵥ X + 1 := by linarith [dot_self_nonneg X]
    set k : ℝ := 1 / Real.sqrt (X ⬝ᵥ X + 1) with hk
    have hk2 : k ^ 2 * (X ⬝ᵥ X + 1) = 1 := by
      rw [hk, div_pow, one_pow, Real.sq_sqrt hpos.le, one_div, inv_mul_cancel₀ hpos.ne']
    have h1 := hv.least (k • X, k) (by
      simp only [smul_dotProduct, dotProduct_smul, smul_eq_mul]
      linarith)
    have h2 : dltCost obs (k • X, k) = 0 := by
      unfold dltCost
      apply List.sum_eq_zero
      intro x hx
      obtain ⟨o, ho, rfl⟩ := List.mem_map.1 hx
      obtain ⟨d, hd⟩ := hX o ho
      have := (dlt_zero o (hz o ho) (k • X) k).2 ⟨k * d, by
        unfold Cam.apply
        rw [mulVec_smul, ← smul_add, hd, smul_smul]⟩
      simp only [this.1, this.2]
      ring
    rw [h2] at h1
    apply le_antisymm h1
    unfold dltCost
    apply List.sum_nonneg
    intro x hx
    obtain ⟨o, -, rfl⟩ := List.mem_map.1 hx
    positivity
  have hall : ∀ o ∈ obs, ∃ m : ℝ, o.cam.apply v.1 v.2 = m • o.b := by
    intro o ho
    apply (dlt_zero o (hz o ho) v.1 v.2).1
    have hle : (dltRows o v.1 v.2).1 ^ 2 + (dltRows o v.1 v.2).2 ^ 2 ≤ dltCost obs v :=
      List.single_le_sum (by
        intro x hx
        obtain ⟨o, -, rfl⟩ := List.mem_map.1 hx
        positivity) _ (List.mem_map.2 ⟨o, ho, rfl⟩)
    rw [hzero] at hle
    have a1 := sq_nonneg (dltRows o v.1 v.2).1
    have a2 := sq_nonneg (dltRows o v.1 v.2).2
    exact ⟨pow_eq_zero_iff two_ne_zero |>.1 (by linarith), pow_eq_zero_iff two_ne_zero |>.1 (by linarith)⟩
  have hpar : ∀ o ∈ obs, ∃ m : ℝ, v.1 - v.2 • X = m • (o.cam.Rᵀ *ᵥ o.b) := by
    intro o ho
    obtain ⟨m, hm⟩ := hall o ho
    obtain ⟨d, hd⟩ := hX o ho
    refine ⟨m - v.2 * d, ?_⟩
    have e : o.cam.R *ᵥ (v.1 - v.2 • X) = (m - v.2 * d) • o.b := by
      unfold Cam.apply at hm
      rw [mulVec_sub, mulVec_smul, sub_smul, mul_smul, ← hd, ← hm, smul_add]
      abel
    rw [← mulVec_smul, ← e, mulVec_mulVec, mul_eq_one_comm.1 (hR o ho), one_mulVec]
  have hzeroV : v.1 - v.2 • X = 0 := by
    obtain ⟨b, hb, p, hp, hbp⟩ := hn
    obtain ⟨o, ho, rfl⟩ := List.mem_map.1 hb
    obtain ⟨o', ho', rfl⟩ := List.mem_map.1 hp
    obtain ⟨m, hm⟩ := hpar o ho
    obtain ⟨m', hm'⟩ := hpar o' ho'
    by_contra h0
    have hm0 : m' ≠ 0 := by
      rintro rfl; rw [zero_smul] at hm'; exact h0 hm'
    apply hbp (m'⁻¹ * m)
    rw [mul_smul, ← hm, hm', smul_smul, inv_mul_cancel₀ hm0, one_smul]
  rw [sub_eq_zero] at hzeroV
  have hv2 : v.2 ≠ 0 := by
    intro h0
    have := hv.unit
    rw [hzeroV, h0] at this
    simp at this
  refine ⟨hv2, ?_⟩
  rw [hzeroV, smul_smul, one_div, inv_mul_cancel₀ hv2, one_smul]

/-- What the linear method accepts agrees with every camera and is seen under an angle. -/
theorem C85_dlt_accept (v : V3 × ℝ) (obs : List Obs) (hR : ∀ o ∈ obs, o.cam.R * o.cam.Rᵀ = 1)
    (hu : ∀ o ∈ obs, o.b ⬝ᵥ o.b = 1) (threshold minAngle minDepth : ℝ) (ha : 0 < minAngle) (hd : 0 < minDepth) (X : V3)
    (h : dlt v obs threshold minAngle minDepth = some X) :
    Separated minAngle (obs.map (fun o : Obs => o.cam.Rᵀ *ᵥ o.b)) ∧
      ∀ o ∈ obs, Agrees minDepth threshold (o.cam.R *ᵥ X + o.cam.t) o.b := by
  have hne : ∀ b ∈ obs.map (fun o : Obs => o.cam.Rᵀ *ᵥ o.b), b ≠ 0 := by
    intro b hb
    obtain ⟨o, ho, rfl⟩ := List.mem_map.1 hb
    apply unit_ne_zero
    rw [dotProduct_mulVec, vecMul_transpose, mulVec_mulVec, hR o ho, one_mulVec, hu o ho]
  unfold dlt at h
  split at h
  · exact absurd h (by simp)
  · rename_i hs
    simp only at h
    split at h
    · rename_i hf
      cases h
      refine ⟨(angleOk_sep ha hne).1 (not_not.1 hs), ?_⟩
      intro o ho
      have := (fits_iff hd _ _).1 (hf o ho)
      unfold Cam.apply at this
      rwa [one_smul] at this
    · exact absurd h (by simp)

/-- Points seen exactly and under an angle, with bearings out of the image plane, are accepted and exact. -/
theorem C85_dlt_complete (v : V3 × ℝ) (obs : List Obs) (hv : IsDLTSolve obs v) (hR : ∀ o ∈ obs, o.cam.R * o.cam.Rᵀ = 1)
    (hu : ∀ o ∈ obs, o.b ⬝ᵥ o.b = 1) (hz : ∀ o ∈ obs, o.b 2 ≠ 0) (threshold minAngle minDepth : ℝ) (ht : 0 ≤ threshold)
    (ha : 0 < minAngle) (hd : 0 < minDepth) (hs : Separated minAngle (obs.map (fun o : Obs => o.cam.Rᵀ *ᵥ o.b))) (X : V3)
    (hX : ∀ o ∈ obs, ∃ d : ℝ, minDepth ≤ d ∧ o.cam.R *ᵥ X + o.cam.t = d • o.b) :
    dlt v obs threshold minAngle minDepth = some X := by
  have hun : ∀ b ∈ obs.map (fun o : Obs => o.cam.Rᵀ *ᵥ o.b), b ⬝ᵥ b = 1 := by
    intro b hb
    obtain ⟨o, ho, rfl⟩ := List.mem_map.1 hb
    rw [dotProduct_mulVec, vecMul_transpose, mulVec_mulVec, hR o ho, one_mulVec, hu o ho]
  have e := (C85_dlt_exact obs hR hz (sep_notParallel ha hun hs) X
    (fun o ho => by obtain ⟨d, -, h⟩ := hX o ho; exact ⟨d, h⟩) v hv).2
  unfold dlt
  rw [if_neg (not_not.2 ((angleOk_sep ha (fun b hb => unit_ne_zero (hun b hb))).2 hs))]
  simp only [e]
  rw [if_pos]
  intro o ho
  obtain ⟨d, hdd, h⟩ := hX o ho
  have hb0 : pt o.b ≠ 0 := fun h0 => unit_ne_zero (hu _ ho) (pt_zero.1 h0)
  rw [fits_iff hd]
  unfold Cam.apply
  rw [one_smul, e, h]
  refine ⟨?_, ?_⟩
  · rw [inner_pt, smul_dotProduct, hu _ ho]; simpa using hdd
  · have e2 : pt (d • o.b) = d • pt o.b := rfl
    rw [e2, InnerProductGeometry.angle_smul_left_of_pos _ _ (by linarith), InnerProductGeometry.angle_self hb0]
    exact ht

/-- With a bearing in the image plane of its camera the linear system does not determine the point, although the rays do. -/
theorem C85_dlt_sideways : ∃ (obs : List Obs) (X Y : V3), X ≠ Y ∧ obs.length = 2 ∧
    (∀ o ∈ obs, o.cam.R * o.cam.Rᵀ = 1 ∧ o.b ⬝ᵥ o.b = 1) ∧ NotParallel (obs.map (fun o : Obs => o.cam.Rᵀ *ᵥ o.b)) ∧
    (∀ o ∈ obs, ∃ d : ℝ, 0 < d ∧ o.cam.R *ᵥ X + o.cam.t = d • o.b) ∧ dltCost obs (X, 1) = 0 ∧ dltCost obs (Y, 1) = 0 := by
  refine ⟨[⟨⟨1, 0⟩, ![1, 0, 0]⟩, ⟨⟨1, ![-2, 1, 0]⟩, ![0, 1, 0]⟩], ![2, 0, 0], ![1, 1, 0], ?_, rfl, ?_, ?_, ?_, ?_, ?_⟩
  · intro h
    have := congrFun h 1
    simp at this
  · intro o ho
    simp only [List.mem_cons, List.not_mem_nil, or_false] at ho
    rcases ho with rfl | rfl <;> exact ⟨by simp, by simp [dot3]⟩
  · refine ⟨![1, 0, 0], by simp, ![0, 1, 0], by simp, ?_⟩
    intro s h
    have := congrFun h 1
    simp at this
  · intro o ho
    simp only [List.mem_cons, List.not_mem_nil, or_false] at ho
    rcases ho with rfl | rfl
    · exact ⟨2, by norm_num, by simp⟩
    · exact ⟨1, by norm_num, by simp⟩
  · simp [dltCost, dltRows, Cam.apply]
  · simp [dltCost, dltRows, Cam.apply]

/-! ### The epipolar angle -/

theorem cross_triple (u v w : V3) : cross u v ⬝ᵥ w = -(v ⬝ᵥ cross u w) := by
  unfold cross
  simp only [dot3]
  simp
  ring

theorem cross_smul (k : ℝ) (u v : V3) : cross (k • u) v = k • cross u v := by
  funext i
  fin_cases i <;> simp [cross] <;> ring

theorem normalized_dot_zero (u v : V3) : normalized u ⬝ᵥ v = 0 ↔ u = 0 ∨ u ⬝ᵥ v = 0 := by
  unfold normalized norm3
  rw [smul_dotProduct, smul_eq_mul, mul_eq_zero, one_div, inv_eq_zero, Real.sqrt_eq_zero (dot_self_nonneg u), dot_self_zero]

/-- The epipolar angle of two bearings is between 0 and a right angle; it is zero exactly when the base line and both
rays are in a plane. -/
theorem C85_epipolar (b1 b2 : V3) (R : M3) (t : V3) (hR : R * Rᵀ = 1) (h1 : b1 ⬝ᵥ b1 = 1) (h2 : b2 ⬝ᵥ b2 = 1)
    (ht : t ≠ 0) : 0 ≤ epipolarAngle b1 b2 R t ∧ epipolarAngle b1 b2 R t ≤ Real.pi / 2 ∧
      (epipolarAngle b1 b2 R t = 0 ↔ Matrix.det (Matrix.of ![t, b1, R *ᵥ b2]) = 0) := by
  have hpos : 0 ≤ (|normalized (cross (normalized t) b1) ⬝ᵥ (R *ᵥ b2)| + |b1 ⬝ᵥ normalized (cross (normalized t) (R *ᵥ b2))|) / 2 := by
    positivity
  have he : epipolarAngle b1 b2 R t =
      Real.arcsin ((|normalized (cross (normalized t) b1) ⬝ᵥ (R *ᵥ b2)| + |b1 ⬝ᵥ normalized (cross (normalized t) (R *ᵥ b2))|) / 2) := by
    unfold epipolarAngle
    simp only
    rw [Real.arccos_eq_pi_div_two_sub_arcsin]
    ring
  have ht' : (1 / norm3 t) ≠ 0 := by
    unfold norm3
    have : 0 < t ⬝ᵥ t := lt_of_le_of_ne (dot_self_nonneg t) (fun h => ht (dot_self_zero.1 h.symm))
    positivity
  have hdet : Matrix.det (Matrix.of ![t, b1, R *ᵥ b2]) = cross t b1 ⬝ᵥ (R *ᵥ b2) := by
    rw [Matrix.det_fin_three]
    unfold cross
    simp only [dot3]
    simp
    ring
  rw [he]
  refine ⟨Real.arcsin_nonneg.2 hpos, Real.arcsin_le_pi_div_two _, ?_⟩
  rw [Real.arcsin_eq_zero_iff, div_eq_zero_iff, or_iff_left (by norm_num), hdet]
  have e1 : ∀ w : V3, cross (normalized t) w = (1 / norm3 t) • cross t w := fun w => by unfold normalized; rw [cross_smul]
  rw [add_eq_zero_iff_of_nonneg (abs_nonneg _) (abs_nonneg _), abs_eq_zero, abs_eq_zero, normalized_dot_zero,
    dotProduct_comm b1, normalized_dot_zero, e1, e1, smul_eq_zero, smul_eq_zero, smul_dotProduct, smul_dotProduct,
    smul_eq_zero, smul_eq_zero, dotProduct_comm _ b1]
  have h3 := cross_triple t b1 (R *ᵥ b2)
  constructor
  · rintro ⟨(h | h) | (h | h), -⟩
    · exact absurd h ht'
    · rw [h]; simp
    · exact absurd h ht'
    · exact h
  · intro h
    refine ⟨Or.inr (Or.inr h), Or.inr (Or.inr ?_)⟩
    rw [h] at h3
    linarith

/-! ### Cases -/

/-- Two cameras side by side that see a point: accepted, and exact. -/
example : midpoint [⟨0, ![0, 0, 1]⟩, ⟨![3, 0, 0], ![-3 / 5, 0, 4 / 5]⟩] [1 / 100, 1 / 100] (1 / 10) (1 / 1000) =
    some ![0, 0, 4] := by
  apply C85_complete
  · intro r hr
    simp only [List.mem_cons, List.not_mem_nil, or_false] at hr
    rcases hr with rfl | rfl
    · simp [dot3]
    · simp [dot3]; norm_num
  · simp
  · intro t ht; simp at ht; rw [ht]; norm_num
  · norm_num
  · norm_num
  · refine ⟨![0, 0, 1], by simp, ![-3 / 5, 0, 4 / 5], by simp, ?_⟩
    have hc : Real.cos (InnerProductGeometry.angle (pt ![0, 0, 1]) (pt ![-3 / 5, 0, 4 / 5])) = 4 / 5 := by
      rw [InnerProductGeometry.cos_angle, inner_pt, norm_pt, norm_pt]
      simp [dot3]; norm_num
    have h0 := InnerProductGeometry.angle_nonneg (pt ![0, 0, 1]) (pt ![-3 / 5, 0, 4 / 5])
    have hp := InnerProductGeometry.angle_le_pi (pt ![0, 0, 1]) (pt ![-3 / 5, 0, 4 / 5])
    have hpi := Real.pi_gt_three
    unfold Wide
    generalize InnerProductGeometry.angle (pt ![0, 0, 1]) (pt ![-3 / 5, 0, 4 / 5]) = a at *
    constructor
    · by_contra hlt
      have : Real.cos (1 / 10) ≤ Real.cos a := Real.cos_le_cos_of_nonneg_of_le_pi h0 (by linarith) (by linarith)
      have h2 := Real.one_sub_sq_div_two_le_cos (x := (1 : ℝ) / 10)
      rw [hc] at this
      norm_num at h2
      linarith
    · by_contra hlt
      have hlt : Real.pi / 2 < a := by linarith
      have := Real.cos_neg_of_pi_div_two_lt_of_lt hlt (by linarith)
      rw [hc] at this
      norm_num at this
  · intro r hr
    simp only [List.mem_cons, List.not_mem_nil, or_false] at hr
    rcases hr with rfl | rfl
    · exact ⟨4, by norm_num, by simp⟩
    · refine ⟨5, by norm_num, ?_⟩
      funext i
      fin_cases i <;> simp <;> norm_num

end Verif.Triangulation
