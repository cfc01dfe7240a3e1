import Verif.Model.Superimpose
import Verif.Lemmas.SvdExists
import Mathlib.Tactic.Ring
import Mathlib.Tactic.Linarith
import Mathlib.Tactic.FieldSimp
import Mathlib.LinearAlgebra.Matrix.ToLinearEquiv
import Mathlib.LinearAlgebra.Matrix.SchurComplement
import Mathlib.LinearAlgebra.CrossProduct
import Mathlib.Tactic.FinCases
import Mathlib.Tactic.LinearCombination

/-!
C88: fitting a similarity to pairs of points.
-/
set_option linter.unusedSectionVars false
set_option linter.unusedSimpArgs false
namespace Verif.Superimpose
open Matrix

/-! ### Specification -/

/-- `d` is a singular value decomposition of `C`, as `numpy.linalg.svd` documents it. -/
structure IsSvd {n : ℕ} (C : Mat n) (d : Svd n) : Prop where
  u : d.uᵀ * d.u = 1
  vh : d.vh * d.vhᵀ = 1
  pos : ∀ i, 0 ≤ d.s i
  desc : ∀ i j, i ≤ j → d.s j ≤ d.s i
  eq : C = d.u * diagonal d.s * d.vh

/-- A rotation. -/
def IsRot {n : ℕ} (R : Mat n) : Prop := Rᵀ * R = 1 ∧ R.det = 1

/-- Sum of the squared distances between the second points and the images of the first ones. -/
def cost {n : ℕ} (T : Sim n) (pairs : List (Vec n × Vec n)) : ℝ :=
  (pairs.map (fun p => (p.2 - T.apply p.1) ⬝ᵥ (p.2 - T.apply p.1))).sum

/-- The similarity `x ↦ s Q x + t`. -/
def sim {n : ℕ} (s : ℝ) (Q : Mat n) (t : Vec n) : Sim n := ⟨s • Q, t⟩

/-! ### Orthogonal matrices -/

variable {n : ℕ}

theorem orth_comm {W : Mat n} : Wᵀ * W = 1 ↔ W * Wᵀ = 1 := mul_eq_one_comm

theorem orth_entry {W : Mat n} (h : Wᵀ * W = 1) (i j : Fin n) : W i j ≤ 1 := by
  have h1 : ∑ k, W k j * W k j = 1 := by
    have := congrFun (congrFun h j) j
    simpa [Matrix.mul_apply] using this
  have h2 : W i j * W i j ≤ 1 := by
    rw [← h1]
    exact Finset.single_le_sum (f := fun k => W k j * W k j) (fun k _ => mul_self_nonneg _) (Finset.mem_univ i)
  nlinarith [mul_self_nonneg (W i j - 1)]

theorem orth_trace {W : Mat n} (h : Wᵀ * W = 1) : W.trace ≤ n := by
  unfold Matrix.trace
  calc ∑ i, W.diag i ≤ ∑ _i : Fin n, (1 : ℝ) := Finset.sum_le_sum (fun i _ => orth_entry h i i)
    _ = n := by simp

theorem orth_det {W : Mat n} (h : Wᵀ * W = 1) : W.det = 1 ∨ W.det = -1 := by
  have := congrArg Matrix.det h
  rw [det_mul, det_transpose, det_one] at this
  exact mul_self_eq_one_iff.1 this

theorem dot_self_nonneg (x : Vec n) : 0 ≤ x ⬝ᵥ x := Finset.sum_nonneg (fun i _ => mul_self_nonneg (x i))

theorem dot_self_zero {x : Vec n} : x ⬝ᵥ x = 0 ↔ x = 0 := by
  constructor
  · intro h
    funext i
    have := (Finset.sum_eq_zero_iff_of_nonneg (fun i _ => mul_self_nonneg (x i))).1 h i (Finset.mem_univ i)
    simpa using this
  · rintro rfl; simp

/-- An orthogonal matrix that is not a rotation reverses some direction. -/
theorem reversed {W : Mat n} (h : Wᵀ * W = 1) (hd : W.det = -1) : ∃ x : Vec n, x ⬝ᵥ x = 1 ∧ W *ᵥ x = -x := by
  have h0 : (W + 1).det = 0 := by
    have e : W + 1 = W * (1 + Wᵀ) := by
      rw [mul_add, mul_one, orth_comm.1 h]
    have e2 : (1 + Wᵀ).det = (W + 1).det := by
      rw [← det_transpose, transpose_add, transpose_transpose, transpose_one, add_comm]
    have := congrArg Matrix.det e
    rw [det_mul, hd, e2] at this
    linarith
  obtain ⟨x, hx, hW⟩ := exists_mulVec_eq_zero_iff.2 h0
  have hp : 0 < x ⬝ᵥ x := lt_of_le_of_ne (dot_self_nonneg x) (fun e => hx (dot_self_zero.1 e.symm))
  refine ⟨(Real.sqrt (x ⬝ᵥ x))⁻¹ • x, ?_, ?_⟩
  · rw [smul_dotProduct, dotProduct_smul, smul_eq_mul, smul_eq_mul, ← mul_assoc, ← mul_inv, Real.mul_self_sqrt hp.le,
      inv_mul_cancel₀ hp.ne']
  · rw [mulVec_smul, ← smul_neg]
    congr 1
    rw [add_mulVec, one_mulVec] at hW
    exact eq_neg_of_add_eq_zero_left hW

/-- The trace of an orthogonal matrix that is not a rotation. -/
theorem reflection_trace {W : Mat n} (h : Wᵀ * W = 1) (hd : W.det = -1) : W.trace ≤ n - 2 := by
  obtain ⟨x, hx, hW⟩ := reversed h hd
  let H : Mat n := 1 - (2 : ℝ) • vecMulVec x x
  have hvv : vecMulVec x x * vecMulVec x x = vecMulVec x x := by
    rw [vecMulVec_mul_vecMulVec, hx, one_smul]
  have hHt : Hᵀ = H := by
    simp only [H, transpose_sub, transpose_one, transpose_smul, transpose_vecMulVec]
  have hHH : H * H = 1 := by
    simp only [H, mul_sub, sub_mul, mul_one, one_mul, Matrix.mul_smul, Matrix.smul_mul, hvv]
    module
  have ho : (W * H)ᵀ * (W * H) = 1 := by
    rw [transpose_mul, Matrix.mul_assoc, ← Matrix.mul_assoc Wᵀ, h, Matrix.one_mul, hHt, hHH]
  have h1 := orth_trace ho
  have h2 : (W * H).trace = W.trace + 2 := by
    simp only [H, mul_sub, mul_one, Matrix.mul_smul, mul_vecMulVec, hW, trace_sub, trace_smul, neg_vecMulVec, trace_neg]
    rw [trace_vecMulVec, hx]
    simp
  linarith

/-! ### The rotation -/

theorem det_sq_svd {C : Mat n} {d : Svd n} (h : IsSvd C d) : (d.u * d.vh)ᵀ * (d.u * d.vh) = 1 := by
  rw [transpose_mul, Matrix.mul_assoc, ← Matrix.mul_assoc d.uᵀ, h.u, Matrix.one_mul, orth_comm.2 h.vh]

/-- The sign change of the last singular direction. -/
def flip (n : ℕ) : Mat (n + 1) := diagonal (fun i => if i = Fin.last n then -1 else 1)

theorem rotation_flip (d : Svd (n + 1)) (h : (d.u * d.vh).det < 0) : rotation d = d.u * flip n * d.vh := by
  unfold rotation
  rw [if_pos h]
  have e : flip n = 1 - (2 : ℝ) • vecMulVec (Pi.single (Fin.last n) 1) (Pi.single (Fin.last n) 1) := by
    ext i j
    simp only [flip, diagonal_apply, Matrix.sub_apply, one_apply, Matrix.smul_apply, vecMulVec_apply, Pi.single_apply, smul_eq_mul]
    by_cases h1 : i = j <;> by_cases h2 : i = Fin.last n <;> by_cases h3 : j = Fin.last n <;> simp_all <;> norm_num
  rw [e, mul_sub, sub_mul, mul_one]
  congr 1
  rw [Matrix.mul_smul, Matrix.smul_mul, mul_vecMulVec, vecMulVec_mul, mulVec_single_one, single_one_vecMul]
  ext i j
  simp only [vecMulVec_apply, Matrix.smul_apply, smul_eq_mul, col_apply, row_apply]
  ring

theorem flip_sq : flip n * flip n = 1 := by
  unfold flip
  rw [diagonal_mul_diagonal, ← diagonal_one]
  congr 1
  funext i
  split <;> norm_num

theorem flip_transpose : (flip n)ᵀ = flip n := diagonal_transpose _

theorem flip_det : (flip n).det = -1 := by
  unfold flip
  rw [det_diagonal, Finset.prod_ite_eq' Finset.univ]
  simp

theorem rotation_isRot {C : Mat (n + 1)} {d : Svd (n + 1)} (h : IsSvd C d) : IsRot (rotation d) := by
  have ho := det_sq_svd h
  by_cases hd : (d.u * d.vh).det < 0
  · rw [rotation_flip d hd]
    constructor
    · rw [transpose_mul, transpose_mul, flip_transpose]
      calc d.vhᵀ * (flip n * d.uᵀ) * (d.u * flip n * d.vh) = d.vhᵀ * (flip n * (d.uᵀ * d.u) * flip n) * d.vh := by
            simp only [Matrix.mul_assoc]
        _ = 1 := by rw [h.u, mul_one, flip_sq, mul_one, orth_comm.2 h.vh]
    · rcases orth_det ho with h1 | h1
      · rw [h1] at hd; norm_num at hd
      · rw [det_mul, det_mul, flip_det]
        rw [det_mul] at h1
        linarith
  · unfold rotation
    rw [if_neg hd]
    refine ⟨ho, ?_⟩
    rcases orth_det ho with h1 | h1
    · exact h1
    · rw [h1] at hd; norm_num at hd

theorem trace_svd {C : Mat n} {d : Svd n} (h : IsSvd C d) (Q : Mat n) :
    (Qᵀ * C).trace = ∑ i, d.s i * (d.vh * Qᵀ * d.u) i i := by
  rw [h.eq]
  have : (Qᵀ * (d.u * diagonal d.s * d.vh)).trace = (diagonal d.s * (d.vh * Qᵀ * d.u)).trace := by
    rw [← Matrix.mul_assoc, Matrix.trace_mul_comm, ← Matrix.mul_assoc, ← Matrix.mul_assoc,
      Matrix.trace_mul_comm, ← Matrix.mul_assoc]
  rw [this]
  unfold Matrix.trace
  refine Finset.sum_congr rfl (fun i _ => ?_)
  rw [diag_apply, diagonal_mul]

/-- No rotation fits the covariance better. -/
theorem kabsch {C : Mat (n + 1)} {d : Svd (n + 1)} (h : IsSvd C d) (Q : Mat (n + 1)) (hQ : IsRot Q) :
    (Qᵀ * C).trace ≤ ((rotation d)ᵀ * C).trace := by
  have ho := det_sq_svd h
  have hW : (d.vh * Qᵀ * d.u)ᵀ * (d.vh * Qᵀ * d.u) = 1 := by
    rw [transpose_mul, transpose_mul, transpose_transpose]
    calc d.uᵀ * (Q * d.vhᵀ) * (d.vh * Qᵀ * d.u) = d.uᵀ * (Q * (d.vhᵀ * d.vh) * Qᵀ) * d.u := by
          simp only [Matrix.mul_assoc]
      _ = 1 := by rw [orth_comm.2 h.vh, mul_one, orth_comm.1 hQ.1, mul_one, h.u]
  rw [trace_svd h, trace_svd h]
  by_cases hd : (d.u * d.vh).det < 0
  · have hdet : (d.u * d.vh).det = -1 := by
      rcases orth_det ho with h1 | h1
      · rw [h1] at hd; norm_num at hd
      · exact h1
    have hR : d.vh * (rotation d)ᵀ * d.u = flip n := by
      rw [rotation_flip d hd, transpose_mul, transpose_mul, flip_transpose]
      calc d.vh * (d.vhᵀ * (flip n * d.uᵀ)) * d.u = (d.vh * d.vhᵀ) * flip n * (d.uᵀ * d.u) := by
            simp only [Matrix.mul_assoc]
        _ = flip n := by rw [h.u, h.vh, mul_one, one_mul]
    have hdW : (d.vh * Qᵀ * d.u).det = -1 := by
      rw [det_mul, det_mul, det_transpose, hQ.2, mul_one, mul_comm, ← det_mul, hdet]
    have ht := reflection_trace hW hdW
    rw [hR]
    set W := d.vh * Qᵀ * d.u with hWdef
    set l := Fin.last n
    have e1 : ∑ i, d.s i * W i i = ∑ i, (d.s i - d.s l) * W i i + d.s l * W.trace := by
      unfold Matrix.trace
      rw [Finset.mul_sum, ← Finset.sum_add_distrib]
      refine Finset.sum_congr rfl (fun i _ => ?_)
      rw [diag_apply]; ring
    have e2 : ∑ i, d.s i * flip n i i = ∑ i, (d.s i - d.s l) + d.s l * ((n : ℝ) - 1) := by
      have : ∀ i, d.s i * flip n i i = (d.s i - d.s l) + d.s l - (if i = l then 2 * d.s l else 0) := by
        intro i
        unfold flip
        rw [diagonal_apply_eq]
        by_cases hi : i = l
        · rw [if_pos hi, if_pos hi, hi]; ring
        · rw [if_neg hi, if_neg hi]; ring
      rw [Finset.sum_congr rfl (fun i _ => this i), Finset.sum_sub_distrib, Finset.sum_add_distrib, Finset.sum_ite_eq']
      simp
      ring
    rw [e1, e2]
    have a1 : ∑ i, (d.s i - d.s l) * W i i ≤ ∑ i, (d.s i - d.s l) := by
      refine Finset.sum_le_sum (fun i _ => ?_)
      have h3 : 0 ≤ d.s i - d.s l := sub_nonneg.2 (h.desc i l (Fin.le_last i))
      nlinarith [orth_entry hW i i]
    have a2 : d.s l * W.trace ≤ d.s l * ((n : ℝ) - 1) := by
      apply mul_le_mul_of_nonneg_left _ (h.pos l)
      push_cast at ht
      linarith
    linarith
  · have hR : d.vh * (rotation d)ᵀ * d.u = 1 := by
      unfold rotation
      rw [if_neg hd, transpose_mul]
      calc d.vh * (d.vhᵀ * d.uᵀ) * d.u = (d.vh * d.vhᵀ) * (d.uᵀ * d.u) := by simp only [Matrix.mul_assoc]
        _ = 1 := by rw [h.u, h.vh, mul_one]
    rw [hR]
    refine Finset.sum_le_sum (fun i _ => ?_)
    rw [one_apply_eq]
    exact mul_le_mul_of_nonneg_left (orth_entry hW i i) (h.pos i)

/-! ### Sums over the pairs -/

theorem trace_dot (Q : Mat n) (x y : Vec n) : (Qᵀ * vecMulVec y x).trace = y ⬝ᵥ (Q *ᵥ x) := by
  rw [mul_vecMulVec, trace_vecMulVec, mulVec_transpose, ← dotProduct_mulVec]

theorem rot_dot {Q : Mat n} (h : Qᵀ * Q = 1) (x y : Vec n) : (Q *ᵥ x) ⬝ᵥ (Q *ᵥ y) = x ⬝ᵥ y := by
  rw [dotProduct_mulVec, vecMul_mulVec, h, vecMul_one]

/-- The cost of a similarity in terms of the moments of the pairs. -/
theorem cost_moments (v : List (Vec n × Vec n)) (s : ℝ) (Q : Mat n) (hQ : Qᵀ * Q = 1) (t : Vec n) :
    cost (sim s Q t) v = sumSq (v.map (·.2)) + s * s * sumSq (v.map (·.1)) - 2 * s * (Qᵀ * covariance v).trace
      + v.length * (t ⬝ᵥ t) - 2 * (t ⬝ᵥ (v.map (·.2)).sum) + 2 * s * (t ⬝ᵥ (Q *ᵥ (v.map (·.1)).sum)) := by
  induction v with
  | nil => simp [cost, sumSq, covariance]
  | cons p v ih =>
    have e : cost (sim s Q t) (p :: v)
        = (p.2 - (sim s Q t).apply p.1) ⬝ᵥ (p.2 - (sim s Q t).apply p.1) + cost (sim s Q t) v := by
      simp [cost]
    have c : covariance (p :: v) = vecMulVec p.2 p.1 + covariance v := by simp [covariance]
    rw [e, ih, c, mul_add, trace_add, trace_dot]
    simp only [sumSq, List.map_cons, List.sum_cons, List.length_cons, Sim.apply, sim, smul_mulVec, dotProduct_add,
      sub_dotProduct, dotProduct_sub, add_dotProduct, smul_dotProduct, dotProduct_smul, smul_eq_mul, rot_dot hQ,
      mulVec_add]
    rw [dotProduct_comm (Q *ᵥ p.1) p.2, dotProduct_comm p.2 t, dotProduct_comm (Q *ᵥ p.1) t]
    push_cast
    ring

theorem sum_sub_const (l : List (Vec n)) (c : Vec n) : (l.map (fun x => x - c)).sum = l.sum - (l.length : ℝ) • c := by
  induction l with
  | nil => simp
  | cons a l ih =>
    rw [List.map_cons, List.sum_cons, ih, List.sum_cons, List.length_cons]
    push_cast
    module

theorem sum_centred (l : List (Vec n)) : (l.map (fun x => x - mean l)).sum = 0 := by
  rw [sum_sub_const]
  unfold mean
  cases l with
  | nil => simp
  | cons a l =>
    rw [smul_smul, mul_inv_cancel₀ (by simp; positivity), one_smul, sub_self]

theorem centred_fst (pairs : List (Vec n × Vec n)) : ((centred pairs).map (·.1)).sum = 0 := by
  have := sum_centred (pairs.map (·.1))
  rw [List.map_map] at this
  unfold centred
  rw [List.map_map]
  exact this

theorem centred_snd (pairs : List (Vec n × Vec n)) : ((centred pairs).map (·.2)).sum = 0 := by
  have := sum_centred (pairs.map (·.2))
  rw [List.map_map] at this
  unfold centred
  rw [List.map_map]
  exact this

theorem centred_length (pairs : List (Vec n × Vec n)) : (centred pairs).length = pairs.length := by simp [centred]

theorem cost_centred (pairs : List (Vec n × Vec n)) (s : ℝ) (Q : Mat n) (t : Vec n) :
    cost (sim s Q t) pairs
      = cost (sim s Q (t + s • (Q *ᵥ mean (pairs.map (·.1))) - mean (pairs.map (·.2)))) (centred pairs) := by
  unfold cost centred
  rw [List.map_map]
  congr 1
  apply List.map_congr_left
  intro p _
  simp only [Function.comp_apply, Sim.apply, sim, smul_mulVec, mulVec_sub, smul_sub]
  congr 1 <;> module

/-- The cost of a similarity: its scale and rotation, and how far it sends the first centroid from the second. -/
theorem cost_eq (pairs : List (Vec n × Vec n)) (s : ℝ) (Q : Mat n) (hQ : Qᵀ * Q = 1) (t : Vec n) :
    cost (sim s Q t) pairs = sumSq ((centred pairs).map (·.2)) + s * s * sumSq ((centred pairs).map (·.1))
      - 2 * s * (Qᵀ * covariance (centred pairs)).trace
      + pairs.length * ((t + s • (Q *ᵥ mean (pairs.map (·.1))) - mean (pairs.map (·.2))) ⬝ᵥ
          (t + s • (Q *ᵥ mean (pairs.map (·.1))) - mean (pairs.map (·.2)))) := by
  rw [cost_centred, cost_moments _ _ _ hQ, centred_fst, centred_snd, mulVec_zero, dotProduct_zero, mul_zero, mul_zero,
    centred_length]
  ring

theorem cost_nonneg (T : Sim n) (pairs : List (Vec n × Vec n)) : 0 ≤ cost T pairs := by
  unfold cost
  apply List.sum_nonneg
  intro x hx
  obtain ⟨p, -, rfl⟩ := List.mem_map.1 hx
  exact dot_self_nonneg _

theorem cost_zero (T : Sim n) (pairs : List (Vec n × Vec n)) : cost T pairs = 0 ↔ ∀ p ∈ pairs, p.2 = T.apply p.1 := by
  induction pairs with
  | nil => simp [cost]
  | cons p l ih =>
    have e : cost T (p :: l) = (p.2 - T.apply p.1) ⬝ᵥ (p.2 - T.apply p.1) + cost T l := by simp [cost]
    have h1 := dot_self_nonneg (p.2 - T.apply p.1)
    have h2 := cost_nonneg T l
    rw [e, List.forall_mem_cons, ← ih]
    constructor
    · intro h
      have h3 : (p.2 - T.apply p.1) ⬝ᵥ (p.2 - T.apply p.1) = 0 := by linarith
      exact ⟨sub_eq_zero.1 (dot_self_zero.1 h3), by linarith⟩
    · rintro ⟨h3, h4⟩
      rw [h4, h3]
      simp

theorem sumSq_nonneg (l : List (Vec n)) : 0 ≤ sumSq l := by
  unfold sumSq
  apply List.sum_nonneg
  intro x hx
  obtain ⟨p, -, rfl⟩ := List.mem_map.1 hx
  exact dot_self_nonneg _

/-- The scale of the returned similarity. -/
noncomputable def scaleOf (scale : Bool) (pairs : List (Vec n × Vec n)) : ℝ :=
  if scale then rmsRatio (centred pairs) else 1

theorem superimpose_eq (svd : Mat (n + 1) → Svd (n + 1)) (scale : Bool) (pairs : List (Vec (n + 1) × Vec (n + 1)))
    (T : Sim (n + 1)) (h : superimpose svd scale pairs = some T) :
    1 ≤ n ∧ n + 1 ≤ pairs.length ∧
    T = sim (scaleOf scale pairs) (rotation (svd (covariance (centred pairs))))
      (mean (pairs.map (·.2)) - scaleOf scale pairs • (rotation (svd (covariance (centred pairs))) *ᵥ mean (pairs.map (·.1)))) := by
  unfold superimpose at h
  split at h
  · exact absurd h (by simp)
  · rename_i hc
    push Not at hc
    refine ⟨by omega, hc.2, ?_⟩
    injection h with h
    rw [← h]
    unfold sim scaleOf
    cases scale
    · simp only [Bool.false_eq_true, if_false, one_smul, mulVec_neg]
      congr 1
      abel
    · simp only [if_true, mulVec_neg, smul_mulVec]
      congr 1
      abel

/-! ### The claims -/

/-- Fewer pairs than dimensions are refused, all others give a result. -/
theorem C88_total (svd : Mat (n + 1) → Svd (n + 1)) (scale : Bool) (pairs : List (Vec (n + 1) × Vec (n + 1))) (hn : 1 ≤ n) :
    (superimpose svd scale pairs).isSome = true ↔ n + 1 ≤ pairs.length := by
  unfold superimpose
  split
  · rename_i h
    constructor
    · intro h2; exact absurd h2 (by simp)
    · intro h2; omega
  · rename_i h
    constructor
    · intro _; omega
    · intro _; rfl

/-- The result is a similarity: a rotation, never a reflection, times the ratio of the spreads, and it sends the first
centroid to the second. -/
theorem C88_similarity (svd : Mat (n + 1) → Svd (n + 1)) (hs : ∀ C, IsSvd C (svd C)) (scale : Bool)
    (pairs : List (Vec (n + 1) × Vec (n + 1))) (T : Sim (n + 1)) (h : superimpose svd scale pairs = some T) :
    ∃ (s : ℝ) (R : Mat (n + 1)) (t : Vec (n + 1)), IsRot R ∧ T = sim s R t ∧
      (scale = false → s = 1) ∧
      (scale = true → s = Real.sqrt
        ((pairs.map (fun p => (p.2 - mean (pairs.map (·.2))) ⬝ᵥ (p.2 - mean (pairs.map (·.2))))).sum /
          (pairs.map (fun p => (p.1 - mean (pairs.map (·.1))) ⬝ᵥ (p.1 - mean (pairs.map (·.1))))).sum)) ∧
      T.apply (mean (pairs.map (·.1))) = mean (pairs.map (·.2)) := by
  obtain ⟨-, -, e⟩ := superimpose_eq svd scale pairs T h
  refine ⟨_, _, _, rotation_isRot (hs _), e, ?_, ?_, ?_⟩
  · rintro rfl; rfl
  · rintro rfl
    simp only [scaleOf, if_true, rmsRatio, sumSq, centred, List.map_map]
    rfl
  · rw [e]
    simp only [Sim.apply, sim, smul_mulVec]
    abel

/-- No rotation and translation, with the same scale, bring the points closer. -/
theorem C88_optimal (svd : Mat (n + 1) → Svd (n + 1)) (hs : ∀ C, IsSvd C (svd C)) (scale : Bool)
    (pairs : List (Vec (n + 1) × Vec (n + 1))) (T : Sim (n + 1)) (h : superimpose svd scale pairs = some T) :
    ∃ (s : ℝ) (R : Mat (n + 1)) (t : Vec (n + 1)), 0 ≤ s ∧ IsRot R ∧ T = sim s R t ∧
      ∀ (Q : Mat (n + 1)) (t' : Vec (n + 1)), IsRot Q → cost T pairs ≤ cost (sim s Q t') pairs := by
  obtain ⟨-, -, e⟩ := superimpose_eq svd scale pairs T h
  have h0 : 0 ≤ scaleOf scale pairs := by
    unfold scaleOf rmsRatio
    split
    · exact Real.sqrt_nonneg _
    · norm_num
  refine ⟨_, _, _, h0, rotation_isRot (hs _), e, ?_⟩
  intro Q t' hQ
  have hk := kabsch (hs (covariance (centred pairs))) Q hQ
  rw [e, cost_eq _ _ _ (rotation_isRot (hs _)).1, cost_eq _ _ _ hQ.1]
  have z : ∀ a b : Vec (n + 1), a - b + b - a = 0 := by intro a b; abel
  rw [z, dotProduct_zero, mul_zero]
  have := mul_nonneg (Nat.cast_nonneg (α := ℝ) pairs.length)
    (dot_self_nonneg (t' + scaleOf scale pairs • (Q *ᵥ mean (pairs.map (·.1))) - mean (pairs.map (·.2))))
  nlinarith [mul_le_mul_of_nonneg_left hk h0]

/-! ### Exact data -/

theorem mean_apply (T : Sim n) (l : List (Vec n)) (hl : l ≠ []) : mean (l.map T.apply) = T.apply (mean l) := by
  have hsum : ∀ l : List (Vec n), (l.map T.apply).sum = T.A *ᵥ l.sum + (l.length : ℝ) • T.b := by
    intro l
    induction l with
    | nil => simp
    | cons a l ih =>
      rw [List.map_cons, List.sum_cons, ih, List.sum_cons, List.length_cons, mulVec_add]
      unfold Sim.apply
      push_cast
      module
  have h0 : (l.length : ℝ) ≠ 0 := by
    have := List.length_pos_of_ne_nil hl
    positivity
  unfold mean
  rw [List.length_map, hsum]
  unfold Sim.apply
  rw [smul_add, smul_smul, inv_mul_cancel₀ h0, one_smul, mulVec_smul]

theorem sumSq_zero (l : List (Vec n)) : sumSq l = 0 ↔ ∀ x ∈ l, x = 0 := by
  induction l with
  | nil => simp [sumSq]
  | cons a l ih =>
    have e : sumSq (a :: l) = a ⬝ᵥ a + sumSq l := by simp [sumSq]
    have h1 := dot_self_nonneg a
    have h2 := sumSq_nonneg l
    rw [e, List.forall_mem_cons, ← ih]
    constructor
    · intro h; exact ⟨dot_self_zero.1 (by linarith), by linarith⟩
    · rintro ⟨rfl, h⟩; rw [h]; simp

theorem spread_pos (pairs : List (Vec n × Vec n)) (h : ∃ p ∈ pairs, ∃ q ∈ pairs, p.1 ≠ q.1) :
    0 < sumSq ((centred pairs).map (·.1)) := by
  refine lt_of_le_of_ne (sumSq_nonneg _) (fun e => ?_)
  obtain ⟨p, hp, q, hq, hne⟩ := h
  have h0 := (sumSq_zero _).1 e.symm
  have hm : ∀ r ∈ pairs, r.1 = mean (pairs.map (·.1)) := by
    intro r hr
    apply sub_eq_zero.1
    apply h0
    unfold centred
    rw [List.map_map]
    exact List.mem_map.2 ⟨r, hr, rfl⟩
  exact hne ((hm p hp).trans (hm q hq).symm)

theorem centred_exact (pairs : List (Vec n × Vec n)) (hl : pairs ≠ []) (s : ℝ) (Q : Mat n) (t : Vec n)
    (h : ∀ p ∈ pairs, p.2 = (sim s Q t).apply p.1) : ∀ p ∈ centred pairs, p.2 = s • (Q *ᵥ p.1) := by
  intro p hp
  obtain ⟨q, hq, rfl⟩ := List.mem_map.1 hp
  have hm : mean (pairs.map (·.2)) = (sim s Q t).apply (mean (pairs.map (·.1))) := by
    rw [← mean_apply _ _ (by simpa using hl), List.map_map]
    congr 1
    apply List.map_congr_left
    intro r hr
    exact h r hr
  simp only [h q hq, hm, Sim.apply, sim, smul_mulVec, mulVec_sub, smul_sub]
  abel

theorem rms_exact (pairs : List (Vec n × Vec n)) (s : ℝ) (hs : 0 ≤ s) (Q : Mat n) (hQ : Qᵀ * Q = 1) (t : Vec n)
    (h : ∀ p ∈ pairs, p.2 = (sim s Q t).apply p.1) (hd : ∃ p ∈ pairs, ∃ q ∈ pairs, p.1 ≠ q.1) :
    rmsRatio (centred pairs) = s := by
  have hl : pairs ≠ [] := by
    obtain ⟨p, hp, -⟩ := hd
    exact List.ne_nil_of_mem hp
  have hsq : ∀ l : List (Vec n × Vec n), (∀ p ∈ l, p.2 = s • (Q *ᵥ p.1)) →
      sumSq (l.map (·.2)) = s * s * sumSq (l.map (·.1)) := by
    intro l hl
    induction l with
    | nil => simp [sumSq]
    | cons a l ih =>
      rw [List.forall_mem_cons] at hl
      have e : ∀ (a : Vec n) l, sumSq (a :: l) = a ⬝ᵥ a + sumSq l := by intros; simp [sumSq]
      rw [List.map_cons, List.map_cons, e, e, ih hl.2, hl.1, smul_dotProduct, dotProduct_smul, rot_dot hQ, smul_eq_mul,
        smul_eq_mul]
      ring
  unfold rmsRatio
  rw [hsq _ (centred_exact pairs hl s Q t h), mul_div_assoc, div_self (spread_pos pairs hd).ne', mul_one,
    Real.sqrt_mul_self hs]

/-- If a similarity fits the pairs exactly, the result fits them exactly, with the same scale. -/
theorem C88_exact_points (svd : Mat (n + 1) → Svd (n + 1)) (hs : ∀ C, IsSvd C (svd C)) (scale : Bool)
    (pairs : List (Vec (n + 1) × Vec (n + 1))) (T : Sim (n + 1)) (h : superimpose svd scale pairs = some T)
    (s : ℝ) (hs0 : 0 < s) (Q : Mat (n + 1)) (hQ : IsRot Q) (t : Vec (n + 1))
    (hp : ∀ p ∈ pairs, p.2 = (sim s Q t).apply p.1) (hsc : scale = false → s = 1)
    (hd : ∃ p ∈ pairs, ∃ q ∈ pairs, p.1 ≠ q.1) :
    (∀ p ∈ pairs, p.2 = T.apply p.1) ∧ ∃ R t', IsRot R ∧ T = sim s R t' := by
  obtain ⟨-, -, e⟩ := superimpose_eq svd scale pairs T h
  have hσ : scaleOf scale pairs = s := by
    unfold scaleOf
    cases scale
    · rw [if_neg (by simp), hsc rfl]
    · rw [if_pos rfl, rms_exact pairs s hs0.le Q hQ.1 t hp hd]
  have hT := e
  rw [hσ] at hT
  refine ⟨?_, _, _, rotation_isRot (hs _), hT⟩
  rw [← cost_zero]
  refine le_antisymm ?_ (cost_nonneg _ _)
  rw [← (cost_zero (sim s Q t) pairs).2 hp]
  have hk := kabsch (hs (covariance (centred pairs))) Q hQ
  rw [hT, cost_eq _ _ _ (rotation_isRot (hs _)).1, cost_eq _ _ _ hQ.1]
  have z : ∀ a b : Vec (n + 1), a - b + b - a = 0 := by intro a b; abel
  rw [z, dotProduct_zero, mul_zero]
  have := mul_nonneg (Nat.cast_nonneg (α := ℝ) pairs.length)
    (dot_self_nonneg (t + s • (Q *ᵥ mean (pairs.map (·.1))) - mean (pairs.map (·.2))))
  nlinarith [mul_le_mul_of_nonneg_left hk hs0.le]

/-- The first points are not all in a flat of two dimensions less than the space: at most one direction is perpendicular to
all of them. In the plane: they are not all the same; in space: they are not on a line. -/
def Spanning (pairs : List (Vec n × Vec n)) : Prop :=
  ∀ y z : Vec n, (∀ p ∈ pairs, ∀ q ∈ pairs, y ⬝ᵥ (q.1 - p.1) = 0 ∧ z ⬝ᵥ (q.1 - p.1) = 0) →
    ∃ a b : ℝ, (a ≠ 0 ∨ b ≠ 0) ∧ a • y + b • z = 0

/-- A rotation that keeps a hyperplane is the identity. -/
theorem rot_rank_one {K : Mat n} (hK : IsRot K) (c w : Vec n) (h : K = 1 + vecMulVec c w) : K = 1 := by
  by_cases hw : w = 0
  · rw [h, hw, vecMulVec_zero, add_zero]
  · have hww : w ⬝ᵥ w ≠ 0 := fun e => hw (dot_self_zero.1 e)
    have hcw : w ⬝ᵥ c = 0 := by
      have := hK.2
      rw [h, vecMulVec_eq Unit, det_one_add_replicateCol_mul_replicateRow] at this
      linarith
    have h1 : Kᵀ *ᵥ (K *ᵥ w) = w := by rw [mulVec_mulVec, hK.1, one_mulVec]
    have hKw : K *ᵥ w = w + (w ⬝ᵥ w) • c := by
      rw [h, add_mulVec, one_mulVec, vecMulVec_mulVec]
      simp
    have hKt : ∀ x, Kᵀ *ᵥ x = x + (c ⬝ᵥ x) • w := by
      intro x
      rw [h, transpose_add, transpose_one, transpose_vecMulVec, add_mulVec, one_mulVec, vecMulVec_mulVec]
      simp
    rw [hKw, hKt] at h1
    have h2 := congrArg (fun v => c ⬝ᵥ v) h1
    simp only [dotProduct_add, dotProduct_smul, smul_eq_mul] at h2
    rw [dotProduct_comm c w, hcw] at h2
    have h3 : (w ⬝ᵥ w) * (c ⬝ᵥ c) = 0 := by linarith
    have h4 : c = 0 := dot_self_zero.1 ((mul_eq_zero.1 h3).resolve_left hww)
    rw [h, h4, zero_vecMulVec, add_zero]

theorem rot_fixed {pairs : List (Vec n × Vec n)} (hsp : Spanning pairs) {K : Mat n} (hK : IsRot K)
    (hfix : ∀ p ∈ pairs, ∀ q ∈ pairs, K *ᵥ (q.1 - p.1) = q.1 - p.1) : K = 1 := by
  have hrow : ∀ i, ∀ p ∈ pairs, ∀ q ∈ pairs, (K i - (1 : Mat n) i) ⬝ᵥ (q.1 - p.1) = 0 := by
    intro i p hp q hq
    have := congrFun (hfix p hp q hq) i
    rw [sub_dotProduct]
    have e : (1 : Mat n) i ⬝ᵥ (q.1 - p.1) = (q.1 - p.1) i := congrFun (one_mulVec (q.1 - p.1)) i
    rw [e]
    exact sub_eq_zero.2 this
  by_cases h0 : ∀ i, K i - (1 : Mat n) i = 0
  · ext i j
    exact congrFun (sub_eq_zero.1 (h0 i)) j
  · push Not at h0
    obtain ⟨i0, hi0⟩ := h0
    have hmul : ∀ i, ∃ c : ℝ, K i - (1 : Mat n) i = c • (K i0 - (1 : Mat n) i0) := by
      intro i
      obtain ⟨a, b, hab, e⟩ := hsp (K i0 - (1 : Mat n) i0) (K i - (1 : Mat n) i)
        (fun p hp q hq => ⟨hrow i0 p hp q hq, hrow i p hp q hq⟩)
      have hb : b ≠ 0 := by
        rintro rfl
        rw [zero_smul, add_zero] at e
        rcases smul_eq_zero.1 e with h | h
        · simp [h] at hab
        · exact hi0 h
      refine ⟨-(b⁻¹ * a), ?_⟩
      have : b • (K i - (1 : Mat n) i) = -(a • (K i0 - (1 : Mat n) i0)) := by
        rw [add_comm] at e
        exact eq_neg_of_add_eq_zero_left e
      rw [← one_smul ℝ (K i - (1 : Mat n) i), ← inv_mul_cancel₀ hb, ← smul_smul, this, smul_neg, smul_smul, neg_smul]
    choose c hc using hmul
    apply rot_rank_one hK c (K i0 - (1 : Mat n) i0)
    ext i j
    have := congrFun (hc i) j
    rw [Matrix.add_apply, vecMulVec_apply]
    simp only [Pi.sub_apply, Pi.smul_apply, smul_eq_mul] at this ⊢
    linarith

theorem sim_unique {pairs : List (Vec n × Vec n)} (hne : pairs ≠ []) (hsp : Spanning pairs) {s : ℝ} (hs : s ≠ 0) {Q R : Mat n}
    (hQ : IsRot Q) (hR : IsRot R) {t t' : Vec n} (h : ∀ p ∈ pairs, p.2 = (sim s Q t).apply p.1)
    (h' : ∀ p ∈ pairs, p.2 = (sim s R t').apply p.1) : sim s R t' = sim s Q t := by
  have hd : ∀ p ∈ pairs, ∀ q ∈ pairs, R *ᵥ (q.1 - p.1) = Q *ᵥ (q.1 - p.1) := by
    intro p hp q hq
    have e1 := (h p hp).symm.trans (h' p hp)
    have e2 := (h q hq).symm.trans (h' q hq)
    simp only [Sim.apply, sim, smul_mulVec] at e1 e2
    have e3 : s • (R *ᵥ (q.1 - p.1)) = s • (Q *ᵥ (q.1 - p.1)) := by
      rw [mulVec_sub, mulVec_sub, smul_sub, smul_sub]
      calc s • R *ᵥ q.1 - s • R *ᵥ p.1 = (s • R *ᵥ q.1 + t') - (s • R *ᵥ p.1 + t') := by abel
        _ = _ := by rw [← e1, ← e2]; abel
    exact smul_right_injective _ hs e3
  have hK : Qᵀ * R = 1 := by
    apply rot_fixed hsp
    · constructor
      · rw [transpose_mul, transpose_transpose, Matrix.mul_assoc, ← Matrix.mul_assoc Q, orth_comm.1 hQ.1, one_mul, hR.1]
      · rw [det_mul, det_transpose, hQ.2, hR.2, mul_one]
    · intro p hp q hq
      rw [← mulVec_mulVec, hd p hp q hq, mulVec_mulVec, hQ.1, one_mulVec]
  have hRQ : R = Q := by
    calc R = Q * (Qᵀ * R) := by rw [← Matrix.mul_assoc, orth_comm.1 hQ.1, one_mul]
      _ = Q := by rw [hK, mul_one]
  obtain ⟨p, hp⟩ := List.exists_mem_of_ne_nil _ hne
  have e1 := (h p hp).symm.trans (h' p hp)
  rw [hRQ] at e1 ⊢
  simp only [Sim.apply, sim] at e1 ⊢
  rw [add_left_cancel e1]

theorem spanning_ne (hn : 2 ≤ n) {pairs : List (Vec n × Vec n)} (h : Spanning pairs) :
    ∃ p ∈ pairs, ∃ q ∈ pairs, p.1 ≠ q.1 := by
  by_contra hc
  push Not at hc
  obtain ⟨a, b, hab, e⟩ := h (Pi.single ⟨0, by omega⟩ 1) (Pi.single ⟨1, by omega⟩ 1) (by
    intro p hp q hq
    rw [hc p hp q hq, sub_self, dotProduct_zero, dotProduct_zero]
    exact ⟨rfl, rfl⟩)
  have e0 := congrFun e ⟨0, by omega⟩
  have e1 := congrFun e ⟨1, by omega⟩
  simp [Pi.single_apply] at e0 e1
  rcases hab with h | h
  · exact h e0
  · exact h e1

/-- **Exact recovery.** If the second points are the images of the first ones by a similarity, and the first ones span the
space, the fit returns that similarity. -/
theorem C88_exact (svd : Mat (n + 1) → Svd (n + 1)) (hs : ∀ C, IsSvd C (svd C)) (scale : Bool)
    (pairs : List (Vec (n + 1) × Vec (n + 1))) (hn : 1 ≤ n) (hlen : n + 1 ≤ pairs.length)
    (s : ℝ) (hs0 : 0 < s) (Q : Mat (n + 1)) (hQ : IsRot Q) (t : Vec (n + 1))
    (hp : ∀ p ∈ pairs, p.2 = (sim s Q t).apply p.1) (hsc : scale = false → s = 1) (hsp : Spanning pairs) :
    superimpose svd scale pairs = some (sim s Q t) := by
  obtain ⟨T, hT⟩ := Option.isSome_iff_exists.1 ((C88_total svd scale pairs hn).2 hlen)
  have hd := spanning_ne (by omega) hsp
  obtain ⟨h1, R, t', hR, rfl⟩ := C88_exact_points svd hs scale pairs T hT s hs0 Q hQ t hp hsc hd
  rw [hT]
  congr 1
  obtain ⟨p, hpm, -⟩ := hd
  exact sim_unique (List.ne_nil_of_mem hpm) hsp hs0.ne' hQ hR hp h1

/-- In space, points that are not on one line span. -/
theorem spanning_space {pairs : List (Vec 3 × Vec 3)} (hne : pairs ≠ [])
    (h : ¬ ∃ o d : Vec 3, ∀ p ∈ pairs, ∃ l : ℝ, p.1 = o + l • d) : Spanning pairs := by
  intro y z hyz
  by_cases hc : crossProduct y z = 0
  · by_cases hy : y = 0
    · exact ⟨1, 0, by simp, by rw [hy]; simp⟩
    · refine ⟨y ⬝ᵥ z, -(y ⬝ᵥ y), Or.inr (fun e => hy (dot_self_zero.1 (by linarith))), ?_⟩
      rw [cross_apply] at hc
      have h0 := congrFun hc 0
      have h1 := congrFun hc 1
      have h2 := congrFun hc 2
      simp only [Matrix.cons_val_zero, Matrix.cons_val_one, Matrix.cons_val, Pi.zero_apply] at h0 h1 h2
      funext i
      fin_cases i <;>
        simp only [dotProduct, Fin.sum_univ_three, Pi.add_apply, Pi.smul_apply, smul_eq_mul, Pi.zero_apply, Fin.zero_eta,
          Fin.mk_one, Fin.reduceFinMk]
      · linear_combination (y 1) * h2 - (y 2) * h1
      · linear_combination (-y 0) * h2 + (y 2) * h0
      · linear_combination (y 0) * h1 - (y 1) * h0
  · exfalso
    apply h
    obtain ⟨p0, hp0⟩ := List.exists_mem_of_ne_nil _ hne
    refine ⟨p0.1, crossProduct y z, fun q hq => ?_⟩
    have hd : crossProduct y z ⬝ᵥ crossProduct y z ≠ 0 := fun e => hc (dot_self_zero.1 e)
    refine ⟨(crossProduct y z ⬝ᵥ (q.1 - p0.1)) / (crossProduct y z ⬝ᵥ crossProduct y z), ?_⟩
    obtain ⟨e1, e2⟩ := hyz p0 hp0 q hq
    have key : (crossProduct y z ⬝ᵥ crossProduct y z) • (q.1 - p0.1)
        = (crossProduct y z ⬝ᵥ (q.1 - p0.1)) • crossProduct y z := by
      generalize q.1 - p0.1 = x at *
      rw [cross_apply]
      simp only [dotProduct, Fin.sum_univ_three] at e1 e2
      funext i
      fin_cases i <;>
        simp only [dotProduct, Fin.sum_univ_three, Pi.smul_apply, smul_eq_mul, Matrix.cons_val_zero, Matrix.cons_val_one,
          Matrix.cons_val, Fin.zero_eta, Fin.mk_one, Fin.reduceFinMk]
      · linear_combination (-((y 2 * z 0 - y 0 * z 2) * z 2 - (y 0 * z 1 - y 1 * z 0) * z 1)) * e1 + ((y 2 * z 0 - y 0 * z 2) * y 2 - (y 0 * z 1 - y 1 * z 0) * y 1) * e2
      · linear_combination (-((y 0 * z 1 - y 1 * z 0) * z 0 - (y 1 * z 2 - y 2 * z 1) * z 2)) * e1 + ((y 0 * z 1 - y 1 * z 0) * y 0 - (y 1 * z 2 - y 2 * z 1) * y 2) * e2
      · linear_combination (-((y 1 * z 2 - y 2 * z 1) * z 1 - (y 2 * z 0 - y 0 * z 2) * z 0)) * e1 + ((y 1 * z 2 - y 2 * z 1) * y 1 - (y 2 * z 0 - y 0 * z 2) * y 0) * e2
    have : q.1 - p0.1 = ((crossProduct y z ⬝ᵥ (q.1 - p0.1)) / (crossProduct y z ⬝ᵥ crossProduct y z)) • crossProduct y z := by
      rw [div_eq_inv_mul, ← smul_smul, ← key, smul_smul, inv_mul_cancel₀ hd, one_smul]
    rw [← this]
    abel

/-- In the plane, points that are not all the same span. -/
theorem spanning_plane {pairs : List (Vec 2 × Vec 2)} (h : ∃ p ∈ pairs, ∃ q ∈ pairs, p.1 ≠ q.1) : Spanning pairs := by
  obtain ⟨p, hp, q, hq, hne⟩ := h
  intro y z hyz
  obtain ⟨e1, e2⟩ := hyz p hp q hq
  have hd : q.1 - p.1 ≠ 0 := fun e => hne (sub_eq_zero.1 e).symm
  generalize q.1 - p.1 = d at *
  have hdd : d ⬝ᵥ d ≠ 0 := fun e => hd (dot_self_zero.1 e)
  have hdet : y 0 * z 1 - y 1 * z 0 = 0 := by
    simp only [dotProduct, Fin.sum_univ_two] at e1 e2 hdd
    apply (mul_eq_zero.1 _).resolve_left hdd
    linear_combination (d 0 * z 1 - d 1 * z 0) * e1 + (d 1 * y 0 - d 0 * y 1) * e2
  by_cases hy : y = 0
  · exact ⟨1, 0, by simp, by rw [hy]; simp⟩
  · refine ⟨y ⬝ᵥ z, -(y ⬝ᵥ y), Or.inr (fun e => hy (dot_self_zero.1 (by linarith))), ?_⟩
    funext i
    fin_cases i <;>
      simp only [dotProduct, Fin.sum_univ_two, Pi.add_apply, Pi.smul_apply, smul_eq_mul, Pi.zero_apply, Fin.zero_eta,
        Fin.mk_one]
    · linear_combination (y 1) * hdet
    · linear_combination (-y 0) * hdet


/-- A decomposition as `numpy.linalg.svd` returns it always exists. -/
theorem C88_svd (n : ℕ) : ∃ svd : Mat n → Svd n, ∀ C, IsSvd C (svd C) := by
  refine ⟨fun C => ⟨(svd_exists C).choose, (svd_exists C).choose_spec.choose, (svd_exists C).choose_spec.choose_spec.choose⟩, ?_⟩
  intro C
  obtain ⟨h1, h2, h3, h4, h5⟩ := (svd_exists C).choose_spec.choose_spec.choose_spec
  exact ⟨h1, h2, h3, h4, h5⟩

/-- Three corners and the origin, turned, doubled and moved: the hypotheses of `C88_exact` are met. -/
example : ∃ T, superimpose (C88_svd 3).choose true
      [(![0, 0, 0], ![1, 2, 3]), (![1, 0, 0], ![1, 4, 3]), (![0, 1, 0], ![-1, 2, 3]), (![0, 0, 1], ![1, 2, 5])] = some T ∧
    T.apply ![1, 1, 1] = ![-1, 4, 5] := by
  have hQ : IsRot (!![0, -1, 0; 1, 0, 0; 0, 0, 1] : Mat 3) := by
    constructor
    · ext i j
      fin_cases i <;> fin_cases j <;> simp [Matrix.mul_apply, Fin.sum_univ_three]
    · simp [Matrix.det_fin_three]
  refine ⟨_, C88_exact _ (C88_svd 3).choose_spec true _ (by norm_num) (by simp) 2 (by norm_num) _ hQ ![1, 2, 3] ?_ (by simp) ?_, ?_⟩
  · intro p hp
    simp only [List.mem_cons, List.not_mem_nil, or_false] at hp
    rcases hp with rfl | rfl | rfl | rfl <;>
    · funext i
      fin_cases i <;> simp [Sim.apply, sim, mulVec, dotProduct, Fin.sum_univ_three] <;> norm_num
  · apply spanning_space (by simp)
    rintro ⟨o, d, h⟩
    obtain ⟨a, ha⟩ := h _ (List.mem_cons_self)
    obtain ⟨b, hb⟩ := h _ (List.mem_cons_of_mem _ List.mem_cons_self)
    obtain ⟨c, hc⟩ := h _ (List.mem_cons_of_mem _ (List.mem_cons_of_mem _ List.mem_cons_self))
    have a0 := congrFun ha 0
    have a1 := congrFun ha 1
    have b0 := congrFun hb 0
    have b1 := congrFun hb 1
    have c0 := congrFun hc 0
    have c1 := congrFun hc 1
    simp at a0 a1 b0 b1 c0 c1
    have e1 : (b - a) * d 0 = 1 := by linarith
    have e2 : (b - a) * d 1 = 0 := by linarith
    have e3 : (c - a) * d 0 = 0 := by linarith
    have e4 : (c - a) * d 1 = 1 := by linarith
    rcases mul_eq_zero.1 e2 with h | h
    · rw [h] at e1; simp at e1
    · rw [h] at e4; simp at e4
  · funext i
    fin_cases i <;> simp [Sim.apply, sim, mulVec, dotProduct, Fin.sum_univ_three] <;> norm_num

/-- The scale is not that of least squares: unless the fit is exact, a smaller scale with the same rotation is better. -/
theorem C88_scale (svd : Mat (n + 1) → Svd (n + 1)) (hs : ∀ C, IsSvd C (svd C))
    (pairs : List (Vec (n + 1) × Vec (n + 1))) (T : Sim (n + 1)) (h : superimpose svd true pairs = some T)
    (hd : ∃ p ∈ pairs, ∃ q ∈ pairs, p.1 ≠ q.1) (hc : 0 < cost T pairs) :
    ∃ (s : ℝ) (R : Mat (n + 1)) (t : Vec (n + 1)), IsRot R ∧ T = sim s R t ∧
      ∃ (s' : ℝ) (t' : Vec (n + 1)), 0 ≤ s' ∧ s' < s ∧ cost (sim s' R t') pairs < cost T pairs := by
  obtain ⟨-, -, e⟩ := superimpose_eq svd true pairs T h
  have hR := rotation_isRot (hs (covariance (centred pairs)))
  refine ⟨_, _, _, hR, e, ?_⟩
  set R := rotation (svd (covariance (centred pairs)))
  have hA := spread_pos pairs hd
  have hB := sumSq_nonneg ((centred pairs).map (·.2))
  have hcost : ∀ s : ℝ, cost (sim s R (mean (pairs.map (·.2)) - s • (R *ᵥ mean (pairs.map (·.1))))) pairs
      = sumSq ((centred pairs).map (·.2)) + s * s * sumSq ((centred pairs).map (·.1))
        - 2 * s * (Rᵀ * covariance (centred pairs)).trace := by
    intro s
    rw [cost_eq _ _ _ hR.1]
    have z : ∀ a b : Vec (n + 1), a - b + b - a = 0 := by intro a b; abel
    rw [z, dotProduct_zero, mul_zero, add_zero]
  rw [e, hcost] at hc
  rw [e, hcost]
  set σ := scaleOf true pairs
  set A := sumSq ((centred pairs).map (·.1))
  set B := sumSq ((centred pairs).map (·.2))
  set τ := (Rᵀ * covariance (centred pairs)).trace
  have hσ : σ * σ * A = B := by
    have : σ * σ = B / A := by
      simp only [σ, scaleOf, if_true, rmsRatio]
      exact Real.mul_self_sqrt (div_nonneg hB hA.le)
    rw [this, div_mul_cancel₀ _ hA.ne']
  have hσ0 : 0 ≤ σ := by
    simp only [σ, scaleOf, if_true, rmsRatio]
    exact Real.sqrt_nonneg _
  have hσp : 0 < σ := by
    refine lt_of_le_of_ne hσ0 (fun e0 => ?_)
    rw [← e0] at hσ hc
    simp at hσ hc
    linarith
  have hτ : τ < σ * A := by
    have : 2 * σ * τ < 2 * σ * (σ * A) := by nlinarith
    exact lt_of_mul_lt_mul_left this (by positivity)
  by_cases h0 : 0 ≤ τ
  · refine ⟨τ / A, mean (pairs.map (·.2)) - (τ / A) • (R *ᵥ mean (pairs.map (·.1))), div_nonneg h0 hA.le, by rwa [div_lt_iff₀ hA], ?_⟩
    rw [hcost]
    have e1 : τ / A * (τ / A) * A - 2 * (τ / A) * τ = -(τ * τ / A) := by field_simp; ring
    have e2 : σ * σ * A - 2 * σ * τ + τ * τ / A = (σ * A - τ) * (σ * A - τ) / A := by field_simp; ring
    have e3 : 0 < (σ * A - τ) * (σ * A - τ) / A := by
      have : 0 < σ * A - τ := by linarith
      positivity
    linarith
  · refine ⟨0, mean (pairs.map (·.2)) - (0 : ℝ) • (R *ᵥ mean (pairs.map (·.1))), le_refl _, hσp, ?_⟩
    rw [hcost]
    push Not at h0
    nlinarith [mul_pos hσp hσp, mul_pos (mul_pos hσp hσp) hA, mul_pos hσp (neg_pos.2 h0)]

/-- Taking a similarity apart gives back its scale, its rotation and its translation. -/
theorem C88_decompose (s : ℝ) (hs : 0 < s) (R : Mat (n + 1)) (hR : IsRot R) (t : Vec (n + 1)) :
    decompose (sim s R t) = (s, R, t) := by
  have hd : (sim s R t).A.det ^ (1 / ((n + 1 : ℕ) : ℝ)) = s := by
    simp only [sim]
    rw [det_smul, hR.2, mul_one, Fintype.card_fin, one_div, Real.pow_rpow_inv_natCast hs.le (Nat.succ_ne_zero n)]
  unfold decompose
  rw [hd]
  simp only [sim, smul_smul, one_div, inv_mul_cancel₀ hs.ne', one_smul]

/-! ### The sampling loop -/

theorem residual_nonneg (T : Sim n) (p : Vec n × Vec n) : 0 ≤ residual T p := Real.sqrt_nonneg _

theorem mem_inliersOf (T : Sim n) (threshold : ℝ) (pairs : List (Vec n × Vec n)) (i : ℕ) :
    i ∈ inliersOf T threshold pairs ↔
      ∃ p, pairs[i]? = some p ∧ Real.sqrt ((p.2 - T.apply p.1) ⬝ᵥ (p.2 - T.apply p.1)) < threshold := by
  unfold inliersOf
  rw [List.mem_filter, List.mem_range]
  constructor
  · rintro ⟨h1, h2⟩
    refine ⟨pairs[i], List.getElem?_eq_getElem h1, ?_⟩
    rw [List.getElem?_eq_getElem h1] at h2
    exact of_decide_eq_true h2
  · rintro ⟨p, h1, h2⟩
    refine ⟨(List.getElem?_eq_some_iff.1 h1).1, ?_⟩
    rw [h1]
    exact decide_eq_true h2

theorem inliersOf_sorted (T : Sim n) (threshold : ℝ) (pairs : List (Vec n × Vec n)) :
    (inliersOf T threshold pairs).Pairwise (· < ·) := by
  unfold inliersOf
  exact List.Pairwise.filter _ List.pairwise_lt_range

/-- What the loop keeps: the best transform of the rounds done so far. -/
theorem rounds_best (svd : Mat (n + 1) → Svd (n + 1)) (threshold : ℝ) (pairs : List (Vec (n + 1) × Vec (n + 1)))
    (perms : List (List ℕ)) (b0 b : Option (Sim (n + 1)) × List ℕ)
    (h : perms.foldlM (round svd threshold pairs) b0 = some b) :
    b0.2.length ≤ b.2.length ∧
    (∀ perm ∈ perms, ∃ T', superimpose svd true (select pairs (perm.take (n + 1))) = some T' ∧
      (inliersOf T' threshold pairs).length ≤ b.2.length) ∧
    (b = b0 ∨ ∃ perm ∈ perms, ∃ T', superimpose svd true (select pairs (perm.take (n + 1))) = some T' ∧
      b = (some T', inliersOf T' threshold pairs)) := by
  induction perms generalizing b0 with
  | nil =>
    simp only [List.foldlM_nil, Option.pure_def, Option.some.injEq] at h
    subst h
    simp
  | cons perm perms ih =>
    rw [List.foldlM_cons] at h
    cases hr : round svd threshold pairs b0 perm with
    | none => rw [hr] at h; exact absurd h (by simp)
    | some b1 =>
      rw [hr] at h
      obtain ⟨i1, i2, i3⟩ := ih b1 h
      unfold round at hr
      cases hT : superimpose svd true (select pairs (perm.take (n + 1))) with
      | none => rw [hT] at hr; exact absurd hr (by simp)
      | some T =>
        rw [hT] at hr
        simp only at hr
        split at hr
        · rename_i hle
          injection hr with hr
          subst hr
          refine ⟨le_trans hle i1, ?_, ?_⟩
          · intro q hq
            rcases List.mem_cons.1 hq with rfl | hq
            · exact ⟨T, hT, i1⟩
            · exact i2 q hq
          · right
            rcases i3 with h3 | ⟨q, hq, h3⟩
            · exact ⟨perm, List.mem_cons_self, T, hT, h3⟩
            · exact ⟨q, List.mem_cons_of_mem _ hq, h3⟩
        · rename_i hle
          injection hr with hr
          subst hr
          push Not at hle
          refine ⟨i1, ?_, ?_⟩
          · intro q hq
            rcases List.mem_cons.1 hq with rfl | hq
            · exact ⟨T, hT, by omega⟩
            · exact i2 q hq
          · rcases i3 with h3 | ⟨q, hq, h3⟩
            · exact Or.inl h3
            · exact Or.inr ⟨q, List.mem_cons_of_mem _ hq, h3⟩

theorem rounds_some (svd : Mat (n + 1) → Svd (n + 1)) (threshold : ℝ) (pairs : List (Vec (n + 1) × Vec (n + 1)))
    (perms : List (List ℕ)) (b0 : Option (Sim (n + 1)) × List ℕ)
    (h : ∀ perm ∈ perms, (superimpose svd true (select pairs (perm.take (n + 1)))).isSome = true) :
    ∃ b, perms.foldlM (round svd threshold pairs) b0 = some b ∧ (perms ≠ [] ∧ b0.2 = [] → b.1.isSome = true) := by
  have key : ∀ (perms : List (List ℕ)) (b0 : Option (Sim (n + 1)) × List ℕ),
      (∀ perm ∈ perms, (superimpose svd true (select pairs (perm.take (n + 1)))).isSome = true) →
      (b0.1.isSome = true ∨ b0.2 = []) →
      ∃ b, perms.foldlM (round svd threshold pairs) b0 = some b ∧ (perms ≠ [] ∨ b0.1.isSome = true → b.1.isSome = true) := by
    intro perms
    induction perms with
    | nil =>
      intro b0 _ _
      exact ⟨b0, rfl, fun h => h.resolve_left (by simp)⟩
    | cons perm perms ih =>
      intro b0 hp h0
      rw [List.forall_mem_cons] at hp
      obtain ⟨T, hT⟩ := Option.isSome_iff_exists.1 hp.1
      rw [List.foldlM_cons]
      by_cases hle : b0.2.length ≤ (inliersOf T threshold pairs).length
      · have hr : round svd threshold pairs b0 perm = some (some T, inliersOf T threshold pairs) := by
          unfold round; rw [hT]; simp only; rw [if_pos hle]
        rw [hr]
        obtain ⟨b, e1, e2⟩ := ih (some T, inliersOf T threshold pairs) hp.2 (Or.inl rfl)
        exact ⟨b, e1, fun _ => e2 (Or.inr rfl)⟩
      · have hr : round svd threshold pairs b0 perm = some b0 := by
          unfold round; rw [hT]; simp only; rw [if_neg hle]
        rw [hr]
        have h1 : b0.1.isSome = true := by
          rcases h0 with h | h
          · exact h
          · rw [h] at hle; simp at hle
        obtain ⟨b, e1, e2⟩ := ih b0 hp.2 (Or.inl h1)
        exact ⟨b, e1, fun _ => e2 (Or.inr h1)⟩
  by_cases h0 : b0.1.isSome = true ∨ b0.2 = []
  · obtain ⟨b, e1, e2⟩ := key perms b0 h h0
    exact ⟨b, e1, fun h => e2 (Or.inl h.1)⟩
  · push Not at h0
    -- not used: an initial list of inliers without a transform
    have hgen : ∀ (perms : List (List ℕ)) (b0 : Option (Sim (n + 1)) × List ℕ),
        (∀ perm ∈ perms, (superimpose svd true (select pairs (perm.take (n + 1)))).isSome = true) →
        ∃ b, perms.foldlM (round svd threshold pairs) b0 = some b := by
      intro perms
      induction perms with
      | nil => intro b0 _; exact ⟨b0, rfl⟩
      | cons perm perms ih =>
        intro b0 hp
        rw [List.forall_mem_cons] at hp
        obtain ⟨T, hT⟩ := Option.isSome_iff_exists.1 hp.1
        rw [List.foldlM_cons]
        have : ∃ b1, round svd threshold pairs b0 perm = some b1 := by
          unfold round; rw [hT]; simp only; split <;> exact ⟨_, rfl⟩
        obtain ⟨b1, hb1⟩ := this
        rw [hb1]
        exact ih b1 hp.2
    obtain ⟨b, hb⟩ := hgen perms b0 h
    exact ⟨b, hb, fun h => absurd h.2 h0.2⟩

theorem select_length (pairs : List (Vec n × Vec n)) (idx : List ℕ) (h : ∀ i ∈ idx, i < pairs.length) :
    (select pairs idx).length = idx.length := by
  unfold select
  induction idx with
  | nil => rfl
  | cons i idx ih =>
    rw [List.forall_mem_cons] at h
    rw [List.filterMap_cons, List.getElem?_eq_getElem h.1, List.length_cons, List.length_cons, ih h.2]

theorem mem_select (pairs : List (Vec n × Vec n)) (idx : List ℕ) (p : Vec n × Vec n) :
    p ∈ select pairs idx ↔ ∃ i ∈ idx, pairs[i]? = some p := by
  unfold select
  rw [List.mem_filterMap]

/-- The pairs returned as inliers are exactly those closer than the threshold under the returned transform, in order. -/
theorem C88_inliers (svd : Mat (n + 1) → Svd (n + 1)) (pairs : List (Vec (n + 1) × Vec (n + 1))) (perms : List (List ℕ))
    (threshold : ℝ) (T : Sim (n + 1)) (inl : List ℕ) (h : fitSimilarity svd pairs perms threshold = some (some T, inl)) :
    inl.Pairwise (· < ·) ∧ ∀ i, i ∈ inl ↔
      ∃ p, pairs[i]? = some p ∧ Real.sqrt ((p.2 - T.apply p.1) ⬝ᵥ (p.2 - T.apply p.1)) < threshold := by
  have : inl = inliersOf T threshold pairs := by
    unfold fitSimilarity at h
    cases hb : perms.foldlM (round svd threshold pairs) (none, []) with
    | none => rw [hb] at h; exact absurd h (by simp)
    | some b =>
      rw [hb] at h
      simp only at h
      split at h
      · cases hT : superimpose svd true (select pairs b.2) with
        | none => rw [hT] at h; exact absurd h (by simp)
        | some T1 =>
          rw [hT] at h
          simp only [Option.some.injEq, Prod.mk.injEq] at h
          rw [← h.1, h.2]
      · obtain ⟨-, -, h3⟩ := rounds_best svd threshold pairs perms _ b hb
        injection h with h
        rcases h3 with rfl | ⟨perm, -, T1, -, rfl⟩
        · simp at h
        · simp only [Prod.mk.injEq, Option.some.injEq] at h
          rw [← h.1, h.2]
  rw [this]
  exact ⟨inliersOf_sorted _ _ _, mem_inliersOf T threshold pairs⟩

/-- With at least one round and enough pairs the loop returns a transform. -/
theorem C88_returns (svd : Mat (n + 1) → Svd (n + 1)) (hn : 1 ≤ n) (pairs : List (Vec (n + 1) × Vec (n + 1)))
    (hlen : n + 1 ≤ pairs.length) (perms : List (List ℕ)) (hp : ∀ perm ∈ perms, perm.Perm (List.range pairs.length))
    (hne : perms ≠ []) (threshold : ℝ) :
    ∃ T inl, fitSimilarity svd pairs perms threshold = some (some T, inl) := by
  have hsome : ∀ perm ∈ perms, (superimpose svd true (select pairs (perm.take (n + 1)))).isSome = true := by
    intro perm hperm
    rw [C88_total svd true _ hn, select_length]
    · rw [List.length_take, (hp perm hperm).length_eq, List.length_range]; omega
    · intro i hi
      exact List.mem_range.1 ((hp perm hperm).mem_iff.1 (List.mem_of_mem_take hi))
  obtain ⟨b, hb, hb1⟩ := rounds_some svd threshold pairs perms (none, []) hsome
  obtain ⟨T, hT⟩ := Option.isSome_iff_exists.1 (hb1 ⟨hne, rfl⟩)
  unfold fitSimilarity
  rw [hb]
  simp only
  split
  · rename_i hlong
    have : ∃ T', superimpose svd true (select pairs b.2) = some T' := by
      apply Option.isSome_iff_exists.1
      rw [C88_total svd true _ hn, select_length]
      · omega
      · intro i hi
        obtain ⟨-, -, h3⟩ := rounds_best svd threshold pairs perms _ b hb
        rcases h3 with rfl | ⟨perm, -, T1, -, rfl⟩
        · simp at hi
        · obtain ⟨p, hp, -⟩ := (mem_inliersOf _ _ _ _).1 hi
          exact (List.getElem?_eq_some_iff.1 hp).1
    obtain ⟨T', hT'⟩ := this
    rw [hT']
    exact ⟨T', _, rfl⟩
  · obtain ⟨b1, b2⟩ := b
    simp only at hT
    subst hT
    exact ⟨T, b2, rfl⟩

/-- Where the returned transform comes from: from the sample with the most inliers; with more than four inliers more than
dimensions minus one, it is fitted again to them. -/
theorem C88_best (svd : Mat (n + 1) → Svd (n + 1)) (pairs : List (Vec (n + 1) × Vec (n + 1))) (perms : List (List ℕ))
    (threshold : ℝ) (T : Sim (n + 1)) (inl : List ℕ) (h : fitSimilarity svd pairs perms threshold = some (some T, inl)) :
    ∃ perm ∈ perms, ∃ T0, superimpose svd true (select pairs (perm.take (n + 1))) = some T0 ∧
      (∀ perm' ∈ perms, ∃ T', superimpose svd true (select pairs (perm'.take (n + 1))) = some T' ∧
        (inliersOf T' threshold pairs).length ≤ (inliersOf T0 threshold pairs).length) ∧
      ((inliersOf T0 threshold pairs).length ≤ n + 4 → T = T0) ∧
      (n + 4 < (inliersOf T0 threshold pairs).length →
        superimpose svd true (select pairs (inliersOf T0 threshold pairs)) = some T) := by
  unfold fitSimilarity at h
  cases hb : perms.foldlM (round svd threshold pairs) (none, []) with
  | none => rw [hb] at h; exact absurd h (by simp)
  | some b =>
    rw [hb] at h
    simp only at h
    obtain ⟨-, h2, h3⟩ := rounds_best svd threshold pairs perms _ b hb
    rcases h3 with rfl | ⟨perm, hperm, T0, hT0, rfl⟩
    · rw [if_neg (by simp)] at h
      simp at h
    · refine ⟨perm, hperm, T0, hT0, h2, ?_, ?_⟩
      · intro hle
        rw [if_neg (by simp only; omega)] at h
        simp only [Option.some.injEq, Prod.mk.injEq] at h
        exact h.1.symm
      · intro hlt
        rw [if_pos (by simp only; omega)] at h
        simp only at h
        cases hT : superimpose svd true (select pairs (inliersOf T0 threshold pairs)) with
        | none => rw [hT] at h; exact absurd h (by simp)
        | some T1 =>
          rw [hT] at h
          simp only [Option.some.injEq, Prod.mk.injEq] at h
          rw [h.1]

/-- **Consensus.** Let the pairs `good` be related by a similarity, let one of the samples be made of pairs of `good` that
span, and let no other set of as many pairs be consistent. Then the similarity and `good` are returned, whatever the other
pairs are. -/
theorem C88_consensus (svd : Mat (n + 1) → Svd (n + 1)) (hs : ∀ C, IsSvd C (svd C)) (hn : 1 ≤ n)
    (pairs : List (Vec (n + 1) × Vec (n + 1))) (perms : List (List ℕ))
    (hperm : ∀ perm ∈ perms, perm.Perm (List.range pairs.length)) (threshold : ℝ) (ht : 0 < threshold)
    (s : ℝ) (hs0 : 0 < s) (Q : Mat (n + 1)) (hQ : IsRot Q) (t : Vec (n + 1)) (good : List ℕ) (hgood : good.Pairwise (· < ·))
    (hg : ∀ i ∈ good, ∃ p, pairs[i]? = some p ∧ p.2 = (sim s Q t).apply p.1) (hlen : n + 4 < good.length)
    (hsample : ∃ perm ∈ perms, (∀ i ∈ perm.take (n + 1), i ∈ good) ∧ Spanning (select pairs (perm.take (n + 1))))
    (honly : ∀ (s' : ℝ) (R : Mat (n + 1)) (t' : Vec (n + 1)), IsRot R →
      good.length ≤ (inliersOf (sim s' R t') threshold pairs).length → inliersOf (sim s' R t') threshold pairs = good) :
    fitSimilarity svd pairs perms threshold = some (some (sim s Q t), good) := by
  obtain ⟨perm, hp, hpg, hsp⟩ := hsample
  have hlt : ∀ i ∈ good, i < pairs.length := by
    intro i hi
    obtain ⟨p, hp, -⟩ := hg i hi
    exact (List.getElem?_eq_some_iff.1 hp).1
  have hN : n + 1 ≤ pairs.length := by
    have h1 : good.length ≤ (List.range pairs.length).length := by
      apply List.Subperm.length_le
      apply List.subperm_of_subset (hgood.imp (fun h => Nat.ne_of_lt h))
      intro i hi
      exact List.mem_range.2 (hlt i hi)
    rw [List.length_range] at h1
    omega
  obtain ⟨T, inl, hT⟩ := C88_returns svd hn pairs hN perms hperm (List.ne_nil_of_mem hp) threshold
  obtain ⟨q, hq, T0, hT0, hbest, hA, hB⟩ := C88_best svd pairs perms threshold T inl hT
  have hlenp : (perm.take (n + 1)).length = n + 1 := by
    rw [List.length_take, (hperm perm hp).length_eq, List.length_range]; omega
  have hex : superimpose svd true (select pairs (perm.take (n + 1))) = some (sim s Q t) := by
    apply C88_exact svd hs true _ hn _ s hs0 Q hQ t _ (by simp) hsp
    · rw [select_length _ _ (fun i hi => hlt i (hpg i hi)), hlenp]
    · intro p hpm
      obtain ⟨i, hi, he⟩ := (mem_select _ _ _).1 hpm
      obtain ⟨p', hp', e⟩ := hg i (hpg i hi)
      rw [he] at hp'
      cases hp'
      exact e
  obtain ⟨T', hT', hle⟩ := hbest perm hp
  rw [hex] at hT'
  injection hT' with hT'
  subst hT'
  have hsub : ∀ i ∈ good, i ∈ inliersOf (sim s Q t) threshold pairs := by
    intro i hi
    obtain ⟨p, hp, e⟩ := hg i hi
    refine (mem_inliersOf _ _ _ _).2 ⟨p, hp, ?_⟩
    rw [← e, sub_self, dotProduct_zero, Real.sqrt_zero]
    exact ht
  have hcount : good.length ≤ (inliersOf (sim s Q t) threshold pairs).length :=
    (List.subperm_of_subset (hgood.imp (fun h => Nat.ne_of_lt h)) hsub).length_le
  obtain ⟨s0, R0, t0, hR0, rfl, -⟩ := C88_similarity svd hs true _ T0 hT0
  have hI0 := honly s0 R0 t0 hR0 (le_trans hcount hle)
  have hI := honly s Q t hQ hcount
  have hTfit := hB (by rw [hI0]; exact hlen)
  rw [hI0] at hTfit
  have hexact : superimpose svd true (select pairs good) = some (sim s Q t) := by
    apply C88_exact svd hs true _ hn _ s hs0 Q hQ t _ (by simp)
    · intro y z hyz
      apply hsp y z
      intro a ha b hb
      apply hyz
      · obtain ⟨i, hi, e⟩ := (mem_select _ _ _).1 ha
        exact (mem_select _ _ _).2 ⟨i, hpg i hi, e⟩
      · obtain ⟨i, hi, e⟩ := (mem_select _ _ _).1 hb
        exact (mem_select _ _ _).2 ⟨i, hpg i hi, e⟩
    · rw [select_length _ _ hlt]; omega
    · intro p hpm
      obtain ⟨i, hi, he⟩ := (mem_select _ _ _).1 hpm
      obtain ⟨p', hp', e⟩ := hg i hi
      rw [he] at hp'
      cases hp'
      exact e
  rw [hexact] at hTfit
  injection hTfit with hTfit
  subst hTfit
  have hinl : inl = good := by
    obtain ⟨h1, h2⟩ := C88_inliers svd pairs perms threshold _ inl hT
    rw [← hI]
    have h3 := inliersOf_sorted (sim s Q t) threshold pairs
    refine List.Perm.eq_of_pairwise (fun a b _ _ hab hba => absurd hab (Nat.lt_asymm hba)) h1 h3 ?_
    refine (List.perm_ext_iff_of_nodup (h1.imp (fun h => Nat.ne_of_lt h)) (h3.imp (fun h => Nat.ne_of_lt h))).2 ?_
    intro i
    rw [h2, mem_inliersOf]
  rw [hT, hinl]

end Verif.Superimpose
