import Verif.Model.RotationPair
import Verif.Props.RelativePose

/-!
# C102 — The rotation between two views and the order of the first pairs
-/
set_option linter.unusedSectionVars false
set_option linter.unusedSimpArgs false
set_option linter.unusedVariables false
namespace Verif.RotationPair
open Verif.Triangulation hiding cross
open Verif.Depthmap Matrix
open Verif.Superimpose (Svd IsRot IsSvd mean centred orth_comm orth_det trace_svd trace_dot det_sq_svd orth_entry)

/-! ### Specification -/

/-- Sum of the squared distances of the first points, relative to their mean, and the turned second points, relative to theirs. -/
noncomputable def misfit (R : M3) (pairs : List (V3 × V3)) : ℝ :=
  (pairs.map (fun p => ((p.1 - mean (pairs.map (·.1))) - R *ᵥ (p.2 - mean (pairs.map (·.2)))) ⬝ᵥ
    ((p.1 - mean (pairs.map (·.1))) - R *ᵥ (p.2 - mean (pairs.map (·.2)))))).sum

/-- No plane contains all first points. -/
def NotFlat (pairs : List (V3 × V3)) : Prop :=
  ∀ n : V3, (∀ p ∈ pairs, ∀ q ∈ pairs, n ⬝ᵥ (q.1 - p.1) = 0) → n = 0

/-! ### The misfit and the trace -/

theorem misfit_centred (R : M3) (pairs : List (V3 × V3)) :
    misfit R pairs = ((centred pairs).map (fun p => (p.1 - R *ᵥ p.2) ⬝ᵥ (p.1 - R *ᵥ p.2))).sum := by
  unfold misfit centred
  rw [List.map_map]
  rfl

theorem sum_trace (Q : M3) (hQ : Qᵀ * Q = 1) (l : List (V3 × V3)) :
    (l.map (fun p => (p.1 - Q *ᵥ p.2) ⬝ᵥ (p.1 - Q *ᵥ p.2))).sum =
      (l.map (fun p => p.1 ⬝ᵥ p.1)).sum + (l.map (fun p => p.2 ⬝ᵥ p.2)).sum - 2 * (Qᵀ * (l.map (fun p => vecMulVec p.1 p.2)).sum).trace := by
  induction l with
  | nil => simp
  | cons p l ih =>
    simp only [List.map_cons, List.sum_cons]
    rw [ih, Matrix.mul_add, trace_add, trace_dot, sub_dotProduct, dotProduct_sub, dotProduct_sub, Superimpose.rot_dot hQ,
      dotProduct_comm (Q *ᵥ p.2)]
    ring

theorem misfit_trace (Q : M3) (hQ : Qᵀ * Q = 1) (pairs : List (V3 × V3)) :
    misfit Q pairs = ((centred pairs).map (fun p => p.1 ⬝ᵥ p.1)).sum + ((centred pairs).map (fun p => p.2 ⬝ᵥ p.2)).sum - 2 * (Qᵀ * moment pairs).trace := by
  rw [misfit_centred, sum_trace Q hQ]
  rfl

theorem misfit_nonneg (R : M3) (pairs : List (V3 × V3)) : 0 ≤ misfit R pairs := by
  rw [misfit_centred]
  apply List.sum_nonneg
  intro x hx
  obtain ⟨p, -, rfl⟩ := List.mem_map.1 hx
  exact Superimpose.dot_self_nonneg _

theorem diag_orth {C : M3} {d : Svd 3} (h : IsSvd C d) {Q : M3} (hQ : Qᵀ * Q = 1) : (d.vh * Qᵀ * d.u)ᵀ * (d.vh * Qᵀ * d.u) = 1 := by
  rw [transpose_mul, transpose_mul, transpose_transpose]
  calc d.uᵀ * (Q * d.vhᵀ) * (d.vh * Qᵀ * d.u) = d.uᵀ * (Q * (d.vhᵀ * d.vh) * Qᵀ) * d.u := by simp only [Matrix.mul_assoc]
    _ = 1 := by rw [orth_comm.2 h.vh, Matrix.mul_one, orth_comm.1 hQ, Matrix.mul_one, h.u]

theorem best_diag {C : M3} {d : Svd 3} (h : IsSvd C d) : d.vh * (d.u * d.vh)ᵀ * d.u = 1 := by
  rw [transpose_mul]
  calc d.vh * (d.vhᵀ * d.uᵀ) * d.u = (d.vh * d.vhᵀ) * (d.uᵀ * d.u) := by simp only [Matrix.mul_assoc]
    _ = 1 := by rw [h.u, h.vh, Matrix.mul_one]

/-- `U V` maximises the trace over the orthogonal matrices. -/
theorem trace_max {C : M3} {d : Svd 3} (h : IsSvd C d) {Q : M3} (hQ : Qᵀ * Q = 1) : (Qᵀ * C).trace ≤ ((d.u * d.vh)ᵀ * C).trace := by
  rw [trace_svd h, trace_svd h, best_diag h]
  refine Finset.sum_le_sum (fun i _ => ?_)
  rw [one_apply_eq]
  exact mul_le_mul_of_nonneg_left (orth_entry (diag_orth h hQ) i i) (h.pos i)

theorem rotationOf_pos {d : Svd 3} (h : (d.u * d.vh).det = 1) : rotationOf d = d.u * d.vh := by
  unfold rotationOf
  rw [if_neg (by rw [h]; norm_num)]

theorem rotationOf_neg {d : Svd 3} (h : (d.u * d.vh).det = -1) : rotationOf d = -(d.u * d.vh) := by
  unfold rotationOf
  rw [if_pos (by rw [h]; norm_num), neg_one_smul]

/-- The result is a rotation. -/
theorem rotationOf_rot {C : M3} {d : Svd 3} (h : IsSvd C d) : IsRot (rotationOf d) := by
  have ho := det_sq_svd h
  rcases orth_det ho with hd | hd
  · rw [rotationOf_pos hd]; exact ⟨ho, hd⟩
  · rw [rotationOf_neg hd]
    refine ⟨by rw [transpose_neg, neg_mul_neg]; exact ho, ?_⟩
    rw [det_neg, hd]; norm_num

theorem C102_rotation (svd : M3 → Svd 3) (hs : ∀ C, IsSvd C (svd C)) (pairs : List (V3 × V3)) : IsRot (estimate svd pairs) :=
  RelativePose.rot_transpose (rotationOf_rot (hs _))

theorem estimate_transpose (svd : M3 → Svd 3) (pairs : List (V3 × V3)) : (estimate svd pairs)ᵀ = rotationOf (svd (moment pairs)) :=
  transpose_transpose _

/-- When the moment has a positive determinant, no rotation fits better; when it has a negative one, no rotation fits worse. -/
theorem C102_best_worst (svd : M3 → Svd 3) (hs : ∀ C, IsSvd C (svd C)) (pairs : List (V3 × V3)) (M : M3)
    (hM : M = (pairs.map (fun p => vecMulVec (p.1 - mean (pairs.map (·.1))) (p.2 - mean (pairs.map (·.2))))).sum) (Q : M3) (hQ : IsRot Q) :
    (0 < M.det → misfit (estimate svd pairs)ᵀ pairs ≤ misfit Q pairs) ∧ (M.det < 0 → misfit Q pairs ≤ misfit (estimate svd pairs)ᵀ pairs) := by
  have hm : M = moment pairs := by rw [hM]; unfold moment centred; rw [List.map_map]; rfl
  have h := hs (moment pairs)
  obtain ⟨d, hd⟩ : ∃ d, d = svd (moment pairs) := ⟨_, rfl⟩
  rw [estimate_transpose, ← hd]
  rw [← hd] at h
  have hdet : M.det = (d.u * d.vh).det * (d.s 0 * d.s 1 * d.s 2) := by
    rw [hm, h.eq, det_mul, det_mul, det_diagonal, det_mul, Fin.prod_univ_three]; ring
  have hpos : 0 ≤ d.s 0 * d.s 1 * d.s 2 := mul_nonneg (mul_nonneg (h.pos 0) (h.pos 1)) (h.pos 2)
  have ho := det_sq_svd h
  constructor
  · intro h0
    have h1 : (d.u * d.vh).det = 1 := by
      rcases orth_det ho with h1 | h1
      · exact h1
      · rw [hdet, h1] at h0; linarith
    rw [rotationOf_pos h1, misfit_trace _ ho, misfit_trace _ hQ.1]
    have := trace_max h hQ.1
    linarith
  · intro h0
    have h1 : (d.u * d.vh).det = -1 := by
      rcases orth_det ho with h1 | h1
      · rw [hdet, h1] at h0; linarith
      · exact h1
    have hn : (-(d.u * d.vh))ᵀ * -(d.u * d.vh) = 1 := by rw [transpose_neg, neg_mul_neg]; exact ho
    rw [rotationOf_neg h1, misfit_trace _ hn, misfit_trace _ hQ.1]
    have hQn : (-Q)ᵀ * -Q = 1 := by rw [transpose_neg, neg_mul_neg]; exact hQ.1
    have := trace_max h hQn
    rw [transpose_neg, Matrix.neg_mul, trace_neg] at this ⊢
    linarith

/-! ### Exact pairs -/

theorem mean_turned (A : M3) (pairs : List (V3 × V3)) (h : ∀ p ∈ pairs, p.2 = A *ᵥ p.1) : mean (pairs.map (·.2)) = A *ᵥ mean (pairs.map (·.1)) := by
  unfold mean
  rw [mulVec_smul, List.length_map, List.length_map]
  congr 1
  induction pairs with
  | nil => simp
  | cons p l ih =>
    simp only [List.map_cons, List.sum_cons]
    rw [mulVec_add, ← h p (by simp), ih (fun q hq => h q (List.mem_cons_of_mem _ hq))]

theorem misfit_exact {A : M3} (hA : IsRot A) {pairs : List (V3 × V3)} (h : ∀ p ∈ pairs, p.2 = A *ᵥ p.1) : misfit Aᵀ pairs = 0 := by
  unfold misfit
  rw [mean_turned A pairs h]
  apply List.sum_eq_zero
  intro x hx
  obtain ⟨p, hp, rfl⟩ := List.mem_map.1 hx
  rw [h p hp, ← mulVec_sub, mulVec_mulVec, hA.1, one_mulVec]
  simp

theorem sum_zero (l : List ℝ) (h : ∀ x ∈ l, 0 ≤ x) (h0 : l.sum = 0) : ∀ x ∈ l, x = 0 := by
  induction l with
  | nil => simp
  | cons a l ih =>
    rw [List.sum_cons] at h0
    have h1 := h a (by simp)
    have h2 : 0 ≤ l.sum := List.sum_nonneg (fun x hx => h x (List.mem_cons_of_mem _ hx))
    intro x hx
    rcases List.mem_cons.1 hx with rfl | hx
    · linarith
    · exact ih (fun x hx => h x (List.mem_cons_of_mem _ hx)) (by linarith) x hx

theorem misfit_zero {R : M3} {pairs : List (V3 × V3)} (h : misfit R pairs = 0) :
    ∀ p ∈ pairs, R *ᵥ (p.2 - mean (pairs.map (·.2))) = p.1 - mean (pairs.map (·.1)) := by
  intro p hp
  unfold misfit at h
  have := sum_zero _ (fun x hx => by
    obtain ⟨p, -, rfl⟩ := List.mem_map.1 hx
    exact Superimpose.dot_self_nonneg _) h _ (List.mem_map.2 ⟨p, hp, rfl⟩)
  exact (sub_eq_zero.1 (Superimpose.dot_self_zero.1 this)).symm

/-- `U V` is exact on exact pairs. -/
theorem orth_exact {A : M3} (hA : IsRot A) {pairs : List (V3 × V3)} (h : ∀ p ∈ pairs, p.2 = A *ᵥ p.1) {d : Svd 3} (hd : IsSvd (moment pairs) d) :
    ∀ p ∈ pairs, (d.u * d.vh) *ᵥ (p.2 - mean (pairs.map (·.2))) = p.1 - mean (pairs.map (·.1)) := by
  apply misfit_zero
  have hA' := (RelativePose.rot_transpose hA).1
  have h1 := misfit_exact hA h
  have h2 := trace_max hd hA'
  rw [misfit_trace _ hA'] at h1
  have h3 := misfit_nonneg (d.u * d.vh) pairs
  rw [misfit_trace _ (det_sq_svd hd)] at h3 ⊢
  linarith

/-- On exact pairs the estimate either fits them or, relative to their means, turns each to its opposite. -/
theorem C102_exact_or_opposite (svd : M3 → Svd 3) (hs : ∀ C, IsSvd C (svd C)) (A : M3) (hA : IsRot A) (pairs : List (V3 × V3))
    (h : ∀ p ∈ pairs, p.2 = A *ᵥ p.1) :
    (∀ p ∈ pairs, ∀ q ∈ pairs, estimate svd pairs *ᵥ (q.1 - p.1) = q.2 - p.2) ∨
    (∀ p ∈ pairs, ∀ q ∈ pairs, estimate svd pairs *ᵥ (q.1 - p.1) = -(q.2 - p.2)) := by
  have hd := hs (moment pairs)
  have he := orth_exact hA h hd
  have ho := det_sq_svd hd
  obtain ⟨d, hdd⟩ : ∃ d, d = svd (moment pairs) := ⟨_, rfl⟩
  have key : ∀ p ∈ pairs, ∀ q ∈ pairs, (d.u * d.vh)ᵀ *ᵥ (q.1 - p.1) = q.2 - p.2 := by
    intro p hp q hq
    have e1 := he p hp
    have e2 := he q hq
    rw [← hdd] at e1 e2 ho
    have : q.1 - p.1 = (d.u * d.vh) *ᵥ (q.2 - p.2) := by
      have : q.2 - p.2 = (q.2 - mean (pairs.map (·.2))) - (p.2 - mean (pairs.map (·.2))) := by abel
      rw [this, mulVec_sub, e1, e2]; abel
    rw [this, mulVec_mulVec, ho, one_mulVec]
  unfold estimate rotationBetween
  rw [← hdd] at ho ⊢
  rcases orth_det ho with h1 | h1
  · left; rw [rotationOf_pos h1]; exact key
  · right
    rw [rotationOf_neg h1]
    intro p hp q hq
    rw [transpose_neg, neg_mulVec, key p hp q hq]

theorem notFlat_ext {pairs : List (V3 × V3)} (hf : NotFlat pairs) {B C : M3} (h : ∀ p ∈ pairs, ∀ q ∈ pairs, B *ᵥ (q.1 - p.1) = C *ᵥ (q.1 - p.1)) :
    B = C := by
  ext i j
  have := hf (fun k => B i k - C i k) (fun p hp q hq => by
    have e := congrFun (h p hp q hq) i
    have : (fun k => B i k - C i k) ⬝ᵥ (q.1 - p.1) = (B *ᵥ (q.1 - p.1)) i - (C *ᵥ (q.1 - p.1)) i := by
      rw [mulVec, mulVec, ← sub_dotProduct]; rfl
    rw [this, e, sub_self])
  have := congrFun this j
  simp only [Pi.zero_apply] at this
  linarith

/-- Exact pairs that are not all on a plane give the rotation, whatever decomposition is used. -/
theorem C102_exact (svd : M3 → Svd 3) (hs : ∀ C, IsSvd C (svd C)) (A : M3) (hA : IsRot A) (pairs : List (V3 × V3))
    (h : ∀ p ∈ pairs, p.2 = A *ᵥ p.1) (hf : NotFlat pairs) : estimate svd pairs = A := by
  have hR := C102_rotation svd hs pairs
  rcases C102_exact_or_opposite svd hs A hA pairs h with k | k
  · apply notFlat_ext hf
    intro p hp q hq
    rw [k p hp q hq, h p hp, h q hq, mulVec_sub]
  · exfalso
    have : estimate svd pairs = -A := by
      apply notFlat_ext hf
      intro p hp q hq
      rw [k p hp q hq, h p hp, h q hq, neg_mulVec, mulVec_sub]
    have hd := hR.2
    rw [this, det_neg, hA.2] at hd
    norm_num at hd

/-! ### Three pairs -/

theorem two_rank_det (a b c e : V3) : (vecMulVec a b + vecMulVec c e : M3).det = 0 := by
  rw [det_fin_three]
  simp only [Matrix.add_apply, vecMulVec_apply]
  ring

theorem three_det (pairs : List (V3 × V3)) (h : pairs.length = 3) : (moment pairs).det = 0 := by
  have hl : (centred pairs).length = 3 := by unfold centred; rw [List.length_map, h]
  have hs := Superimpose.centred_fst pairs
  unfold moment
  obtain ⟨x, y, z, e⟩ := List.length_eq_three.1 hl
  rw [e] at hs ⊢
  simp only [List.map_cons, List.map_nil, List.sum_cons, List.sum_nil, add_zero] at hs ⊢
  have hz : z.1 = -(x.1 + y.1) := by
    rw [← add_assoc] at hs
    exact (neg_eq_of_add_eq_zero_right hs).symm
  have : vecMulVec x.1 x.2 + (vecMulVec y.1 y.2 + vecMulVec z.1 z.2) = (vecMulVec x.1 (x.2 - z.2) + vecMulVec y.1 (y.2 - z.2) : M3) := by
    ext i j
    simp only [Matrix.add_apply, vecMulVec_apply, hz, Pi.neg_apply, Pi.add_apply, Pi.sub_apply]
    ring
  rw [this]
  exact two_rank_det _ _ _ _

/-- The decomposition with the last left vector reversed. -/
noncomputable def turned (d : Svd 3) : Svd 3 := ⟨d.u * diagonal ![1, 1, -1], d.s, d.vh⟩

theorem turned_svd {C : M3} {d : Svd 3} (h : IsSvd C d) (h2 : d.s 2 = 0) : IsSvd C (turned d) := by
  refine ⟨?_, h.vh, h.pos, h.desc, ?_⟩
  · show (d.u * diagonal ![1, 1, -1])ᵀ * (d.u * diagonal ![1, 1, -1]) = 1
    rw [transpose_mul, diagonal_transpose, Matrix.mul_assoc, ← Matrix.mul_assoc d.uᵀ, h.u, Matrix.one_mul]
    exact RelativePose.diag_sq
  · show C = d.u * diagonal ![1, 1, -1] * diagonal d.s * d.vh
    have : (diagonal ![1, 1, -1] : M3) * diagonal d.s = diagonal d.s := by
      rw [diagonal_mul_diagonal]
      congr 1
      funext i
      fin_cases i <;> simp [h2]
    rw [Matrix.mul_assoc d.u, this]
    exact h.eq

theorem turned_det (d : Svd 3) : ((turned d).u * (turned d).vh).det = -(d.u * d.vh).det := by
  show (d.u * diagonal ![1, 1, -1] * d.vh).det = _
  rw [det_mul, det_mul, det_mul, RelativePose.diag_det]; ring

theorem last_zero {C : M3} {d : Svd 3} (h : IsSvd C d) (h0 : C.det = 0) : d.s 2 = 0 := by
  have ho := orth_det (det_sq_svd h)
  have : C.det = (d.u * d.vh).det * (d.s 0 * d.s 1 * d.s 2) := by
    rw [h.eq, det_mul, det_mul, det_diagonal, det_mul, Fin.prod_univ_three]; ring
  have h3 : d.s 0 * d.s 1 * d.s 2 = 0 := by
    rw [h0] at this
    rcases ho with ho | ho <;> rw [ho] at this <;> linarith
  have a := h.desc 0 2 (by decide)
  have b := h.desc 1 2 (by decide)
  have c := h.pos 2
  by_contra hne
  have hp : 0 < d.s 2 := lt_of_le_of_ne c (Ne.symm hne)
  have : 0 < d.s 0 * d.s 1 * d.s 2 := by
    have := lt_of_lt_of_le hp a
    have := lt_of_lt_of_le hp b
    positivity
  linarith

/-- Exact pairs with a singular moment do not determine the estimate. -/
theorem singular_choice (A : M3) (hA : IsRot A) (pairs : List (V3 × V3)) (h0 : (moment pairs).det = 0) (h : ∀ p ∈ pairs, p.2 = A *ᵥ p.1) :
    ∃ svd svd' : M3 → Svd 3, (∀ C, IsSvd C (svd C)) ∧ (∀ C, IsSvd C (svd' C)) ∧
      (∀ p ∈ pairs, ∀ q ∈ pairs, estimate svd pairs *ᵥ (q.1 - p.1) = q.2 - p.2) ∧
      (∀ p ∈ pairs, ∀ q ∈ pairs, estimate svd' pairs *ᵥ (q.1 - p.1) = -(q.2 - p.2)) := by
  classical
  obtain ⟨base, hb⟩ := Superimpose.C88_svd 3
  have h2 := last_zero (hb (moment pairs)) h0
  have hflip : ∀ s : ℝ, (s = 1 ∨ s = -1) → ∃ svd : M3 → Svd 3, (∀ C, IsSvd C (svd C)) ∧ ((svd (moment pairs)).u * (svd (moment pairs)).vh).det = s := by
    intro s hs
    by_cases hc : ((base (moment pairs)).u * (base (moment pairs)).vh).det = s
    · exact ⟨base, hb, hc⟩
    · refine ⟨fun C => if C = moment pairs then turned (base (moment pairs)) else base C, ?_, ?_⟩
      · intro C
        simp only
        split
        · rename_i hC; rw [hC]; exact turned_svd (hb _) h2
        · exact hb C
      · simp only [if_true]
        rw [turned_det]
        rcases orth_det (det_sq_svd (hb (moment pairs))) with ho | ho <;> rcases hs with rfl | rfl
        · exact absurd ho hc
        · rw [ho]
        · rw [ho]; norm_num
        · exact absurd ho hc
  have key : ∀ svd : M3 → Svd 3, (∀ C, IsSvd C (svd C)) → ∀ p ∈ pairs, ∀ q ∈ pairs,
      ((svd (moment pairs)).u * (svd (moment pairs)).vh)ᵀ *ᵥ (q.1 - p.1) = q.2 - p.2 := by
    intro svd hs p hp q hq
    have e1 := orth_exact hA h (hs (moment pairs)) p hp
    have e2 := orth_exact hA h (hs (moment pairs)) q hq
    have : q.1 - p.1 = ((svd (moment pairs)).u * (svd (moment pairs)).vh) *ᵥ (q.2 - p.2) := by
      have : q.2 - p.2 = (q.2 - mean (pairs.map (·.2))) - (p.2 - mean (pairs.map (·.2))) := by abel
      rw [this, mulVec_sub, e1, e2]; abel
    rw [this, mulVec_mulVec, det_sq_svd (hs (moment pairs)), one_mulVec]
  obtain ⟨s1, k1, k2⟩ := hflip 1 (Or.inl rfl)
  obtain ⟨s2, l1, l2⟩ := hflip (-1) (Or.inr rfl)
  refine ⟨s1, s2, k1, l1, ?_, ?_⟩
  · intro p hp q hq
    unfold estimate rotationBetween
    rw [rotationOf_pos k2]
    exact key s1 k1 p hp q hq
  · intro p hp q hq
    unfold estimate rotationBetween
    rw [rotationOf_neg l2, transpose_neg, neg_mulVec, key s2 l1 p hp q hq]

/-- A sample of three exact pairs does not determine the estimate: the sign of one vector of the decomposition is free, with one
choice the sample is fitted, with the other each of its differences is turned to its opposite. -/
theorem C102_three (A : M3) (hA : IsRot A) (pairs : List (V3 × V3)) (h3 : pairs.length = 3) (h : ∀ p ∈ pairs, p.2 = A *ᵥ p.1) :
    ∃ svd svd' : M3 → Svd 3, (∀ C, IsSvd C (svd C)) ∧ (∀ C, IsSvd C (svd' C)) ∧
      (∀ p ∈ pairs, ∀ q ∈ pairs, estimate svd pairs *ᵥ (q.1 - p.1) = q.2 - p.2) ∧
      (∀ p ∈ pairs, ∀ q ∈ pairs, estimate svd' pairs *ᵥ (q.1 - p.1) = -(q.2 - p.2)) :=
  singular_choice A hA pairs (three_det pairs h3) h

/-! ### Errors and inliers -/

/-- A pair is below the threshold of the robust estimation exactly when the turned first bearing is within the angle of the second. -/
theorem C102_error (R : M3) (hR : IsRot R) (q : V3 × V3) (h1 : q.1 ⬝ᵥ q.1 = 1) (h2 : q.2 ⬝ᵥ q.2 = 1) (θ : ℝ) (h0 : 0 ≤ θ) (hθ : θ ≤ Real.pi) :
    evaluate R q < thresholdAdapter θ ↔ InnerProductGeometry.angle (pt (R *ᵥ q.1)) (pt q.2) < θ := by
  have hu : (R *ᵥ q.1) ⬝ᵥ (R *ᵥ q.1) = 1 := by rw [Superimpose.rot_dot hR.1, h1]
  have hc : (R *ᵥ q.1) ⬝ᵥ q.2 = Real.cos (InnerProductGeometry.angle (pt (R *ᵥ q.1)) (pt q.2)) := by
    rw [InnerProductGeometry.cos_angle, inner_pt, norm_pt, norm_pt, hu, h2]; simp
  unfold evaluate thresholdAdapter
  rw [hc]
  constructor
  · intro h
    by_contra hn
    have := Real.cos_le_cos_of_nonneg_of_le_pi h0 (InnerProductGeometry.angle_le_pi _ _) (not_lt.1 hn)
    linarith
  · intro h
    have := Real.cos_lt_cos_of_nonneg_of_le_pi (InnerProductGeometry.angle_nonneg _ _) hθ h
    linarith

theorem orth_dist {R : M3} (hR : IsRot R) (x y : V3) : norm3 (Rᵀ *ᵥ y - x) = dist (pt (R *ᵥ x)) (pt y) := by
  rw [dist_pt]
  unfold norm3
  congr 1
  have : Rᵀ *ᵥ y - x = Rᵀ *ᵥ (y - R *ᵥ x) := by rw [mulVec_sub, mulVec_mulVec, hR.1, one_mulVec]
  rw [this, Superimpose.rot_dot (RelativePose.rot_transpose hR).1, ← neg_sub (R *ᵥ x) y, neg_dotProduct_neg]

/-- The inliers of the rotation: in order, the pairs whose turned first bearing is closer to the second than the threshold. -/
theorem C102_inliers (ransac : ℝ → List (V3 × V3) → M3) (pairs : List (V3 × V3)) (thr : ℝ) (hR : IsRot (ransac thr pairs)) :
    (rotationOnly ransac pairs thr).1 = ransac thr pairs ∧ (rotationOnly ransac pairs thr).2.Pairwise (· < ·) ∧
    ∀ i, i ∈ (rotationOnly ransac pairs thr).2 ↔ ∃ q, pairs[i]? = some q ∧ dist (pt (ransac thr pairs *ᵥ q.1)) (pt q.2) < thr := by
  refine ⟨transpose_transpose _, ?_, ?_⟩
  · unfold rotationOnly rotationInliers
    simp only
    rw [List.pairwise_map]
    apply List.Pairwise.filter
    have := List.pairwise_lt_range' (s := 0) (n := pairs.length)
    have e : (pairs.zipIdx).map (·.2) = List.range' 0 pairs.length := by simp
    rw [← e, List.pairwise_map] at this
    exact this
  · intro i
    unfold rotationOnly rotationInliers
    simp only [List.mem_map, List.mem_filter, decide_eq_true_eq]
    constructor
    · rintro ⟨⟨q, j⟩, ⟨h1, h2⟩, rfl⟩
      have := List.mem_zipIdx_iff_getElem?.1 h1
      simp only at this h2 ⊢
      exact ⟨q, this, by rw [← orth_dist hR]; exact h2⟩
    · rintro ⟨q, h1, h2⟩
      exact ⟨(q, i), ⟨List.mem_zipIdx_iff_getElem?.2 h1, by rw [← orth_dist hR] at h2; exact h2⟩, rfl⟩

/-! ### The pairs of images -/

/-- The score: the outliers if they are at least three tenths of the tracks, and otherwise nothing; no tracks raise. -/
theorem C102_score (common inliers : ℕ) :
    (reconstructability common inliers = none ↔ common = 0) ∧
    ∀ r, reconstructability common inliers = some r → (10 * ((common : ℤ) - inliers) ≥ 3 * common ∧ r = common - inliers) ∨
      (10 * ((common : ℤ) - inliers) < 3 * common ∧ r = 0) := by
  unfold reconstructability
  simp only
  by_cases h : common = 0
  · rw [if_pos h]; exact ⟨by simp [h], fun r hr => absurd hr (by simp)⟩
  · rw [if_neg h]
    have hp : (0 : ℚ) < common := by exact_mod_cast Nat.pos_of_ne_zero h
    have key : (3 / 10 : ℚ) ≤ (((common : ℤ) - inliers : ℤ) : ℚ) / common ↔ 10 * ((common : ℤ) - inliers) ≥ 3 * common := by
      rw [le_div_iff₀ hp]
      constructor
      · intro h1
        have : (3 * common : ℚ) ≤ 10 * (((common : ℤ) - inliers : ℤ) : ℚ) := by linarith
        exact_mod_cast this
      · intro h1
        have : (3 * common : ℚ) ≤ 10 * (((common : ℤ) - inliers : ℤ) : ℚ) := by exact_mod_cast h1
        linarith
    by_cases hc : (3 / 10 : ℚ) ≤ (((common : ℤ) - inliers : ℤ) : ℚ) / common
    · rw [if_pos hc]
      refine ⟨by simp [h], ?_⟩
      intro r hr
      exact Or.inl ⟨key.1 hc, (Option.some.inj hr).symm⟩
    · rw [if_neg hc]
      refine ⟨by simp [h], ?_⟩
      intro r hr
      refine Or.inr ⟨?_, (Option.some.inj hr).symm⟩
      by_contra hn
      exact hc (key.2 (by omega))

/-- What `np.argsort` is assumed to return: an order of the indices in which the values do not decrease. -/
def IsArgsort (argsort : List ℤ → List ℕ) : Prop :=
  ∀ l : List ℤ, (argsort l).Perm (List.range l.length) ∧ (argsort l).Pairwise (fun i j => ∀ a b, l[i]? = some a → l[j]? = some b → a ≤ b)

open Classical in
/-- The number of pairs that the rotation found for them does not explain: the turned first bearing is at least the distance `4 thr` from
the second. -/
noncomputable def unexplained (ransac : ℝ → List (V3 × V3) → M3) (thr : ℝ) (pairs : List (V3 × V3)) : ℕ :=
  (pairs.filter (fun q => decide (4 * thr ≤ dist (pt (ransac (4 * thr) pairs *ᵥ q.1)) (pt q.2)))).length

/-- The candidates: pairs of images with at least three tenths of unexplained pairs. -/
noncomputable def candidates {Im : Type} (ransac : ℝ → List (V3 × V3) → M3) (thr : ℝ) (tracks : List ((Im × Im) × List (V3 × V3))) : List ((Im × Im) × ℕ) :=
  (tracks.map (fun e => (e, unexplained ransac thr e.2))).filterMap (fun e =>
    if 0 < e.2 ∧ 3 * e.1.2.length ≤ 10 * e.2 then some (e.1.1, e.2) else none)

theorem range_filterMap {α : Type} (l : List α) : (List.range l.length).filterMap (fun i => l[i]?) = l := by
  apply List.ext_getElem?
  intro i
  have : (List.range l.length).filterMap (fun i => l[i]?) = l := by
    induction l using List.reverseRecOn with
    | nil => rfl
    | append_singleton l a ih =>
      rw [List.length_append, List.length_singleton, List.range_succ, List.filterMap_append]
      have e : (List.range l.length).filterMap (fun i => (l ++ [a])[i]?) = (List.range l.length).filterMap (fun i => l[i]?) := by
        apply List.filterMap_congr
        intro i hi
        rw [List.getElem?_append_left (List.mem_range.1 hi)]
      rw [e, ih]
      simp
  rw [this]

theorem sorted_spec {Im : Type} {argsort : List ℤ → List ℕ} (ha : IsArgsort argsort) (result : List ((Im × Im) × ℤ)) :
    ∃ l : List ((Im × Im) × ℤ), sorted argsort result = l.map (·.1) ∧ l.Perm (result.filter (fun e => 0 < e.2)) ∧ l.Pairwise (fun a b => b.2 ≤ a.2) := by
  obtain ⟨kept, hk⟩ : ∃ kept, kept = result.filter (fun e => 0 < e.2) := ⟨_, rfl⟩
  obtain ⟨h1, h2⟩ := ha ((kept.map (·.2)).map (fun r => -r))
  refine ⟨(argsort ((kept.map (·.2)).map (fun r => -r))).filterMap (fun o => kept[o]?), ?_, ?_, ?_⟩
  · unfold sorted
    simp only
    rw [← hk, List.map_filterMap]
    apply List.filterMap_congr
    intro i _
    rw [List.getElem?_map]
  · rw [← hk]
    refine (h1.filterMap _).trans ?_
    rw [List.length_map, List.length_map, range_filterMap]
  · rw [List.pairwise_filterMap]
    refine h2.imp ?_
    intro i j hij a hai b hbj
    have e1 : ((kept.map (·.2)).map (fun r => -r))[i]? = some (-a.2) := by rw [List.getElem?_map, List.getElem?_map, hai]; rfl
    have e2 : ((kept.map (·.2)).map (fun r => -r))[j]? = some (-b.2) := by rw [List.getElem?_map, List.getElem?_map, hbj]; rfl
    have := hij _ _ e1 e2
    omega

theorem inliers_count (ransac : ℝ → List (V3 × V3) → M3) (thr : ℝ) (pairs : List (V3 × V3)) (hR : IsRot (ransac (4 * thr) pairs)) :
    (rotationOnly ransac pairs (4 * thr)).2.length + unexplained ransac thr pairs = pairs.length := by
  classical
  unfold rotationOnly rotationInliers unexplained
  simp only
  rw [List.length_map]
  obtain ⟨R, hRd⟩ : ∃ R, R = ransac (4 * thr) pairs := ⟨_, rfl⟩
  rw [← hRd] at hR ⊢
  have e1 : ∀ (l : List (V3 × V3)) (k : ℕ), ((l.zipIdx k).filter (fun q => decide (norm3 (Rᵀ *ᵥ q.1.2 - q.1.1) < 4 * thr))).length =
      (l.filter (fun q => decide (norm3 (Rᵀ *ᵥ q.2 - q.1) < 4 * thr))).length := by
    intro l
    induction l with
    | nil => intro k; rfl
    | cons a l ih =>
      intro k
      rw [List.zipIdx_cons, List.filter_cons, List.filter_cons]
      simp only
      split
      · rw [List.length_cons, List.length_cons, ih]
      · rw [ih]
  rw [e1]
  have e2 : ∀ l : List (V3 × V3), (l.filter (fun q => decide (norm3 (Rᵀ *ᵥ q.2 - q.1) < 4 * thr))).length +
      (l.filter (fun q => decide (4 * thr ≤ dist (pt (R *ᵥ q.1)) (pt q.2)))).length = l.length := by
    intro l
    induction l with
    | nil => rfl
    | cons a l ih =>
      rw [List.filter_cons, List.filter_cons]
      by_cases hc : norm3 (Rᵀ *ᵥ a.2 - a.1) < 4 * thr
      · have hc' : ¬ 4 * thr ≤ dist (pt (R *ᵥ a.1)) (pt a.2) := by rw [← orth_dist hR]; exact not_le.2 hc
        rw [if_pos (by simpa using hc), if_neg (by simpa using hc'), List.length_cons, List.length_cons]
        omega
      · have hc' : 4 * thr ≤ dist (pt (R *ᵥ a.1)) (pt a.2) := by rw [← orth_dist hR]; exact not_lt.1 hc
        rw [if_neg (by simpa using hc), if_pos (by simpa using hc'), List.length_cons, List.length_cons]
        omega
  exact e2 pairs

/-- The score in terms of the unexplained pairs. -/
theorem score_eq {c i u : ℕ} (h : i + u = c) (hc : c ≠ 0) : reconstructability c i = some (if 3 * c ≤ 10 * u then (u : ℤ) else 0) := by
  obtain ⟨h1, h2⟩ := C102_score c i
  cases hr : reconstructability c i with
  | none => exact absurd (h1.1 hr) hc
  | some r =>
    rcases h2 r hr with ⟨a, b⟩ | ⟨a, b⟩
    · rw [if_pos (by omega)]; congr 1; omega
    · rw [if_neg (by omega), b]

theorem scores_spec {Im : Type} (ransac : ℝ → List (V3 × V3) → M3) (hR : ∀ t l, IsRot (ransac t l)) (thr : ℝ) (tracks : List ((Im × Im) × List (V3 × V3))) :
    (scores ransac thr tracks = none ∧ ∃ e ∈ tracks, e.2 = []) ∨
    (∃ res, scores ransac thr tracks = some res ∧ (∀ e ∈ tracks, e.2 ≠ []) ∧
      res.filter (fun e => 0 < e.2) = (candidates ransac thr tracks).map (fun e => (e.1, (e.2 : ℤ)))) := by
  induction tracks with
  | nil => right; exact ⟨[], rfl, by simp, rfl⟩
  | cons e l ih =>
    unfold scores at ih ⊢
    rw [List.mapM_cons]
    by_cases he : e.2 = []
    · left
      refine ⟨?_, e, by simp, he⟩
      have : reconstructability e.2.length (rotationOnly ransac e.2 (4 * thr)).2.length = none := by
        rw [(C102_score _ _).1, he]; rfl
      rw [this]; rfl
    · have hlen : e.2.length ≠ 0 := by simpa using he
      rw [score_eq (inliers_count ransac thr e.2 (hR _ _)) hlen]
      rcases ih with ⟨h1, h2⟩ | ⟨res, h1, h2, h3⟩
      · left
        refine ⟨?_, ?_⟩
        · rw [h1]; rfl
        · obtain ⟨x, hx, hx'⟩ := h2
          exact ⟨x, List.mem_cons_of_mem _ hx, hx'⟩
      · right
        refine ⟨_, by rw [h1]; rfl, ?_, ?_⟩
        · intro x hx
          rcases List.mem_cons.1 hx with rfl | hx
          · exact he
          · exact h2 x hx
        · unfold candidates at h3 ⊢
          rw [List.map_cons, List.filterMap_cons, List.filter_cons]
          by_cases hc : 0 < unexplained ransac thr e.2 ∧ 3 * e.2.length ≤ 10 * unexplained ransac thr e.2
          · have h0 : (0 : ℤ) < (if 3 * e.2.length ≤ 10 * unexplained ransac thr e.2 then (unexplained ransac thr e.2 : ℤ) else 0) := by
              rw [if_pos hc.2]; exact_mod_cast hc.1
            rw [if_pos (by simpa using h0)]
            simp only [if_pos hc, List.map_cons]
            rw [h3, if_pos hc.2]
          · have h0 : ¬ (0 : ℤ) < (if 3 * e.2.length ≤ 10 * unexplained ransac thr e.2 then (unexplained ransac thr e.2 : ℤ) else 0) := by
              split
              · rename_i h5; intro h6; exact hc ⟨by exact_mod_cast h6, h5⟩
              · exact lt_irrefl _
            rw [if_neg (by simpa using h0)]
            simp only [if_neg hc]
            exact h3

/-- The pairs of images are exactly those with at least three tenths of unexplained tracks, those with more unexplained tracks first;
an exception is raised exactly when a pair has no track. -/
theorem C102_pairs {Im : Type} (ransac : ℝ → List (V3 × V3) → M3) (hR : ∀ t l, IsRot (ransac t l)) (argsort : List ℤ → List ℕ)
    (ha : IsArgsort argsort) (thr : ℝ) (tracks : List ((Im × Im) × List (V3 × V3))) :
    (imagePairs ransac argsort thr tracks = none ↔ ∃ e ∈ tracks, e.2 = []) ∧
    ∀ out, imagePairs ransac argsort thr tracks = some out → ∃ l : List ((Im × Im) × ℕ), out = l.map (·.1) ∧
      l.Perm (candidates ransac thr tracks) ∧ l.Pairwise (fun a b => b.2 ≤ a.2) := by
  rcases scores_spec ransac hR thr tracks with ⟨h1, h2⟩ | ⟨res, h1, h2, h3⟩
  · unfold imagePairs
    rw [h1]
    exact ⟨⟨fun _ => h2, fun _ => rfl⟩, fun out h => absurd h (by simp)⟩
  · unfold imagePairs
    rw [h1]
    refine ⟨⟨fun h => absurd h (by simp), ?_⟩, ?_⟩
    · rintro ⟨e, he, he'⟩; exact absurd he' (h2 e he)
    · intro out h
      obtain rfl := Option.some.inj h
      obtain ⟨l, k1, k2, k3⟩ := sorted_spec ha res
      rw [h3] at k2
      refine ⟨l.map (fun e => (e.1, e.2.toNat)), ?_, ?_, ?_⟩
      · rw [k1, List.map_map]; rfl
      · have := k2.map (fun e : (Im × Im) × ℤ => (e.1, e.2.toNat))
        rw [List.map_map] at this
        refine this.trans (List.Perm.of_eq ?_)
        conv_rhs => rw [← List.map_id (candidates ransac thr tracks)]
        apply List.map_congr_left
        intro x _
        simp
      · rw [List.pairwise_map]
        refine k3.imp ?_
        intro a b hab
        exact Int.toNat_le_toNat hab

/-- A pair of views that differ by a rotation is never proposed, when the robust estimation has found the rotation. -/
theorem C102_pure_rotation {Im : Type} (ransac : ℝ → List (V3 × V3) → M3) (thr : ℝ) (ht : 0 < thr)
    (e : (Im × Im) × List (V3 × V3)) (A : M3) (h : ∀ q ∈ e.2, q.2 = A *ᵥ q.1) (hr : ransac (4 * thr) e.2 = A) (hA : IsRot A) (hn : e.2 ≠ []) :
    scores ransac thr [e] = some [(e.1, 0)] := by
  have hz : unexplained ransac thr e.2 = 0 := by
    unfold unexplained
    rw [List.length_eq_zero_iff, List.filter_eq_nil_iff]
    intro q hq
    rw [hr, ← h q hq, dist_self]
    simp; linarith
  have hlen : e.2.length ≠ 0 := by simpa using hn
  unfold scores
  rw [List.mapM_cons, score_eq (inliers_count ransac thr e.2 (by rw [hr]; exact hA)) hlen, hz]
  rw [if_neg (by omega)]
  rfl

/-! ### Examples -/

/-- Four directions not on a plane, turned by a quarter: the hypotheses of `C102_exact` are met. -/
example : ∃ svd : M3 → Svd 3, (∀ C, IsSvd C (svd C)) ∧
    estimate svd [(![1, 0, 0], ![0, 1, 0]), (![0, 1, 0], ![-1, 0, 0]), (![0, 0, 1], ![0, 0, 1]), (![-1, 0, 0], ![0, -1, 0])] =
      !![0, -1, 0; 1, 0, 0; 0, 0, 1] := by
  obtain ⟨svd, hs⟩ := Superimpose.C88_svd 3
  refine ⟨svd, hs, C102_exact svd hs _ ⟨?_, ?_⟩ _ ?_ ?_⟩
  · ext i j
    rw [Matrix.mul_apply, Fin.sum_univ_three, transpose_apply, transpose_apply, transpose_apply]
    fin_cases i <;> fin_cases j <;> simp
  · simp [det_fin_three]
  · intro p hp
    simp only [List.mem_cons, List.not_mem_nil, or_false] at hp
    rcases hp with rfl | rfl | rfl | rfl <;> apply RelativePose.vec_ext <;> simp [mulVec, RelativePose.dot3]
  · intro n hn
    have h1 := hn (![1, 0, 0], ![0, 1, 0]) (by simp) (![0, 1, 0], ![-1, 0, 0]) (by simp)
    have h2 := hn (![1, 0, 0], ![0, 1, 0]) (by simp) (![0, 0, 1], ![0, 0, 1]) (by simp)
    have h3 := hn (![1, 0, 0], ![0, 1, 0]) (by simp) (![-1, 0, 0], ![0, -1, 0]) (by simp)
    rw [RelativePose.dot3] at h1 h2 h3
    simp at h1 h2 h3
    have h3' : n 0 = 0 := by
      rcases h3 with h | h
      · exact h
      · norm_num at h
    apply RelativePose.vec_ext <;> simp <;> linarith

/-- Ten tracks of which three are unexplained are enough, eleven are not; no tracks raise. -/
example : reconstructability 10 7 = some 3 ∧ reconstructability 11 8 = some 0 ∧ reconstructability 0 0 = none := by decide +kernel

end Verif.RotationPair
