import Verif.Model.AlignPrior
import Verif.Props.Align
import Mathlib.Tactic.FinCases
import Mathlib.Analysis.Real.Pi.Bounds

/-!
C90: aligning a reconstruction when the camera orientation is assumed.
-/
set_option linter.unusedSectionVars false
set_option linter.unusedSimpArgs false
namespace Verif.AlignPrior
open Matrix Verif.Superimpose Verif.Align
open Verif.Pose (Pose Recon applySimilarity applySimilarityPose M3 V3 Rigid Orth)
variable {Id : Type} [DecidableEq Id]

/-! ### The rotation that makes a plane horizontal -/

/-- Rodrigues' formula with `c`, `s` and the axis `k`. -/
def rod (c s : ℝ) (k : Vec 3) : Mat 3 :=
  !![c + (1 - c) * (k 0 * k 0), (1 - c) * (k 0 * k 1) - s * k 2, (1 - c) * (k 0 * k 2) + s * k 1;
    (1 - c) * (k 1 * k 0) + s * k 2, c + (1 - c) * (k 1 * k 1), (1 - c) * (k 1 * k 2) - s * k 0;
    (1 - c) * (k 2 * k 0) - s * k 1, (1 - c) * (k 2 * k 1) + s * k 0, c + (1 - c) * (k 2 * k 2)]

theorem rotationMatrix_rod (angle : ℝ) (d : Vec 3) :
    rotationMatrix angle d = rod (Real.cos angle) (Real.sin angle) ((1 / norm d) • d) := by
  unfold rotationMatrix rod
  ext i j
  fin_cases i <;> fin_cases j <;> simp [vecMulVec_apply, -mul_eq_mul_left_iff] <;> ring

theorem rod_rot {c s : ℝ} {k : Vec 3} (h1 : c ^ 2 + s ^ 2 = 1) (h2 : k 0 ^ 2 + k 1 ^ 2 + k 2 ^ 2 = 1) : IsRot (rod c s k) := by
  constructor
  · ext i j
    fin_cases i <;> fin_cases j <;> simp [rod, Matrix.mul_apply, Fin.sum_univ_three]
    · linear_combination (1 - k 0 * k 0) * h1 + (s ^ 2 + (1 - c) ^ 2 * (k 0 * k 0)) * h2
    · linear_combination (- (k 0 * k 1)) * h1 + ((1 - c) ^ 2 * (k 0 * k 1)) * h2
    · linear_combination (- (k 0 * k 2)) * h1 + ((1 - c) ^ 2 * (k 0 * k 2)) * h2
    · linear_combination (- (k 0 * k 1)) * h1 + ((1 - c) ^ 2 * (k 0 * k 1)) * h2
    · linear_combination (1 - k 1 * k 1) * h1 + (s ^ 2 + (1 - c) ^ 2 * (k 1 * k 1)) * h2
    · linear_combination (- (k 1 * k 2)) * h1 + ((1 - c) ^ 2 * (k 1 * k 2)) * h2
    · linear_combination (- (k 0 * k 2)) * h1 + ((1 - c) ^ 2 * (k 0 * k 2)) * h2
    · linear_combination (- (k 1 * k 2)) * h1 + ((1 - c) ^ 2 * (k 1 * k 2)) * h2
    · linear_combination (1 - k 2 * k 2) * h1 + (s ^ 2 + (1 - c) ^ 2 * (k 2 * k 2)) * h2
  · rw [det_fin_three]
    simp [rod]
    linear_combination h1 + (s ^ 2 + (1 - c) * (c ^ 2 + s ^ 2 * (k 0 ^ 2 + k 1 ^ 2 + k 2 ^ 2))) * h2

theorem norm_sq (v : Vec 3) : norm v ^ 2 = v 0 ^ 2 + v 1 ^ 2 + v 2 ^ 2 := by
  unfold norm
  rw [Real.sq_sqrt (dot_self_nonneg v)]
  simp only [dotProduct, Fin.sum_univ_three]
  ring

theorem norm_nonneg' (v : Vec 3) : 0 ≤ norm v := Real.sqrt_nonneg _

theorem norm_pos (v : Vec 3) (h : v ≠ 0) : 0 < norm v := by
  unfold norm
  rw [Real.sqrt_pos]
  exact lt_of_le_of_ne (dot_self_nonneg v) (fun e => h (dot_self_zero.1 e.symm))

theorem norm_zero_iff (v : Vec 3) : norm v = 0 ↔ v = 0 := by
  constructor
  · intro h
    by_contra hc
    exact absurd h (norm_pos v hc).ne'
  · rintro rfl
    simp [norm]

theorem norm_unit (v : Vec 3) (h : v ≠ 0) : ((1 / norm v) • v) 0 ^ 2 + ((1 / norm v) • v) 1 ^ 2 + ((1 / norm v) • v) 2 ^ 2 = 1 := by
  have hn := norm_pos v h
  have := norm_sq v
  simp only [Pi.smul_apply, smul_eq_mul]
  field_simp
  linarith

theorem cos_angle (v : Vec 3) (h : v ≠ 0) : Real.cos (angleBetween v ![0, 0, 1]) = v 2 / norm v := by
  have hn := norm_pos v h
  have hsq := norm_sq v
  have hup : norm ![0, 0, 1] = 1 := by
    simp [norm, dotProduct, Fin.sum_univ_three]
  have hd : v ⬝ᵥ ![0, 0, 1] = v 2 := by simp [dotProduct, Fin.sum_univ_three]
  have h1 : v 2 / norm v ≤ 1 := by
    rw [div_le_one hn]
    nlinarith [sq_nonneg (v 0), sq_nonneg (v 1), abs_le_of_sq_le_sq (a := v 2) (b := norm v) (by nlinarith [sq_nonneg (v 0), sq_nonneg (v 1)]) hn.le]
  have h2 : -1 ≤ v 2 / norm v := by
    rw [le_div_iff₀ hn]
    have := neg_le_of_abs_le (abs_le_of_sq_le_sq (a := v 2) (b := norm v) (by nlinarith [sq_nonneg (v 0), sq_nonneg (v 1)]) hn.le)
    linarith
  unfold angleBetween
  rw [hup, hd, mul_one, Real.cos_arccos (le_max_left _ _) (max_le (by norm_num) (min_le_left _ _)),
    min_eq_right h1, max_eq_right h2]

theorem angle_range (v w : Vec 3) : 0 ≤ angleBetween v w ∧ angleBetween v w ≤ Real.pi :=
  ⟨Real.arccos_nonneg _, Real.arccos_le_pi _⟩

theorem cross_up (v : Vec 3) : cross v ![0, 0, 1] = ![v 1, -v 0, 0] := by
  unfold cross
  ext i
  fin_cases i <;> simp

/-- **Made horizontal.** Every non-zero normal is sent straight up by a rotation, and unless it points straight down the
rotation keeps the horizontal directions that are already on the plane. No rotation is returned for the zero vector. -/
theorem C90_horizontal (n : Vec 3) :
    (n = 0 → horizontalling n = none) ∧
    (n ≠ 0 → ∃ R, horizontalling n = some R ∧ IsRot R ∧ R *ᵥ n = ![0, 0, Real.sqrt (n ⬝ᵥ n)] ∧
      ((0 < n 2 ∨ n 0 ≠ 0 ∨ n 1 ≠ 0) → ∀ v : Vec 3, v ⬝ᵥ n = 0 → v 2 = 0 → R *ᵥ v = v)) := by
  constructor
  · rintro rfl
    have ha : norm (cross 0 ![0, 0, 1]) = 0 := by
      rw [norm_zero_iff, cross_up]
      ext i
      fin_cases i <;> simp
    have hang : angleBetween 0 ![0, 0, 1] = Real.pi / 2 := by
      unfold angleBetween
      simp
    unfold horizontalling
    simp only
    have := Real.pi_gt_three
    have := Real.pi_le_four
    rw [ha, hang, if_neg (lt_irrefl _), if_neg (by linarith), if_neg (by linarith)]
  · intro hn
    have hN := norm_pos n hn
    have hNs := norm_sq n
    by_cases ha : cross n ![0, 0, 1] = 0
    · rw [cross_up] at ha
      have h1 : n 1 = 0 := by simpa using congrFun ha 0
      have h0 : n 0 = 0 := by simpa using congrFun ha 1
      have h2 : n 2 ≠ 0 := by
        intro h2
        apply hn
        ext i
        fin_cases i <;> simp [h0, h1, h2]
      have hna : norm (cross n ![0, 0, 1]) = 0 := by
        rw [norm_zero_iff, cross_up]
        exact ha
      have hcos := cos_angle n hn
      have hr := angle_range n ![0, 0, 1]
      rcases lt_or_gt_of_ne h2 with hneg | hpos
      · have hN2 : norm n = -n 2 := by
          have : norm n ^ 2 = (-n 2) ^ 2 := by rw [hNs, h0, h1]; ring
          exact (pow_left_inj₀ hN.le (by linarith) (by norm_num)).1 this
        have hang : angleBetween n ![0, 0, 1] = Real.pi := by
          rw [hN2] at hcos
          have : Real.cos (angleBetween n ![0, 0, 1]) = Real.cos Real.pi := by
            rw [hcos, Real.cos_pi]
            field_simp
          exact Real.injOn_cos ⟨hr.1, hr.2⟩ ⟨Real.pi_pos.le, le_refl _⟩ this
        refine ⟨diagonal ![1, -1, -1], ?_, ?_, ?_, ?_⟩
        · unfold horizontalling
          simp only
          have := Real.pi_gt_three
          rw [hna, hang, if_neg (lt_irrefl _), if_neg (by linarith), if_pos (by linarith)]
        · constructor
          · ext i j
            fin_cases i <;> fin_cases j <;> simp [Matrix.mul_apply, Fin.sum_univ_three, diagonal_apply]
          · rw [det_diagonal, Fin.prod_univ_three]
            simp
        · change _ = ![0, 0, norm n]
          rw [hN2]
          ext i
          fin_cases i <;> simp [mulVec, dotProduct, Fin.sum_univ_three, diagonal_apply, h0, h1]
        · intro h
          rcases h with h | h | h
          · linarith
          · exact absurd h0 h
          · exact absurd h1 h
      · have hN2 : norm n = n 2 := by
          have : norm n ^ 2 = (n 2) ^ 2 := by rw [hNs, h0, h1]; ring
          exact (pow_left_inj₀ hN.le hpos.le (by norm_num)).1 this
        have hang : angleBetween n ![0, 0, 1] = 0 := by
          rw [hN2] at hcos
          have : Real.cos (angleBetween n ![0, 0, 1]) = Real.cos 0 := by
            rw [hcos, Real.cos_zero]
            field_simp
          exact Real.injOn_cos ⟨hr.1, hr.2⟩ ⟨le_refl _, Real.pi_pos.le⟩ this
        refine ⟨1, ?_, ⟨by simp, by simp⟩, ?_, ?_⟩
        · unfold horizontalling
          simp only
          rw [hna, hang, if_neg (lt_irrefl _), if_pos (by norm_num)]
        · change _ = ![0, 0, norm n]
          rw [hN2, one_mulVec]
          ext i
          fin_cases i <;> simp [h0, h1]
        · intro _ v _ _
          rw [one_mulVec]
    · have hna := norm_pos _ ha
      have hcos := cos_angle n hn
      have hr := angle_range n ![0, 0, 1]
      have hunit := norm_unit _ ha
      have hrho := norm_sq (cross n ![0, 0, 1])
      set rho := norm (cross n ![0, 0, 1]) with hrhod
      set N := norm n with hNd
      rw [cross_up] at hrho hunit
      have hrho' : rho ^ 2 = n 0 ^ 2 + n 1 ^ 2 := by
        rw [hrho]
        simp
        ring
      have hsin : Real.sin (angleBetween n ![0, 0, 1]) = rho / N := by
        have h0 := Real.sin_nonneg_of_nonneg_of_le_pi hr.1 hr.2
        have h1 := Real.sin_sq_add_cos_sq (angleBetween n ![0, 0, 1])
        rw [hcos] at h1
        have h2 : Real.sin (angleBetween n ![0, 0, 1]) ^ 2 = (rho / N) ^ 2 := by
          have : (n 2 / N) ^ 2 + (rho / N) ^ 2 = 1 := by
            field_simp
            rw [hrho', hNs]
            ring
          linarith
        exact (pow_left_inj₀ h0 (by positivity) (by norm_num)).1 h2
      have hk : (1 / rho) • cross n ![0, 0, 1] = ![n 1 / rho, -n 0 / rho, 0] := by
        rw [cross_up]
        ext i
        fin_cases i <;> simp <;> ring
      refine ⟨rotationMatrix (angleBetween n ![0, 0, 1]) (cross n ![0, 0, 1]), ?_, ?_, ?_, ?_⟩
      · unfold horizontalling
        simp only
        rw [if_pos hna]
      · rw [rotationMatrix_rod]
        apply rod_rot
        · rw [add_comm]; exact Real.sin_sq_add_cos_sq _
        · rw [← hrhod, cross_up]; exact hunit
      · change _ = ![0, 0, N]
        rw [rotationMatrix_rod, ← hrhod, hk, hcos, hsin]
        ext i
        fin_cases i <;> simp [mulVec, dotProduct, Fin.sum_univ_three, rod]
        · field_simp
          linear_combination (n 0) * 0
        · field_simp
          ring
        · field_simp
          linear_combination - hNs
      · intro _ v hv h2
        have hv' : v 0 * n 0 + v 1 * n 1 = 0 := by
          have := hv
          simp only [dotProduct, Fin.sum_univ_three, h2] at this
          linarith
        rw [rotationMatrix_rod, ← hrhod, hk, hcos, hsin]
        ext i
        fin_cases i <;> simp [mulVec, dotProduct, Fin.sum_univ_three, rod, h2]
        · field_simp
          linear_combination (n 2 - N) * v 0 * hrho' + (n 2 - N) * n 0 * hv'
        · field_simp
          linear_combination (n 2 - N) * v 1 * hrho' + (n 2 - N) * n 1 * hv'
        · field_simp
          linear_combination hv'

/-! ### Helpers: a rotation about the vertical -/

theorem lift_mulVec (R : Mat 2) (x : Vec 3) :
    lift R *ᵥ x = ![(R *ᵥ horiz x) 0, (R *ᵥ horiz x) 1, x 2] := by
  ext i
  fin_cases i <;> simp [lift, horiz, mulVec, dotProduct, Fin.sum_univ_three, Fin.sum_univ_two]

theorem lift_rot {R : Mat 2} (h : IsRot R) : IsRot (lift R) := by
  have e : ∀ i j, (Rᵀ * R) i j = (1 : Mat 2) i j := fun i j => by rw [h.1]
  have hd := h.2
  rw [det_fin_two] at hd
  have e00 := e 0 0
  have e01 := e 0 1
  have e10 := e 1 0
  have e11 := e 1 1
  simp [Matrix.mul_apply, Fin.sum_univ_two] at e00 e01 e10 e11
  constructor
  · ext i j
    fin_cases i <;> fin_cases j <;> simp [lift, Matrix.mul_apply, Fin.sum_univ_three] <;> linarith
  · rw [det_fin_three]
    simp [lift]
    linarith

theorem rot_fix_up {M : Mat 3} (h : IsRot M) (hu : M *ᵥ ![0, 0, 1] = ![0, 0, 1]) : ∃ R : Mat 2, IsRot R ∧ M = lift R := by
  have h02 : M 0 2 = 0 := by simpa [mulVec, dotProduct, Fin.sum_univ_three] using congrFun hu 0
  have h12 : M 1 2 = 0 := by simpa [mulVec, dotProduct, Fin.sum_univ_three] using congrFun hu 1
  have h22 : M 2 2 = 1 := by simpa [mulVec, dotProduct, Fin.sum_univ_three] using congrFun hu 2
  have hr := orth_comm.1 h.1
  have e : ∀ i j, (M * Mᵀ) i j = (1 : Mat 3) i j := fun i j => by rw [hr]
  have e22 := e 2 2
  simp [Matrix.mul_apply, Fin.sum_univ_three, h22] at e22
  have h20 : M 2 0 = 0 := by nlinarith [mul_self_nonneg (M 2 0), mul_self_nonneg (M 2 1)]
  have h21 : M 2 1 = 0 := by nlinarith [mul_self_nonneg (M 2 0), mul_self_nonneg (M 2 1)]
  refine ⟨!![M 0 0, M 0 1; M 1 0, M 1 1], ⟨?_, ?_⟩, ?_⟩
  · have e' : ∀ i j, (Mᵀ * M) i j = (1 : Mat 3) i j := fun i j => by rw [h.1]
    have e00 := e' 0 0
    have e01 := e' 0 1
    have e10 := e' 1 0
    have e11 := e' 1 1
    simp [Matrix.mul_apply, Fin.sum_univ_three, h20, h21] at e00 e01 e10 e11
    ext i j
    fin_cases i <;> fin_cases j <;> simp [Matrix.mul_apply, Fin.sum_univ_two] <;> assumption
  · have hd := h.2
    rw [det_fin_three, h20, h21, h22, h02, h12] at hd
    rw [det_fin_two]
    simp
    linarith
  · ext i j
    fin_cases i <;> fin_cases j <;> simp [lift, *]

theorem rot_mul {A B : Mat 3} (hA : IsRot A) (hB : IsRot B) : IsRot (A * B) := by
  refine ⟨?_, by rw [det_mul, hA.2, hB.2, one_mul]⟩
  rw [transpose_mul, Matrix.mul_assoc, ← Matrix.mul_assoc Aᵀ, hA.1, Matrix.one_mul, hB.1]

theorem rot_transpose {A : Mat 3} (hA : IsRot A) : IsRot Aᵀ :=
  ⟨by rw [transpose_transpose]; exact orth_comm.1 hA.1, by rw [det_transpose]; exact hA.2⟩

theorem spread_rot {Q : Mat 3} (hQ : IsRot Q) (l : List (Vec 3)) : spread (l.map (fun x => Q *ᵥ x)) = spread l := by
  rcases eq_or_ne l [] with rfl | hl
  · rfl
  have hm : mean (l.map (fun x => Q *ᵥ x)) = Q *ᵥ mean l := by
    have := mean_apply (sim 1 Q 0) l hl
    have e : (sim 1 Q 0).apply = fun x => Q *ᵥ x := by
      funext x
      simp [Sim.apply, sim]
    rwa [e] at this
  unfold spread
  rw [List.length_map, List.map_map, hm]
  congr 3
  apply List.map_congr_left
  intro x _
  simp only [Function.comp_apply]
  rw [← mulVec_sub, rot_dot hQ.1]

theorem spread_le (l : List (Vec 3)) : spread l ≤ 2 * maxStd l := by
  rw [← stdev_norm]
  have h : ∀ k, 0 ≤ stdev l k := fun k => Real.sqrt_nonneg _
  have h0 : stdev l 0 ≤ maxStd l := le_trans (le_max_left _ _) (le_max_left _ _)
  have h1 : stdev l 1 ≤ maxStd l := le_trans (le_max_right _ _) (le_max_left _ _)
  have h2 : stdev l 2 ≤ maxStd l := le_max_right _ _
  have hm : 0 ≤ maxStd l := le_trans (h 0) h0
  rw [Real.sqrt_le_left (by linarith)]
  nlinarith [h 0, h 1, h 2]

/-! ### The fit with the vertical fixed -/

/-- **Up stays up.** Whatever the positions, the rotation of the result sends the normal of the estimated ground plane
straight up. -/
theorem C90_up (svd : Mat 2 → Svd 2) (hs : ∀ C, IsSvd C (svd C)) (minVec : Mat 4 → Vec 4) (kind : String) (vs : List View)
    (pairs : List (Vec 3 × Vec 3)) (useScale : Bool) (s : ℝ) (A : Mat 3) (b : Vec 3)
    (h : prior svd minVec kind vs pairs useScale = some (s, A, b)) (h0 : s ≠ 0) :
    ∃ p, estimateGroundPlane minVec kind vs = some p ∧ 0 < s ∧ IsRot A ∧
      A *ᵥ ![p 0, p 1, p 2] = ![0, 0, Real.sqrt (p 0 ^ 2 + p 1 ^ 2 + p 2 ^ 2)] := by
  unfold prior at h
  cases hp : estimateGroundPlane minVec kind vs with
  | none => rw [hp] at h; exact absurd h (by simp)
  | some p =>
    rw [hp] at h
    simp only at h
    refine ⟨p, rfl, ?_⟩
    have hne : (![p 0, p 1, p 2] : Vec 3) ≠ 0 := by
      intro e
      rw [(C90_horizontal _).1 e] at h
      exact absurd h (by simp)
    obtain ⟨R, hR, hrot, hup, -⟩ := (C90_horizontal _).2 hne
    rw [hR] at h
    simp only at h
    have hdot : (![p 0, p 1, p 2] : Vec 3) ⬝ᵥ ![p 0, p 1, p 2] = p 0 ^ 2 + p 1 ^ 2 + p 2 ^ 2 := by
      simp [dotProduct, Fin.sum_univ_three]
      ring
    rw [hdot] at hup
    unfold fitWithUp at h
    split at h
    · simp only [Option.some.injEq, Prod.mk.injEq] at h
      obtain ⟨rfl, rfl, -⟩ := h
      exact ⟨one_pos, hrot, hup⟩
    · simp only at h
      split at h
      · split at h
        · rename_i hc
          simp only [Option.some.injEq, Prod.mk.injEq] at h
          obtain ⟨rfl, rfl, -⟩ := h
          exact ⟨div_pos (by norm_num) (lt_trans (by norm_num) hc.2), hrot, hup⟩
        · simp only [Option.some.injEq, Prod.mk.injEq] at h
          obtain ⟨rfl, rfl, -⟩ := h
          exact ⟨one_pos, hrot, hup⟩
      · cases hT : superimpose svd useScale (pairs.map (fun q => (horiz (R *ᵥ q.1), horiz q.2))) with
        | none => rw [hT] at h; exact absurd h (by simp)
        | some T =>
          rw [hT] at h
          simp only [Option.some.injEq, Prod.mk.injEq] at h
          obtain ⟨h1, h2, -⟩ := h
          obtain ⟨s', R', t', hs', hR', rfl, -⟩ := C88_optimal svd hs useScale _ T hT
          have hpos : 0 < s' := by
            rcases hs'.lt_or_eq with hlt | rfl
            · exact hlt
            · exfalso
              apply h0
              rw [← h1]
              unfold decompose sim
              simp only [zero_smul, det_zero]
              apply Real.zero_rpow
              norm_num
          rw [C88_decompose s' hpos R' hR' t'] at h1 h2
          simp only at h1 h2
          subst h1 h2
          refine ⟨hpos, rot_mul (lift_rot hR') hrot, ?_⟩
          rw [← mulVec_mulVec, hup, lift_mulVec]
          ext i
          fin_cases i <;> simp [horiz, mulVec, dotProduct, Fin.sum_univ_two]

theorem fitWithUp_exact (svd : Mat 2 → Svd 2) (hs : ∀ C, IsSvd C (svd C)) (R : Mat 3) (hR : IsRot R)
    (pairs : List (Vec 3 × Vec 3)) (useScale : Bool) (s : ℝ) (hs0 : 0 < s) (Q : Mat 3) (hQ : IsRot Q) (t n : Vec 3) (z : ℝ)
    (hz : 0 < z) (hRn : R *ᵥ n = ![0, 0, z]) (hQn : Q *ᵥ n = ![0, 0, z])
    (hp : ∀ p ∈ pairs, p.2 = s • (Q *ᵥ p.1) + t) (hsc : useScale = false → s = 1)
    (hd : ∃ p ∈ pairs, ∃ q ∈ pairs, p.2 0 ≠ q.2 0 ∨ p.2 1 ≠ q.2 1)
    (h1 : 2 / 10 ^ 8 ≤ spread (pairs.map (·.1))) (h2 : 2 / 100 ≤ spread (pairs.map (·.2))) :
    fitWithUp svd R pairs useScale = some (s, Q, t) := by
  have hup : (Q * Rᵀ) *ᵥ ![0, 0, 1] = ![0, 0, 1] := by
    have e : (![0, 0, 1] : Vec 3) = z⁻¹ • ![0, 0, z] := by
      ext i
      fin_cases i <;> simp [hz.ne']
    have e2 : Rᵀ *ᵥ ![0, 0, z] = n := by
      rw [← hRn, mulVec_mulVec, hR.1, one_mulVec]
    rw [← mulVec_mulVec, e, mulVec_smul, e2, mulVec_smul, hQn]
  obtain ⟨R2, hR2, hM⟩ := rot_fix_up (rot_mul hQ (rot_transpose hR)) hup
  have hQR : Q = lift R2 * R := by
    rw [← hM, Matrix.mul_assoc, hR.1, Matrix.mul_one]
  have hpt : ∀ p ∈ pairs, p.2 = s • ![(R2 *ᵥ horiz (R *ᵥ p.1)) 0, (R2 *ᵥ horiz (R *ᵥ p.1)) 1, (R *ᵥ p.1) 2] + t := by
    intro p hpm
    rw [hp p hpm, hQR, ← mulVec_mulVec, lift_mulVec]
  obtain ⟨p, hpm, q, hqm, hne⟩ := hd
  have hlen : 2 ≤ pairs.length := by
    by_contra hc
    have hl : pairs.length = 1 := by
      have := List.length_pos_of_mem hpm
      omega
    obtain ⟨x, rfl⟩ := List.length_eq_one_iff.1 hl
    simp only [List.mem_singleton] at hpm hqm
    subst hpm hqm
    rcases hne with h | h <;> exact h rfl
  have hfit : superimpose svd useScale (pairs.map (fun p => (horiz (R *ᵥ p.1), horiz p.2))) = some (sim s R2 (horiz t)) := by
    apply C88_exact svd hs useScale _ (by norm_num) (by rw [List.length_map]; exact hlen) s hs0 R2 hR2 (horiz t) _ hsc
    · apply spanning_plane
      refine ⟨_, List.mem_map.2 ⟨p, hpm, rfl⟩, _, List.mem_map.2 ⟨q, hqm, rfl⟩, ?_⟩
      intro e
      simp only at e
      have hpe := hpt p hpm
      have hqe := hpt q hqm
      rw [e] at hpe
      rcases hne with h | h
      · apply h
        rw [hpe, hqe]
        simp
      · apply h
        rw [hpe, hqe]
        simp
    · intro x hx
      obtain ⟨y, hy, rfl⟩ := List.mem_map.1 hx
      simp only
      have := hpt y hy
      have h0 := congrFun this 0
      have h1 := congrFun this 1
      simp at h0 h1
      ext i
      fin_cases i
      · simp [horiz, Sim.apply, sim, smul_mulVec] at h0 ⊢
        exact h0
      · simp [horiz, Sim.apply, sim, smul_mulVec] at h1 ⊢
        exact h1
  have hmean : mean (pairs.map (·.2)) 2 = s * mean (pairs.map (fun p => R *ᵥ p.1)) 2 + t 2 := by
    have e : pairs.map (·.2) = (pairs.map (fun p => R *ᵥ p.1)).map (sim s (lift R2) t).apply := by
      rw [List.map_map]
      apply List.map_congr_left
      intro x hx
      rw [hpt x hx]
      simp only [Function.comp_apply, Sim.apply, sim, smul_mulVec, lift_mulVec]
    rw [e, mean_apply _ _ (by intro e; rw [List.map_eq_nil_iff] at e; rw [e] at hpm; exact absurd hpm (by simp))]
    simp [Sim.apply, sim, smul_mulVec, lift_mulVec]
  have hx : pairs.map (fun p => R *ᵥ p.1) = (pairs.map (·.1)).map (fun x => R *ᵥ x) := by
    rw [List.map_map]; rfl
  have hX : ¬ maxStd (pairs.map (fun p => R *ᵥ p.1)) < 1 / 10 ^ 8 := by
    have := spread_le (pairs.map (fun p => R *ᵥ p.1))
    rw [hx, spread_rot hR] at this
    rw [hx]
    intro hc
    linarith
  have hY : ¬ maxStd (pairs.map (·.2)) < 1 / 100 := by
    have := spread_le (pairs.map (·.2))
    intro hc
    linarith
  unfold fitWithUp
  simp only
  rw [if_neg (by omega), if_neg (by push Not; exact ⟨hlen, not_lt.1 hX, not_lt.1 hY⟩), hfit]
  simp only
  rw [C88_decompose s hs0 R2 hR2 (horiz t), ← hQR]
  simp only [Option.some.injEq, Prod.mk.injEq, true_and]
  ext i
  fin_cases i
  · simp [horiz]
  · simp [horiz]
  · simp [hmean]

/-- **Exact alignment with a known vertical.** If a similarity that sends the normal of the estimated ground plane up also
sends the reconstructed positions to the measured ones, and two measured positions differ horizontally, alignment finds
exactly this similarity – also when all positions are on one line – and afterwards every rig instance that has GPS is at its
GPS position. -/
theorem C90_exact (svd : Mat 3 → Svd 3) (eig : Mat 3 → Vec 3) (svd2 : Mat 2 → Svd 2) (hs : ∀ C, IsSvd C (svd2 C))
    (minVec : Mat 4 → Vec 4) (kind : String) (orient : Id → Option ℤ) (cfg : Cfg) (a : ARec Id) (gcp : List GPoint)
    (useGps : Bool) (hwf : a.r.rigInstances.Wf) (hi : ∀ i p, a.r.rigInstances.get? i = some p → Rigid p)
    (hm : cfg.method = "orientation_prior" ∨ cfg.method = "auto" ∧ wellConditioned eig (constraints cfg a gcp useGps) = false)
    (pl : Vec 4) (hpl : estimateGroundPlane minVec kind (views a orient) = some pl)
    (s : ℝ) (hs0 : 0 < s) (Q : Mat 3) (hQ : IsRot Q) (t : Vec 3) (z : ℝ) (hz : 0 < z)
    (hup : Q *ᵥ ![pl 0, pl 1, pl 2] = ![0, 0, z])
    (hp : ∀ p ∈ constraints cfg a gcp useGps, p.2 = s • (Q *ᵥ p.1) + t)
    (hsc : s = 1 ∨ ∀ i, (a.r.shots.filter (fun e => decide (e.2.1 = i))).length ≤ 1)
    (hd : ∃ p ∈ constraints cfg a gcp useGps, ∃ q ∈ constraints cfg a gcp useGps, p.2 0 ≠ q.2 0 ∨ p.2 1 ≠ q.2 1)
    (h1 : 2 / 10 ^ 8 ≤ spread ((constraints cfg a gcp useGps).map (·.1)))
    (h2 : 2 / 100 ≤ spread ((constraints cfg a gcp useGps).map (·.2))) :
    ∃ a', align svd eig (prior svd2 minVec kind (views a orient)) cfg a gcp useGps = (some (s, Q, t), a') ∧ a'.gps = a.gps ∧
      (∀ l, a'.r.points.get? l = (a.r.points.get? l).map (fun x => s • (Q *ᵥ x) + t)) ∧
      (useGps = true → cfg.useGps = true → ∀ i p, a.r.rigInstances.get? i = some p →
        a.r.shots.filterMap (fun e => if e.2.1 = i then a.gps e.1 else none) ≠ [] →
        ∃ p', a'.r.rigInstances.get? i = some p' ∧
          p'.getOrigin = mean (a.r.shots.filterMap (fun e => if e.2.1 = i then a.gps e.1 else none))) := by
  have hscale : useScale a = false → s = 1 := by
    intro h
    rcases hsc with h1 | h1
    · exact h1
    · exfalso
      unfold useScale at h
      rw [Bool.not_eq_false', List.any_eq_true] at h
      obtain ⟨e, -, he⟩ := h
      have := of_decide_eq_true he
      have := h1 e.1
      omega
  have hne : (![pl 0, pl 1, pl 2] : Vec 3) ≠ 0 := by
    intro e
    rw [e, mulVec_zero] at hup
    have := congrFun hup 2
    simp at this
    exact hz.ne this
  obtain ⟨R, hRe, hR, hRn, -⟩ := (C90_horizontal _).2 hne
  have hzn : Real.sqrt (![pl 0, pl 1, pl 2] ⬝ᵥ ![pl 0, pl 1, pl 2]) = z := by
    rw [← rot_dot hQ.1, hup]
    simp [dotProduct, Fin.sum_univ_three, Real.sqrt_mul_self hz.le]
  rw [hzn] at hRn
  have hfit := fitWithUp_exact svd2 hs R hR _ (useScale a) s hs0 Q hQ t _ z hz hRn hup hp hscale hd h1 h2
  have hprior : prior svd2 minVec kind (views a orient) (constraints cfg a gcp useGps) (useScale a) = some (s, Q, t) := by
    unfold prior
    rw [hpl]
    simp only
    rw [hRe]
    exact hfit
  have hsim : similarity svd eig (prior svd2 minVec kind (views a orient)) cfg a gcp useGps (useScale a) = some (s, Q, t) := by
    unfold similarity
    rcases hm with h | ⟨h, hw⟩
    · simp only [h, hprior]
      simp [hs0.ne']
    · simp only [h, hw, hprior]
      simp [hs0.ne']
  refine ⟨{ a with r := applySimilarity a.r s Q t }, ?_, rfl, ?_, ?_⟩
  · unfold align
    rw [hsim]
  · intro l
    exact Verif.Pose.get?_map (fun x => s • (Q *ᵥ x) + t) a.r.points l
  · intro h1 h2 i p hip hl
    obtain ⟨p', hp', e⟩ := applied a hi s Q hQ t i p hip
    refine ⟨p', hp', ?_⟩
    rw [e]
    have := hp (p.getOrigin, mean (a.r.shots.filterMap (fun e => if e.2.1 = i then a.gps e.1 else none)))
      ((C89_constraints cfg a gcp useGps _ _).2 (Or.inr ⟨h1, h2, i, p, (Dict.mem_iff_get? hwf).2 hip, rfl, _, rfl, hl, rfl⟩))
    exact this.symm

/-! ### The ground plane -/

/-- `v` is a unit vector on which the quadratic form is least (a unit eigenvector of the smallest eigenvalue). -/
def IsMin (M : Mat 4) (v : Vec 4) : Prop := v ⬝ᵥ v = 1 ∧ ∀ w : Vec 4, w ⬝ᵥ w = 1 → v ⬝ᵥ (M *ᵥ v) ≤ w ⬝ᵥ (M *ᵥ w)

theorem gram_form (rows : List (Vec 4)) (w : Vec 4) : w ⬝ᵥ (gram rows *ᵥ w) = (rows.map (fun r => (r ⬝ᵥ w) ^ 2)).sum := by
  unfold gram
  induction rows with
  | nil => simp
  | cons r rows ih =>
    simp only [List.map_cons, List.sum_cons, add_mulVec, dotProduct_add, ih]
    congr 1
    rw [vecMulVec_mulVec]
    simp [dotProduct_comm w r]
    ring

theorem form_nonneg (rows : List (Vec 4)) (w : Vec 4) : 0 ≤ (rows.map (fun r => (r ⬝ᵥ w) ^ 2)).sum := by
  apply List.sum_nonneg
  intro x hx
  obtain ⟨r, -, rfl⟩ := List.mem_map.1 hx
  positivity

theorem form_zero (rows : List (Vec 4)) (w : Vec 4) :
    (rows.map (fun r => (r ⬝ᵥ w) ^ 2)).sum = 0 ↔ ∀ r ∈ rows, r ⬝ᵥ w = 0 := by
  induction rows with
  | nil => simp
  | cons r rows ih =>
    simp only [List.map_cons, List.sum_cons, List.mem_cons, forall_eq_or_imp]
    have h0 := form_nonneg rows w
    have h1 : 0 ≤ (r ⬝ᵥ w) ^ 2 := by positivity
    rw [← ih]
    constructor
    · intro h
      exact ⟨by nlinarith, by linarith⟩
    · rintro ⟨h, h'⟩
      rw [h, h']
      ring

/-- The rows of the linear system vanish on `w` exactly if the centred points and the vectors are on the plane. -/
theorem rows_zero (origins vectors : List (Vec 3)) (hne : origins ≠ []) (w : Vec 4) :
    (∀ r ∈ planeRows (origins.map (fun x => x - mean origins)) vectors, r ⬝ᵥ w = 0) ↔
      w 3 = 0 ∧ (∀ x ∈ origins, (x - mean origins) ⬝ᵥ ![w 0, w 1, w 2] = 0) ∧ ∀ v ∈ vectors, v ⬝ᵥ ![w 0, w 1, w 2] = 0 := by
  unfold planeRows
  simp only
  set s := 1 / max (1 / 10 ^ 8) (stdAll (origins.map (fun x => x - mean origins))) with hsd
  have hs : 0 < s := by
    rw [hsd]
    apply div_pos one_pos
    exact lt_of_lt_of_le (by norm_num) (le_max_left _ _)
  have hrow : ∀ (x : Vec 3) (e : ℝ), ![s * x 0, s * x 1, s * x 2, e] ⬝ᵥ w = s * (x ⬝ᵥ ![w 0, w 1, w 2]) + e * w 3 := by
    intro x e
    simp [dotProduct, Fin.sum_univ_three, Fin.sum_univ_four]
    ring
  constructor
  · intro h
    have hp : ∀ x ∈ origins, s * ((x - mean origins) ⬝ᵥ ![w 0, w 1, w 2]) + w 3 = 0 := by
      intro x hx
      have := h _ (List.mem_append_left _ (List.mem_map.2 ⟨_, List.mem_map.2 ⟨x, hx, rfl⟩, rfl⟩))
      rwa [hrow, one_mul] at this
    have hsum : ∀ l : List (Vec 3), (∀ x ∈ l, s * ((x - mean origins) ⬝ᵥ ![w 0, w 1, w 2]) + w 3 = 0) →
        s * ((l.map (fun x => x - mean origins)).sum ⬝ᵥ ![w 0, w 1, w 2]) + l.length * w 3 = 0 := by
      intro l hl
      induction l with
      | nil => simp
      | cons x l ih =>
        have h1 := hl x List.mem_cons_self
        have h2 := ih (fun y hy => hl y (List.mem_cons_of_mem _ hy))
        simp only [List.map_cons, List.sum_cons, add_dotProduct, List.length_cons]
        push_cast
        linarith
    have h3 := hsum origins hp
    rw [sum_centred, zero_dotProduct, mul_zero, zero_add] at h3
    have hw : w 3 = 0 := by
      rcases mul_eq_zero.1 h3 with h3 | h3
      · exact absurd (List.length_eq_zero_iff.1 (by exact_mod_cast h3)) hne
      · exact h3
    refine ⟨hw, ?_, ?_⟩
    · intro x hx
      have := hp x hx
      rw [hw, add_zero] at this
      exact (mul_eq_zero.1 this).resolve_left hs.ne'
    · intro v hv
      have := h _ (List.mem_append_right _ (List.mem_map.2 ⟨v, hv, rfl⟩))
      rw [hrow, zero_mul, add_zero] at this
      exact (mul_eq_zero.1 this).resolve_left hs.ne'
  · rintro ⟨h3, hp, hv⟩ r hr
    rcases List.mem_append.1 hr with hr | hr
    · obtain ⟨y, hy, rfl⟩ := List.mem_map.1 hr
      obtain ⟨x, hx, rfl⟩ := List.mem_map.1 hy
      rw [hrow, hp x hx, h3]
      ring
    · obtain ⟨v, hv', rfl⟩ := List.mem_map.1 hr
      rw [hrow, hv v hv', h3]
      ring

/-- The ground plane of exact data: if all camera positions have the same height and the assumed directions are horizontal
for one vertical direction only, the plane is the horizontal one, turned to the side of the majority of the verticals; without
majority there is no plane. -/
theorem C90_plane (minVec : Mat 4 → Vec 4) (hmin : ∀ M, IsMin M (minVec M)) (kind : String) (vs : List View) (hne : vs ≠ [])
    (n : Vec 3) (hn : n ⬝ᵥ n = 1)
    (hpos : ∀ v ∈ vs, ∀ w ∈ vs, (v.origin - w.origin) ⬝ᵥ n = 0)
    (hdir : ∀ v ∈ vs, ∀ x ∈ onplane kind v, x ⬝ᵥ n = 0)
    (hspan : ∀ m : Vec 3, (∀ v ∈ vs, ∀ w ∈ vs, (v.origin - w.origin) ⬝ᵥ m = 0) →
      (∀ v ∈ vs, ∀ x ∈ onplane kind v, x ⬝ᵥ m = 0) → ∃ c : ℝ, m = c • n)
    (hv : ∃ v ∈ vs, verticals kind v ≠ []) :
    let d := ((vs.flatMap (verticals kind)).map (fun x => x ⬝ᵥ n)).sum
    (0 < d → estimateGroundPlane minVec kind vs = some ![n 0, n 1, n 2, 0]) ∧
    (d < 0 → estimateGroundPlane minVec kind vs = some ![-n 0, -n 1, -n 2, 0]) ∧
    (d = 0 → estimateGroundPlane minVec kind vs = some 0) := by
  intro d
  set origins := vs.map (·.origin) with ho
  have hone : origins ≠ [] := by simpa [ho] using hne
  have hlpos : (origins.length : ℝ) ≠ 0 := by
    have := List.length_pos_of_ne_nil hone
    positivity
  -- a vector is orthogonal to all differences iff to all centred points
  have hcent : ∀ m : Vec 3, (∀ v ∈ vs, ∀ w ∈ vs, (v.origin - w.origin) ⬝ᵥ m = 0) ↔
      ∀ x ∈ origins, (x - mean origins) ⬝ᵥ m = 0 := by
    intro m
    constructor
    · intro h x hx
      obtain ⟨v, hvm, rfl⟩ := List.mem_map.1 hx
      have hs : ∀ l : List View, (∀ w ∈ l, w ∈ vs) →
          (l.map (·.origin)).sum ⬝ᵥ m = l.length * (v.origin ⬝ᵥ m) := by
        intro l hl
        induction l with
        | nil => simp
        | cons w l ih =>
          have h1 := h v hvm w (hl w List.mem_cons_self)
          rw [sub_dotProduct] at h1
          simp only [List.map_cons, List.sum_cons, add_dotProduct, List.length_cons,
            ih (fun y hy => hl y (List.mem_cons_of_mem _ hy))]
          push_cast
          linarith
      have := hs vs (fun _ h => h)
      rw [sub_dotProduct]
      unfold mean
      rw [smul_dotProduct, ← ho] at *
      rw [this, ho, List.length_map, smul_eq_mul]
      rw [ho, List.length_map] at hlpos
      field_simp
      ring
    · intro h v hv w hw
      have h1 := h _ (List.mem_map.2 ⟨v, hv, rfl⟩)
      have h2 := h _ (List.mem_map.2 ⟨w, hw, rfl⟩)
      rw [sub_dotProduct] at *
      linarith
  set rows := planeRows (origins.map (fun x => x - mean origins)) (vs.flatMap (onplane kind)) with hrd
  have hz := rows_zero origins (vs.flatMap (onplane kind)) hone
  set p := minVec (gram rows) with hpd
  obtain ⟨hp1, hpm⟩ := hmin (gram rows)
  rw [← hpd] at hp1 hpm
  have hn4 : (![n 0, n 1, n 2, 0] : Vec 4) ⬝ᵥ ![n 0, n 1, n 2, 0] = 1 := by
    rw [← hn]
    simp [dotProduct, Fin.sum_univ_three, Fin.sum_univ_four]
  have hn3 : (![n 0, n 1, n 2] : Vec 3) = n := by
    ext i
    fin_cases i <;> rfl
  have hnz : ∀ r ∈ rows, r ⬝ᵥ ![n 0, n 1, n 2, 0] = 0 := by
    rw [hrd, hz]
    refine ⟨by simp, ?_, ?_⟩
    · have := (hcent n).1 hpos
      intro x hx
      have h := this x hx
      rw [← hn3] at h
      simpa using h
    · intro x hx
      obtain ⟨v, hvm, hx⟩ := List.mem_flatMap.1 hx
      have h := hdir v hvm x hx
      rw [← hn3] at h
      simpa using h
  have hpz : ∀ r ∈ rows, r ⬝ᵥ p = 0 := by
    have h1 := hpm _ hn4
    rw [gram_form, gram_form, (form_zero rows _).2 hnz] at h1
    exact (form_zero rows p).1 (le_antisymm h1 (form_nonneg rows p))
  rw [hrd, hz] at hpz
  obtain ⟨hp3, hpo, hpv⟩ := hpz
  obtain ⟨c, hc⟩ := hspan ![p 0, p 1, p 2] ((hcent _).2 hpo)
    (fun v hv x hx => hpv x (List.mem_flatMap.2 ⟨v, hv, hx⟩))
  have c0 : p 0 = c * n 0 := by simpa using congrFun hc 0
  have c1 : p 1 = c * n 1 := by simpa using congrFun hc 1
  have c2 : p 2 = c * n 2 := by simpa using congrFun hc 2
  have hnn : n 0 ^ 2 + n 1 ^ 2 + n 2 ^ 2 = 1 := by
    rw [← hn]
    simp [dotProduct, Fin.sum_univ_three]
    ring
  have hcc : c ^ 2 = 1 := by
    have : p 0 ^ 2 + p 1 ^ 2 + p 2 ^ 2 + p 3 ^ 2 = 1 := by
      rw [← hp1]
      simp [dotProduct, Fin.sum_univ_four]
      ring
    rw [c0, c1, c2, hp3] at this
    nlinarith
  have hsmall : ¬ (|p 0| ≤ 1 / 10 ^ 8 ∧ |p 1| ≤ 1 / 10 ^ 8 ∧ |p 2| ≤ 1 / 10 ^ 8) := by
    rintro ⟨h0, h1, h2⟩
    have e0 := sq_le_sq' (neg_le_of_abs_le h0) (le_of_abs_le h0)
    have e1 := sq_le_sq' (neg_le_of_abs_le h1) (le_of_abs_le h1)
    have e2 := sq_le_sq' (neg_le_of_abs_le h2) (le_of_abs_le h2)
    have : p 0 ^ 2 + p 1 ^ 2 + p 2 ^ 2 = 1 := by
      rw [c0, c1, c2]
      nlinarith
    norm_num at e0 e1 e2
    linarith
  have hverts : 0 < (vs.flatMap (verticals kind)).length := by
    obtain ⟨v, hvm, hv⟩ := hv
    apply List.length_pos_of_ne_nil
    intro e
    rw [List.flatMap_eq_nil_iff] at e
    exact hv (e v hvm)
  have hsum : ((vs.flatMap (verticals kind)).map (fun v => ![p 0, p 1, p 2] ⬝ᵥ v)).sum = c * d := by
    rw [hc, ← List.sum_map_mul_left]
    congr 1
    apply List.map_congr_left
    intro v _
    rw [smul_dotProduct, dotProduct_comm, smul_eq_mul]
  have hres : estimateGroundPlane minVec kind vs = some (((SignType.sign (c * d) : SignType) : ℝ) • p) := by
    unfold estimateGroundPlane
    rw [if_neg hne]
    simp only
    rw [← ho]
    unfold fitPlane
    simp only
    rw [← hrd, ← hpd, if_neg hsmall, if_pos hverts, hsum]
  have hp4 : p = c • ![n 0, n 1, n 2, 0] := by
    ext i
    fin_cases i <;> simp [c0, c1, c2, hp3]
  have hc1 : c = 1 ∨ c = -1 := by
    have : (c - 1) * (c + 1) = 0 := by linarith
    rcases mul_eq_zero.1 this with h | h
    · exact Or.inl (by linarith)
    · exact Or.inr (by linarith)
  rw [hp4] at hres
  rcases hc1 with rfl | rfl
  · refine ⟨fun h => ?_, fun h => ?_, fun h => ?_⟩
    · rw [hres, one_mul, sign_pos h]
      simp
    · rw [hres, one_mul, sign_neg h]
      simp
    · rw [hres, one_mul, h, sign_zero]
      simp
  · refine ⟨fun h => ?_, fun h => ?_, fun h => ?_⟩
    · rw [hres, neg_one_mul, sign_neg (by linarith)]
      simp
    · rw [hres, neg_one_mul, sign_pos (by linarith)]
      simp
    · rw [hres, neg_one_mul, h, neg_zero, sign_zero]
      simp

/-- Such an eigenvector exists for every matrix. -/
theorem C90_min : ∃ minVec : Mat 4 → Vec 4, ∀ M, IsMin M (minVec M) := by
  have h : ∀ M : Mat 4, ∃ v, IsMin M v := by
    intro M
    have hclosed : IsClosed {v : Vec 4 | v ⬝ᵥ v = 1} := by
      apply isClosed_eq _ continuous_const
      simp only [dotProduct]
      fun_prop
    have hbdd : Bornology.IsBounded {v : Vec 4 | v ⬝ᵥ v = 1} := by
      rw [Metric.isBounded_iff_subset_closedBall 0]
      refine ⟨1, ?_⟩
      intro v hv
      rw [mem_closedBall_zero_iff, pi_norm_le_iff_of_nonneg zero_le_one]
      intro i
      rw [Real.norm_eq_abs]
      apply abs_le_of_sq_le_sq _ zero_le_one
      have hv' : v ⬝ᵥ v = 1 := hv
      rw [one_pow, ← hv']
      simp only [dotProduct]
      rw [sq]
      exact Finset.single_le_sum (f := fun i => v i * v i) (fun j _ => mul_self_nonneg (v j)) (Finset.mem_univ i)
    have hne : ({v : Vec 4 | v ⬝ᵥ v = 1}).Nonempty :=
      ⟨![1, 0, 0, 0], by simp [dotProduct, Fin.sum_univ_four]⟩
    have hcont : ContinuousOn (fun v : Vec 4 => v ⬝ᵥ (M *ᵥ v)) {v : Vec 4 | v ⬝ᵥ v = 1} := by
      apply Continuous.continuousOn
      simp only [dotProduct, mulVec]
      fun_prop
    obtain ⟨v, hv, hm⟩ := (Metric.isCompact_of_isClosed_isBounded hclosed hbdd).exists_isMinOn hne hcont
    exact ⟨v, hv, fun w hw => hm hw⟩
  exact ⟨fun M => (h M).choose, fun M => (h M).choose_spec⟩

/-! ### The orientation tag -/

/-- A side of the picture as it should be shown. -/
inductive Side where
  | top | bottom | left | right

/-- The meaning of the EXIF orientation tag: on which side the first row and the first column of the stored picture are. -/
def exifSides : ℤ → Option (Side × Side)
  | 1 => some (.top, .left)
  | 2 => some (.top, .right)
  | 3 => some (.bottom, .right)
  | 4 => some (.bottom, .left)
  | 5 => some (.left, .top)
  | 6 => some (.right, .top)
  | 7 => some (.right, .bottom)
  | 8 => some (.left, .bottom)
  | _ => none

/-- The direction from the side `a`, where a row or column of the stored picture starts, when its index grows along `d`: the
component `rightward`. -/
def rightward (R : Mat 3) : Side × Side → Vec 3
  | (_, .left) => R 0
  | (_, .right) => -R 0
  | (.left, _) => R 1
  | (.right, _) => -R 1
  | _ => 0

/-- The direction of the bottom of the shown picture. -/
def downward (R : Mat 3) : Side × Side → Vec 3
  | (.top, _) => R 1
  | (.bottom, _) => -R 1
  | (_, .top) => R 0
  | (_, .bottom) => -R 0
  | _ => 0

theorem exif_range {o : ℤ} {q : Side × Side} (h : exifSides o = some q) :
    o = 1 ∨ o = 2 ∨ o = 3 ∨ o = 4 ∨ o = 5 ∨ o = 6 ∨ o = 7 ∨ o = 8 := by
  unfold exifSides at h
  split at h <;> simp_all

/-- For every EXIF orientation the right and down directions are those of the shown picture, but for the mirrored tags 2, 5
and 7 the direction called front points to the back of the camera. Unknown tags are treated as 1. -/
theorem C90_axes (R : Mat 3) (o : ℤ) :
    (∀ q, exifSides o = some q → directions R o =
      (rightward R q, downward R q, if o = 2 ∨ o = 5 ∨ o = 7 then -R 2 else R 2)) ∧
    (exifSides o = none → directions R o = (R 0, R 1, R 2)) := by
  constructor
  · intro q h
    rcases exif_range h with rfl | rfl | rfl | rfl | rfl | rfl | rfl | rfl <;>
      (simp only [exifSides, Option.some.injEq] at h; subst h; simp [directions, rightward, downward])
  · intro h
    have hne : ∀ k : ℤ, (exifSides k).isSome → o ≠ k := by
      rintro k hk rfl
      rw [h] at hk
      exact absurd hk (by simp)
    unfold directions
    rw [if_neg (hne 1 rfl), if_neg (hne 2 rfl), if_neg (hne 3 rfl), if_neg (hne 4 rfl), if_neg (hne 5 rfl),
      if_neg (hne 6 rfl), if_neg (hne 7 rfl), if_neg (hne 8 rfl)]

/-! ### Level cameras, cameras looking down -/

theorem rows_expand {R : Mat 3} (h : IsRot R) (m : Vec 3) : m = (R 0 ⬝ᵥ m) • R 0 + (R 1 ⬝ᵥ m) • R 1 + (R 2 ⬝ᵥ m) • R 2 := by
  have e : m = Rᵀ *ᵥ (R *ᵥ m) := by rw [mulVec_mulVec, h.1, one_mulVec]
  conv_lhs => rw [e]
  ext i
  simp only [mulVec, dotProduct, Fin.sum_univ_three, transpose_apply, Pi.add_apply, Pi.smul_apply, smul_eq_mul]
  ring

/-- Two vectors orthogonal to the same two rows of a rotation are parallel. -/
theorem parallel {R : Mat 3} (h : IsRot R) (m n : Vec 3) (hn : n ⬝ᵥ n = 1) (i j : Fin 3) (hij : i ≠ j)
    (hm : R i ⬝ᵥ m = 0 ∧ R j ⬝ᵥ m = 0) (hn' : R i ⬝ᵥ n = 0 ∧ R j ⬝ᵥ n = 0) : ∃ c : ℝ, m = c • n := by
  have key : ∀ (k : Fin 3), m = (R k ⬝ᵥ m) • R k → n = (R k ⬝ᵥ n) • R k → ∃ c : ℝ, m = c • n := by
    intro k h1 h2
    have h0 : R k ⬝ᵥ n ≠ 0 := by
      intro e
      rw [e, zero_smul] at h2
      rw [h2] at hn
      simp at hn
    refine ⟨(R k ⬝ᵥ m) / (R k ⬝ᵥ n), ?_⟩
    have h3 : R k = (R k ⬝ᵥ n)⁻¹ • n := by
      rw [eq_inv_smul_iff₀ h0]
      exact h2.symm
    refine h1.trans ?_
    rw [div_eq_mul_inv, ← smul_smul, ← h3]
  have e1 := rows_expand h m
  have e2 := rows_expand h n
  fin_cases i <;> fin_cases j <;> simp at hij hm hn'
  · exact key 2 (by rw [hm.1, hm.2] at e1; simpa using e1) (by rw [hn'.1, hn'.2] at e2; simpa using e2)
  · exact key 1 (by rw [hm.1, hm.2] at e1; simpa using e1) (by rw [hn'.1, hn'.2] at e2; simpa using e2)
  · exact key 2 (by rw [hm.1, hm.2] at e1; simpa using e1) (by rw [hn'.1, hn'.2] at e2; simpa using e2)
  · exact key 0 (by rw [hm.1, hm.2] at e1; simpa using e1) (by rw [hn'.1, hn'.2] at e2; simpa using e2)
  · exact key 1 (by rw [hm.1, hm.2] at e1; simpa using e1) (by rw [hn'.1, hn'.2] at e2; simpa using e2)
  · exact key 0 (by rw [hm.1, hm.2] at e1; simpa using e1) (by rw [hn'.1, hn'.2] at e2; simpa using e2)

/-- The picture, shown as its tag says, is level: right and front are horizontal, down is down. -/
def Level (n : Vec 3) (v : View) (o : ℤ) : Prop :=
  IsRot v.R ∧ ∃ q, exifSides o = some q ∧ rightward v.R q ⬝ᵥ n = 0 ∧ v.R 2 ⬝ᵥ n = 0 ∧ downward v.R q ⬝ᵥ n < 0

/-- The camera looks straight down. -/
def LooksDown (n : Vec 3) (v : View) (o : ℤ) : Prop :=
  IsRot v.R ∧ ∃ q, exifSides o = some q ∧ rightward v.R q ⬝ᵥ n = 0 ∧ downward v.R q ⬝ᵥ n = 0 ∧ v.R 2 ⬝ᵥ n < 0

theorem sum_sign (l : List (Vec 3)) (n : Vec 3) (hne : l ≠ []) (h : ∀ x ∈ l, 0 < x ⬝ᵥ n) : 0 < (l.map (fun x => x ⬝ᵥ n)).sum := by
  apply List.sum_pos
  · intro x hx
    obtain ⟨y, hy, rfl⟩ := List.mem_map.1 hx
    exact h y hy
  · simpa using hne

theorem sum_sign_neg (l : List (Vec 3)) (n : Vec 3) (hne : l ≠ []) (h : ∀ x ∈ l, x ⬝ᵥ n < 0) : (l.map (fun x => x ⬝ᵥ n)).sum < 0 := by
  have := sum_sign l (-n) hne (fun x hx => by rw [dotProduct_neg]; linarith [h x hx])
  have e : (l.map (fun x => x ⬝ᵥ -n)).sum = -(l.map (fun x => x ⬝ᵥ n)).sum := by
    clear this h hne
    induction l with
    | nil => simp
    | cons a l ih =>
      rw [List.map_cons, List.sum_cons, ih, List.map_cons, List.sum_cons, dotProduct_neg]
      ring
  linarith

/-- **Level cameras.** With the `horizontal` prior, if all cameras have the same height and all those that have an orientation
tag take level pictures, the plane is the horizontal one with its normal up, for every choice of tags. -/
theorem C90_level (minVec : Mat 4 → Vec 4) (hmin : ∀ M, IsMin M (minVec M)) (vs : List View) (n : Vec 3) (hn : n ⬝ᵥ n = 1)
    (hpos : ∀ v ∈ vs, ∀ w ∈ vs, (v.origin - w.origin) ⬝ᵥ n = 0)
    (hlev : ∀ v ∈ vs, ∀ o, v.orientation = some o → Level n v o) (hsome : ∃ v ∈ vs, v.orientation.isSome) :
    estimateGroundPlane minVec "horizontal" vs = some ![n 0, n 1, n 2, 0] := by
  have hon : ∀ v ∈ vs, ∀ x ∈ onplane "horizontal" v, x ⬝ᵥ n = 0 := by
    intro v hv x hx
    unfold onplane at hx
    cases ho : v.orientation with
    | none => rw [ho] at hx; exact absurd hx (by simp)
    | some o =>
      rw [ho] at hx
      obtain ⟨-, q, hq, h1, h2, -⟩ := hlev v hv o ho
      simp only [(C90_axes v.R o).1 q hq, String.reduceEq, if_false, if_true, List.mem_cons, List.not_mem_nil, or_false] at hx
      rcases hx with rfl | rfl
      · exact h1
      · split
        · rw [neg_dotProduct, h2, neg_zero]
        · exact h2
  have hvert : ∀ v ∈ vs, ∀ x ∈ verticals "horizontal" v, 0 < x ⬝ᵥ n := by
    intro v hv x hx
    unfold verticals at hx
    cases ho : v.orientation with
    | none => rw [ho] at hx; exact absurd hx (by simp)
    | some o =>
      rw [ho] at hx
      obtain ⟨-, q, hq, -, -, h3⟩ := hlev v hv o ho
      simp only [(C90_axes v.R o).1 q hq, String.reduceEq, if_false, if_true, List.mem_cons, List.not_mem_nil, or_false] at hx
      rw [hx, neg_dotProduct]
      linarith
  obtain ⟨v, hv, hso⟩ := hsome
  obtain ⟨o, ho⟩ := Option.isSome_iff_exists.1 hso
  have hvn : verticals "horizontal" v ≠ [] := by
    unfold verticals
    rw [ho]
    simp
  have hfl : vs.flatMap (verticals "horizontal") ≠ [] := by
    intro e
    rw [List.flatMap_eq_nil_iff] at e
    exact hvn (e v hv)
  refine (C90_plane minVec hmin "horizontal" vs (List.ne_nil_of_mem hv) n hn hpos hon ?_ ⟨v, hv, hvn⟩).1
    (sum_sign _ n hfl (fun x hx => ?_))
  · intro m _ hm
    have h1 := hon v hv
    have h2 := hm v hv
    obtain ⟨hR, q, hq, -⟩ := hlev v hv o ho
    unfold onplane at h1 h2
    rw [ho] at h1 h2
    rcases exif_range hq with rfl | rfl | rfl | rfl | rfl | rfl | rfl | rfl <;>
      simp [directions] at h1 h2
    · exact parallel hR m n hn 0 2 (by decide) h2 h1
    · exact parallel hR m n hn 0 2 (by decide) h2 h1
    · exact parallel hR m n hn 0 2 (by decide) h2 h1
    · exact parallel hR m n hn 0 2 (by decide) h2 h1
    · exact parallel hR m n hn 1 2 (by decide) h2 h1
    · exact parallel hR m n hn 1 2 (by decide) h2 h1
    · exact parallel hR m n hn 1 2 (by decide) h2 h1
    · exact parallel hR m n hn 1 2 (by decide) h2 h1
  · obtain ⟨w, hw, hx⟩ := List.mem_flatMap.1 hx
    exact hvert w hw x hx

/-- **Cameras without roll.** With the `no_roll` prior, if all cameras have the same height and the pictures, shown as their tags say,
have a horizontal right direction and a down direction below the horizon, and if the right directions and the positions leave no other
plane, the plane is the horizontal one with its normal up. The cameras may look up or down. -/
theorem C90_noroll (minVec : Mat 4 → Vec 4) (hmin : ∀ M, IsMin M (minVec M)) (vs : List View) (n : Vec 3) (hn : n ⬝ᵥ n = 1)
    (hpos : ∀ v ∈ vs, ∀ w ∈ vs, (v.origin - w.origin) ⬝ᵥ n = 0)
    (hlev : ∀ v ∈ vs, ∀ o, v.orientation = some o → ∃ q, exifSides o = some q ∧ rightward v.R q ⬝ᵥ n = 0 ∧ downward v.R q ⬝ᵥ n < 0)
    (hspan : ∀ m : Vec 3, (∀ v ∈ vs, ∀ w ∈ vs, (v.origin - w.origin) ⬝ᵥ m = 0) →
      (∀ v ∈ vs, ∀ o q, v.orientation = some o → exifSides o = some q → rightward v.R q ⬝ᵥ m = 0) → ∃ c : ℝ, m = c • n)
    (hsome : ∃ v ∈ vs, v.orientation.isSome) :
    estimateGroundPlane minVec "no_roll" vs = some ![n 0, n 1, n 2, 0] := by
  have hon : ∀ v ∈ vs, ∀ x ∈ onplane "no_roll" v, x ⬝ᵥ n = 0 := by
    intro v hv x hx
    unfold onplane at hx
    cases ho : v.orientation with
    | none => rw [ho] at hx; exact absurd hx (by simp)
    | some o =>
      rw [ho] at hx
      obtain ⟨q, hq, h1, -⟩ := hlev v hv o ho
      simp only [(C90_axes v.R o).1 q hq, if_true, List.mem_cons, List.not_mem_nil, or_false] at hx
      rw [hx]; exact h1
  have hvert : ∀ v ∈ vs, ∀ x ∈ verticals "no_roll" v, 0 < x ⬝ᵥ n := by
    intro v hv x hx
    unfold verticals at hx
    cases ho : v.orientation with
    | none => rw [ho] at hx; exact absurd hx (by simp)
    | some o =>
      rw [ho] at hx
      obtain ⟨q, hq, -, h3⟩ := hlev v hv o ho
      simp only [(C90_axes v.R o).1 q hq, if_true, List.mem_cons, List.not_mem_nil, or_false] at hx
      rw [hx, neg_dotProduct]
      linarith
  obtain ⟨v, hv, hso⟩ := hsome
  obtain ⟨o, ho⟩ := Option.isSome_iff_exists.1 hso
  have hvn : verticals "no_roll" v ≠ [] := by
    unfold verticals
    rw [ho]
    simp
  have hfl : vs.flatMap (verticals "no_roll") ≠ [] := by
    intro e
    rw [List.flatMap_eq_nil_iff] at e
    exact hvn (e v hv)
  refine (C90_plane minVec hmin "no_roll" vs (List.ne_nil_of_mem hv) n hn hpos hon ?_ ⟨v, hv, hvn⟩).1
    (sum_sign _ n hfl (fun x hx => ?_))
  · intro m h1 hm
    refine hspan m h1 (fun w hw o' q ho' hq => hm w hw _ ?_)
    unfold onplane
    rw [ho']
    simp only [(C90_axes w.R o').1 q hq, if_true, List.mem_cons, List.not_mem_nil, or_false]
  · obtain ⟨w, hw, hx⟩ := List.mem_flatMap.1 hx
    exact hvert w hw x hx

/-- **What is seen of a shot.** If the poses are rigid, the views the plane is estimated from are the shots whose rig instance and rig
camera exist, and each has the camera centre and the axes of its shot: `R (x - origin)` are the coordinates of `x` in the camera. -/
theorem C90_views (a : ARec Id) (orient : Id → Option ℤ)
    (hi : ∀ i p, a.r.rigInstances.get? i = some p → Verif.Pose.Rigid p) (hc : ∀ i p, a.r.rigCameras.get? i = some p → Verif.Pose.Rigid p) :
    (∀ v ∈ views a orient, ∃ (sh i c : Id) (pi pc : Pose ℝ), a.r.shots.get? sh = some (i, c) ∧ a.r.rigInstances.get? i = some pi ∧
      a.r.rigCameras.get? c = some pc ∧ v.orientation = orient sh ∧ ∀ x, v.R *ᵥ (x - v.origin) = pc.transform (pi.transform x)) ∧
    (∀ (sh i c : Id) (pi pc : Pose ℝ), a.r.shots.get? sh = some (i, c) → a.r.rigInstances.get? i = some pi →
      a.r.rigCameras.get? c = some pc → ∃ v ∈ views a orient, v.orientation = orient sh ∧
        ∀ x, v.R *ᵥ (x - v.origin) = pc.transform (pi.transform x)) := by
  have key : ∀ pi pc : Pose ℝ, Verif.Pose.Rigid pi → Verif.Pose.Rigid pc → ∀ x,
      (pc.compose pi).wcR *ᵥ (x - (pc.compose pi).getOrigin) = pc.transform (pi.transform x) := by
    intro pi pc h1 h2 x
    have hr := Verif.Pose.Cons.compose ((Verif.Pose.rigid_iff_cons _).1 h2) ((Verif.Pose.rigid_iff_cons _).1 h1)
    have h3 := ((Verif.Pose.rigid_iff_cons _).2 hr).2.2 0
    have h4 : (pc.compose pi).wcR *ᵥ (pc.compose pi).getOrigin + (pc.compose pi).wcT = 0 := by
      simpa [Pose.transform, Pose.transformInverse, Pose.getOrigin] using h3
    rw [mulVec_sub, eq_neg_of_add_eq_zero_left h4, sub_neg_eq_add]
    simp only [Pose.compose, Pose.ofWorldToCamera, Pose.transform, mulVec_add, mulVec_mulVec, add_assoc]
  constructor
  · intro v hv
    unfold views at hv
    obtain ⟨e, he, hv⟩ := List.mem_filterMap.1 hv
    rw [Option.map_eq_some_iff] at hv
    obtain ⟨p, hp, rfl⟩ := hv
    unfold Recon.shotPose at hp
    split at hp
    · exact absurd hp (by simp)
    · rename_i i c hsh
      split at hp
      · rename_i pi pc h1 h2
        rw [Option.some.injEq] at hp
        subst hp
        exact ⟨e.1, i, c, pi, pc, hsh, h1, h2, rfl, key pi pc (hi i pi h1) (hc c pc h2)⟩
      · exact absurd hp (by simp)
  · intro sh i c pi pc h0 h1 h2
    refine ⟨⟨(pc.compose pi).getOrigin, (pc.compose pi).wcR, orient sh⟩, ?_, rfl, key pi pc (hi i pi h1) (hc c pc h2)⟩
    unfold views
    rw [List.mem_filterMap]
    refine ⟨(sh, (i, c)), Dict.mem_of_get? h0, ?_⟩
    unfold Recon.shotPose
    simp only [h0, h1, h2, Option.map_some]

/-- **Cameras looking down.** With the `vertical` prior, if all cameras have the same height and look straight down, the normal
points up when no picture is mirrored – and down when all of them have one of the mirrored tags 2, 5, 7. -/
theorem C90_down (minVec : Mat 4 → Vec 4) (hmin : ∀ M, IsMin M (minVec M)) (vs : List View) (n : Vec 3) (hn : n ⬝ᵥ n = 1)
    (hpos : ∀ v ∈ vs, ∀ w ∈ vs, (v.origin - w.origin) ⬝ᵥ n = 0)
    (hlev : ∀ v ∈ vs, ∀ o, v.orientation = some o → LooksDown n v o) (hsome : ∃ v ∈ vs, v.orientation.isSome) :
    ((∀ v ∈ vs, ∀ o, v.orientation = some o → o = 1 ∨ o = 3 ∨ o = 4 ∨ o = 6 ∨ o = 8) →
      estimateGroundPlane minVec "vertical" vs = some ![n 0, n 1, n 2, 0]) ∧
    ((∀ v ∈ vs, ∀ o, v.orientation = some o → o = 2 ∨ o = 5 ∨ o = 7) →
      estimateGroundPlane minVec "vertical" vs = some ![-n 0, -n 1, -n 2, 0]) := by
  have hon : ∀ v ∈ vs, ∀ x ∈ onplane "vertical" v, x ⬝ᵥ n = 0 := by
    intro v hv x hx
    unfold onplane at hx
    cases ho : v.orientation with
    | none => rw [ho] at hx; exact absurd hx (by simp)
    | some o =>
      rw [ho] at hx
      obtain ⟨-, q, hq, h1, h2, -⟩ := hlev v hv o ho
      simp only [(C90_axes v.R o).1 q hq, String.reduceEq, if_false, if_true, List.mem_cons, List.not_mem_nil, or_false] at hx
      rcases hx with rfl | rfl
      · exact h1
      · exact h2
  have hvert : ∀ v ∈ vs, ∀ x ∈ verticals "vertical" v, ∃ o, v.orientation = some o ∧
      (if o = 2 ∨ o = 5 ∨ o = 7 then x ⬝ᵥ n < 0 else 0 < x ⬝ᵥ n) := by
    intro v hv x hx
    unfold verticals at hx
    cases ho : v.orientation with
    | none => rw [ho] at hx; exact absurd hx (by simp)
    | some o =>
      rw [ho] at hx
      obtain ⟨-, q, hq, -, -, h3⟩ := hlev v hv o ho
      refine ⟨o, rfl, ?_⟩
      simp only [(C90_axes v.R o).1 q hq, String.reduceEq, if_false, if_true, List.mem_cons, List.not_mem_nil, or_false] at hx
      split
      · rename_i hc
        rw [if_pos hc, neg_neg] at hx
        rw [hx]
        exact h3
      · rename_i hc
        rw [if_neg hc] at hx
        rw [hx, neg_dotProduct]
        linarith
  obtain ⟨v, hv, hso⟩ := hsome
  obtain ⟨o, ho⟩ := Option.isSome_iff_exists.1 hso
  have hvn : verticals "vertical" v ≠ [] := by
    unfold verticals
    rw [ho]
    simp
  have hfl : vs.flatMap (verticals "vertical") ≠ [] := by
    intro e
    rw [List.flatMap_eq_nil_iff] at e
    exact hvn (e v hv)
  have hplane := C90_plane minVec hmin "vertical" vs (List.ne_nil_of_mem hv) n hn hpos hon (by
    intro m _ hm
    have h1 := hon v hv
    have h2 := hm v hv
    obtain ⟨hR, q, hq, -⟩ := hlev v hv o ho
    unfold onplane at h1 h2
    rw [ho] at h1 h2
    rcases exif_range hq with rfl | rfl | rfl | rfl | rfl | rfl | rfl | rfl <;>
      simp [directions] at h1 h2
    · exact parallel hR m n hn 0 1 (by decide) h2 h1
    · exact parallel hR m n hn 0 1 (by decide) h2 h1
    · exact parallel hR m n hn 0 1 (by decide) h2 h1
    · exact parallel hR m n hn 0 1 (by decide) h2 h1
    · exact parallel hR m n hn 1 0 (by decide) h2 h1
    · exact parallel hR m n hn 1 0 (by decide) h2 h1
    · exact parallel hR m n hn 1 0 (by decide) h2 h1
    · exact parallel hR m n hn 1 0 (by decide) h2 h1) ⟨v, hv, hvn⟩
  constructor
  · intro hu
    apply hplane.1
    apply sum_sign _ n hfl
    intro x hx
    obtain ⟨w, hw, hx⟩ := List.mem_flatMap.1 hx
    obtain ⟨o', ho', h⟩ := hvert w hw x hx
    rw [if_neg (by rcases hu w hw o' ho' with h | h | h | h | h <;> omega)] at h
    exact h
  · intro hu
    apply hplane.2.1
    apply sum_sign_neg _ n hfl
    intro x hx
    obtain ⟨w, hw, hx⟩ := List.mem_flatMap.1 hx
    obtain ⟨o', ho', h⟩ := hvert w hw x hx
    rw [if_pos (hu w hw o' ho')] at h
    exact h

/-! ### Few or coinciding positions -/

/-- Without positions the reconstruction is only turned; with one position, or several that coincide, it is moved so that the
means agree and keeps its scale – except that with exactly two constraints that are more than 1000 m away it is shrunk,
even when the scale is that of a rig. -/
theorem C90_few (svd : Mat 2 → Svd 2) (R : Mat 3) (pairs : List (Vec 3 × Vec 3)) (useScale : Bool) :
    (pairs = [] → fitWithUp svd R pairs useScale = some (1, R, 0)) ∧
    (∀ x y, pairs = [(x, y)] → fitWithUp svd R pairs useScale = some (1, R, y - R *ᵥ x)) ∧
    (∀ y, 2 ≤ pairs.length → (∀ p ∈ pairs, p.2 = y) →
      let b := y - R *ᵥ mean (pairs.map (·.1))
      fitWithUp svd R pairs useScale =
        if pairs.length = 2 ∧ 1000 < Real.sqrt (b ⬝ᵥ b) then
          some (1000 / Real.sqrt (b ⬝ᵥ b), R, (1000 / Real.sqrt (b ⬝ᵥ b)) • b)
        else some (1, R, b)) := by
  refine ⟨?_, ?_, ?_⟩
  · rintro rfl
    rfl
  · rintro x y rfl
    unfold fitWithUp
    simp [mean]
  · intro y hl hy b
    have hne : pairs ≠ [] := by
      rintro rfl
      simp at hl
    have hrep : pairs.map (·.2) = List.replicate pairs.length y := by
      rw [List.eq_replicate_iff]
      refine ⟨by simp, ?_⟩
      intro z hz
      obtain ⟨p, hpm, rfl⟩ := List.mem_map.1 hz
      exact hy p hpm
    have hmy : mean (pairs.map (·.2)) = y := by
      rw [hrep]
      unfold mean
      rw [List.sum_replicate, List.length_replicate, ← Nat.cast_smul_eq_nsmul ℝ, smul_smul, inv_mul_cancel₀, one_smul]
      have : 0 < pairs.length := by omega
      positivity
    have hsd : ∀ k, stdev (pairs.map (·.2)) k = 0 := by
      intro k
      unfold stdev
      rw [hmy, hrep, List.map_replicate]
      simp
    have hmax : maxStd (pairs.map (·.2)) = 0 := by
      unfold maxStd
      rw [hsd, hsd, hsd]
      simp
    have hmx : mean (pairs.map (fun p => R *ᵥ p.1)) = R *ᵥ mean (pairs.map (·.1)) := by
      have := mean_apply (sim 1 R 0) (pairs.map (·.1)) (by simpa using hne)
      have e : (sim 1 R 0).apply = fun x => R *ᵥ x := by
        funext x
        simp [Sim.apply, sim]
      rw [e, List.map_map] at this
      exact this
    unfold fitWithUp
    simp only
    rw [if_neg (by omega), if_pos (by rw [hmax]; right; right; norm_num), hmy, hmx]
    rfl

/-- With the scale fixed the result has scale 1, unless there are exactly two constraints. -/
theorem C90_rigs (svd : Mat 2 → Svd 2) (hs : ∀ C, IsSvd C (svd C)) (R : Mat 3) (pairs : List (Vec 3 × Vec 3))
    (h2 : pairs.length ≠ 2) (s : ℝ) (A : Mat 3) (b : Vec 3) (h : fitWithUp svd R pairs false = some (s, A, b)) : s = 1 := by
  unfold fitWithUp at h
  split at h
  · simp only [Option.some.injEq, Prod.mk.injEq] at h
    exact h.1.symm
  · simp only at h
    split at h
    · rw [if_neg (by tauto)] at h
      simp only [Option.some.injEq, Prod.mk.injEq] at h
      exact h.1.symm
    · cases hT : superimpose svd false (pairs.map (fun q => (horiz (R *ᵥ q.1), horiz q.2))) with
      | none => rw [hT] at h; exact absurd h (by simp)
      | some T =>
        rw [hT] at h
        simp only [Option.some.injEq, Prod.mk.injEq] at h
        obtain ⟨s', R', t', hR', rfl, h1, -⟩ := C88_similarity svd hs false _ T hT
        rw [h1 rfl, C88_decompose 1 one_pos R' hR' t'] at h
        exact h.1.symm

/-- **A column of cameras.** If all cameras are on one vertical line (for example a mast, or one elevator), the scale is free and
the measured positions are not all the same, the alignment is refused and nothing changes. -/
theorem C90_column (svd : Mat 3 → Svd 3) (eig : Mat 3 → Vec 3) (svd2 : Mat 2 → Svd 2)
    (minVec : Mat 4 → Vec 4) (kind : String) (orient : Id → Option ℤ) (cfg : Cfg) (a : ARec Id) (gcp : List GPoint)
    (useGps : Bool) (hm : cfg.method = "orientation_prior")
    (pl : Vec 4) (hpl : estimateGroundPlane minVec kind (views a orient) = some pl)
    (o : Vec 3) (hcol : ∀ p ∈ constraints cfg a gcp useGps, ∃ c : ℝ, p.1 = o + c • ![pl 0, pl 1, pl 2])
    (hone : ∀ i, (a.r.shots.filter (fun e => decide (e.2.1 = i))).length ≤ 1)
    (hl : 2 ≤ (constraints cfg a gcp useGps).length)
    (h1 : 2 / 10 ^ 8 ≤ spread ((constraints cfg a gcp useGps).map (·.1)))
    (h2 : 2 / 100 ≤ spread ((constraints cfg a gcp useGps).map (·.2))) :
    align svd eig (prior svd2 minVec kind (views a orient)) cfg a gcp useGps = (none, a) := by
  have hsc : useScale a = true := by
    unfold useScale
    rw [Bool.not_eq_true', List.any_eq_false]
    intro e _ he
    have := of_decide_eq_true he
    have := hone e.1
    omega
  generalize hpairs : constraints cfg a gcp useGps = pairs at *
  have hsim : ∀ x, prior svd2 minVec kind (views a orient) pairs true = some x → x.1 = 0 := by
    intro x hx
    unfold prior at hx
    rw [hpl] at hx
    simp only at hx
    by_cases hne : (![pl 0, pl 1, pl 2] : Vec 3) = 0
    · rw [(C90_horizontal _).1 hne] at hx
      exact absurd hx (by simp)
    obtain ⟨R, hRe, hR, hRn, -⟩ := (C90_horizontal _).2 hne
    rw [hRe] at hx
    simp only at hx
    have hxm : pairs.map (fun p => R *ᵥ p.1) = (pairs.map (·.1)).map (fun x => R *ᵥ x) := by
      rw [List.map_map]; rfl
    have hX : ¬ maxStd (pairs.map (fun p => R *ᵥ p.1)) < 1 / 10 ^ 8 := by
      have := spread_le (pairs.map (fun p => R *ᵥ p.1))
      rw [hxm, spread_rot hR] at this
      rw [hxm]
      intro hc
      linarith
    have hY : ¬ maxStd (pairs.map (·.2)) < 1 / 100 := by
      have := spread_le (pairs.map (·.2))
      intro hc
      linarith
    unfold fitWithUp at hx
    simp only at hx
    rw [if_neg (by omega), if_neg (by push Not; exact ⟨hl, not_lt.1 hX, not_lt.1 hY⟩)] at hx
    have hflat : ∀ p ∈ pairs.map (fun p => (horiz (R *ᵥ p.1), horiz p.2)), p.1 = horiz (R *ᵥ o) := by
      intro p hp
      obtain ⟨q, hq, rfl⟩ := List.mem_map.1 hp
      obtain ⟨c, hc⟩ := hcol q hq
      simp only
      rw [hc, mulVec_add, mulVec_smul, hRn]
      ext i
      fin_cases i <;> simp [horiz]
    cases hT : superimpose svd2 true (pairs.map (fun p => (horiz (R *ᵥ p.1), horiz p.2))) with
    | none => rw [hT] at hx; exact absurd hx (by simp)
    | some T =>
      rw [hT] at hx
      simp only [Option.some.injEq] at hx
      rw [← hx]
      simp only
      generalize pairs.map (fun p => (horiz (R *ᵥ p.1), horiz p.2)) = fl at hT hflat
      obtain ⟨-, hlen, rfl⟩ := superimpose_eq svd2 true fl T hT
      have hmean : mean (fl.map (·.1)) = horiz (R *ᵥ o) := by
        have : fl.map (·.1) = List.replicate fl.length (horiz (R *ᵥ o)) := by
          rw [List.eq_replicate_iff]
          refine ⟨by simp, ?_⟩
          intro b hb
          obtain ⟨p, hpm, rfl⟩ := List.mem_map.1 hb
          exact hflat p hpm
        rw [this]
        unfold mean
        rw [List.sum_replicate, List.length_replicate, ← Nat.cast_smul_eq_nsmul ℝ, smul_smul, inv_mul_cancel₀, one_smul]
        have : 0 < fl.length := by omega
        positivity
      have h0 : sumSq ((centred fl).map (·.1)) = 0 := by
        rw [sumSq_zero]
        intro y hy
        obtain ⟨q, hq, rfl⟩ := List.mem_map.1 hy
        obtain ⟨p, hpm, rfl⟩ := List.mem_map.1 hq
        simp only
        rw [hmean, hflat p hpm, sub_self]
      have hsc0 : scaleOf true fl = 0 := by
        unfold scaleOf rmsRatio
        rw [if_pos rfl, h0, div_zero, Real.sqrt_zero]
      rw [hsc0]
      unfold decompose sim
      simp only [zero_smul, det_zero]
      apply Real.zero_rpow
      norm_num
  unfold align
  rw [hsc]
  have : similarity svd eig (prior svd2 minVec kind (views a orient)) cfg a gcp useGps true = none := by
    unfold similarity
    simp only [hm, hpairs]
    simp only [String.reduceEq, if_false, if_true]
    cases hp : prior svd2 minVec kind (views a orient) pairs true with
    | none => rfl
    | some x =>
      simp only
      rw [if_pos (hsim x hp)]
  rw [this]

/-! ### Non-vacuity -/

/-- A camera looking along the second axis, its pictures level. -/
def levelR : Mat 3 := !![1, 0, 0; 0, 0, -1; 0, 1, 0]

/-- A camera looking straight down. -/
def downR : Mat 3 := !![1, 0, 0; 0, -1, 0; 0, 0, -1]

example : Level ![0, 0, 1] ⟨0, levelR, some 1⟩ 1 := by
  refine ⟨⟨?_, ?_⟩, (.top, .left), rfl, ?_, ?_, ?_⟩
  · ext i j
    fin_cases i <;> fin_cases j <;> simp [levelR, Matrix.mul_apply, Fin.sum_univ_three]
  · rw [det_fin_three]; simp [levelR]
  all_goals simp [rightward, downward, levelR, dotProduct, Fin.sum_univ_three]

example : LooksDown ![0, 0, 1] ⟨0, downR, some 2⟩ 2 := by
  refine ⟨⟨?_, ?_⟩, (.top, .right), rfl, ?_, ?_, ?_⟩
  · ext i j
    fin_cases i <;> fin_cases j <;> simp [downR, Matrix.mul_apply, Fin.sum_univ_three]
  · rw [det_fin_three]; simp [downR]
  all_goals simp [rightward, downward, downR, dotProduct, Fin.sum_univ_three]

/-- One level camera. -/
noncomputable def oneShot : ARec ℕ :=
  ⟨⟨[(7, ![1, 1, 1])], [(1, Pose.ofWorldToCamera levelR 0)], [(2, Pose.ofWorldToCamera 1 0)], [(3, (1, 2))]⟩, fun _ => none⟩

theorem levelR_rot : IsRot levelR := by
  constructor
  · ext i j
    fin_cases i <;> fin_cases j <;> simp [levelR, Matrix.mul_apply, Fin.sum_univ_three]
  · rw [det_fin_three]; simp [levelR]

theorem oneShot_plane (minVec : Mat 4 → Vec 4) (hmin : ∀ M, IsMin M (minVec M)) :
    estimateGroundPlane minVec "horizontal" (views oneShot (fun _ => some 1)) = some ![0, 0, 1, 0] := by
  have hv : ∃ o, views oneShot (fun _ => some 1) = [⟨o, levelR, some 1⟩] := by
    simp [views, oneShot, Recon.shotPose, Dict.get?, Pose.compose, Pose.ofWorldToCamera, Pose.getOrigin]
  obtain ⟨o, hv⟩ := hv
  rw [hv]
  have := C90_level minVec hmin [⟨o, levelR, some 1⟩] ![0, 0, 1] (by simp [dotProduct, Fin.sum_univ_three])
    (by intro v hv w hw; simp only [List.mem_singleton] at hv hw; subst hv hw; simp)
    (by
      intro v hv o' ho
      simp only [List.mem_singleton] at hv
      subst hv
      simp only [Option.some.injEq] at ho
      subst ho
      refine ⟨levelR_rot, (.top, .left), rfl, ?_, ?_, ?_⟩
      all_goals simp [rightward, downward, levelR, dotProduct, Fin.sum_univ_three])
    ⟨_, List.mem_singleton.2 rfl, rfl⟩
  simpa using this

/-- Two control points and one level camera: the hypotheses of `C90_exact` are met, although the points are on a line. -/
example (svd : Mat 3 → Svd 3) (eig : Mat 3 → Vec 3) (svd2 : Mat 2 → Svd 2) (hs : ∀ C, IsSvd C (svd2 C))
    (minVec : Mat 4 → Vec 4) (hmin : ∀ M, IsMin M (minVec M)) :
    ∃ a', align svd eig (prior svd2 minVec "horizontal" (views oneShot (fun _ => some 1))) ⟨"orientation_prior", true, true⟩ oneShot
      [⟨some ![0, 0, 0], some ![5, 0, 0], true⟩, ⟨some ![1, 0, 0], some ![7, 0, 0], true⟩] true = (some (2, 1, ![5, 0, 0]), a') ∧
      a'.r.points.get? 7 = some ![7, 2, 2] := by
  have hc : constraints ⟨"orientation_prior", true, true⟩ oneShot
      [⟨some ![0, 0, 0], some ![5, 0, 0], true⟩, ⟨some ![1, 0, 0], some ![7, 0, 0], true⟩] true
      = [(![0, 0, 0], ![5, 0, 0]), (![1, 0, 0], ![7, 0, 0])] := by
    simp [constraints, gcpPair, oneShot, instancePair, instanceGps]
  obtain ⟨a', h1, -, h2, -⟩ := C90_exact svd eig svd2 hs minVec "horizontal" (fun _ => some 1) ⟨"orientation_prior", true, true⟩
    oneShot [⟨some ![0, 0, 0], some ![5, 0, 0], true⟩, ⟨some ![1, 0, 0], some ![7, 0, 0], true⟩] true
    (by simp [oneShot, Dict.Wf, Dict.keys])
    (by
      intro i p h
      simp only [oneShot, Dict.get?] at h
      split at h
      · simp only [Option.some.injEq] at h
        subst h
        exact (Verif.Pose.rigid_iff_cons _).2 (Verif.Pose.cons_ofW2C (rot_orth levelR_rot) 0)
      · exact absurd h (by simp))
    (Or.inl rfl) ![0, 0, 1, 0] (oneShot_plane minVec hmin) 2 (by norm_num) 1 ⟨by simp, by simp⟩ ![5, 0, 0] 1 one_pos (by simp)
    (by
      rw [hc]
      intro p hp
      simp only [List.mem_cons, List.not_mem_nil, or_false] at hp
      rcases hp with rfl | rfl <;>
      · funext i
        fin_cases i <;> simp <;> norm_num)
    (Or.inr (by intro i; refine le_trans (List.length_filter_le _ _) ?_; simp [oneShot]))
    (by
      rw [hc]
      exact ⟨_, List.mem_cons_self, _, List.mem_cons_of_mem _ List.mem_cons_self, Or.inl (by simp)⟩)
    (by
      rw [hc]
      unfold spread
      apply Real.le_sqrt_of_sq_le
      simp [mean, dotProduct, Fin.sum_univ_three]
      norm_num)
    (by
      rw [hc]
      unfold spread
      apply Real.le_sqrt_of_sq_le
      simp [mean, dotProduct, Fin.sum_univ_three]
      norm_num)
  refine ⟨a', h1, ?_⟩
  rw [h2]
  simp only [oneShot, Dict.get?, if_true, Option.map_some]
  congr 1
  funext i
  fin_cases i <;> simp <;> norm_num

/-- Two cameras without roll, the second one looking half down, facing different ways: the hypotheses of `C90_noroll` are met. -/
example (minVec : Mat 4 → Vec 4) (hmin : ∀ M, IsMin M (minVec M)) :
    estimateGroundPlane minVec "no_roll" [⟨0, levelR, some 1⟩, ⟨![1, 1, 0], !![0, 1, 0; -3 / 5, 0, -4 / 5; -4 / 5, 0, 3 / 5], some 1⟩] =
      some ![0, 0, 1, 0] := by
  have := C90_noroll minVec hmin [⟨0, levelR, some 1⟩, ⟨![1, 1, 0], !![0, 1, 0; -3 / 5, 0, -4 / 5; -4 / 5, 0, 3 / 5], some 1⟩]
    ![0, 0, 1] (by simp [dotProduct, Fin.sum_univ_three])
    (by
      intro v hv w hw
      simp only [List.mem_cons, List.not_mem_nil, or_false] at hv hw
      rcases hv with rfl | rfl <;> rcases hw with rfl | rfl <;> simp [dotProduct, Fin.sum_univ_three])
    (by
      intro v hv o ho
      simp only [List.mem_cons, List.not_mem_nil, or_false] at hv
      refine ⟨(.top, .left), ?_, ?_⟩
      · rcases hv with rfl | rfl <;> (simp only [Option.some.injEq] at ho; subst ho; rfl)
      · rcases hv with rfl | rfl <;> simp [rightward, downward, levelR, dotProduct, Fin.sum_univ_three]
        norm_num)
    (by
      intro m _ h
      have h1 := h _ List.mem_cons_self 1 (.top, .left) rfl rfl
      have h2 := h _ (List.mem_cons_of_mem _ List.mem_cons_self) 1 (.top, .left) rfl rfl
      simp [rightward, levelR, dotProduct, Fin.sum_univ_three] at h1 h2
      refine ⟨m 2, ?_⟩
      ext i; fin_cases i <;> simp [h1, h2])
    ⟨_, List.mem_cons_self, rfl⟩
  simpa using this

end Verif.AlignPrior
