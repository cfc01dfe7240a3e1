import Verif.Model.Angles
import Verif.Spec.Angles
import Verif.Props.AlignPrior
import Verif.Props.Geo
import Verif.Props.RelativePose

/-!
C106: the angles of a camera.
-/
set_option linter.unusedSectionVars false
set_option linter.unusedSimpArgs false
namespace Verif.Angles
open Matrix Verif.Superimpose Verif.AlignPrior
open Verif.Geo (arctan2 degrees radians)

/-! ### Rodrigues' formula about the axes -/

theorem sign_sin (a : ℝ) (h : a ≠ 0) : Real.sin |a| * (|a|⁻¹ * a) = Real.sin a := by
  rcases abs_cases a with ⟨e, h1⟩ | ⟨e, h1⟩
  · rw [e]; field_simp
  · rw [e, Real.sin_neg]; field_simp

theorem inv_abs_sq (a : ℝ) (h : a ≠ 0) : (|a|⁻¹ * a) * (|a|⁻¹ * a) = 1 := by
  rcases abs_cases a with ⟨e, h1⟩ | ⟨e, h1⟩ <;> rw [e] <;> field_simp

theorem norm_axis (i : Fin 3) (a : ℝ) : AlignPrior.norm (Pi.single i a) = |a| := by
  unfold AlignPrior.norm
  rw [← Real.sqrt_sq_eq_abs]
  congr 1
  rw [single_dotProduct]
  simp [pow_two]

theorem rodrigues_axis (i : Fin 3) (a : ℝ) : rodrigues (Pi.single i a) = turn i a := by
  unfold rodrigues
  rw [norm_axis]
  by_cases h : a = 0
  · subst h
    simp only [abs_zero, if_true]
    ext x y
    fin_cases i <;> fin_cases x <;> fin_cases y <;> simp [turn]
  · simp only [abs_eq_zero, h, if_false, Real.cos_abs]
    have e1 := sign_sin a h
    have e2 : |a|⁻¹ * (|a|⁻¹ * (a * a)) = 1 := by
      have := inv_abs_sq a h
      linarith
    ext x y
    fin_cases i <;> fin_cases x <;> fin_cases y <;> simp [turn, vecMulVec_apply, e1, e2]

theorem vec_x (a : ℝ) : (![a, 0, 0] : Vec 3) = Pi.single 0 a := by ext i; fin_cases i <;> simp
theorem vec_y (a : ℝ) : (![0, a, 0] : Vec 3) = Pi.single 1 a := by ext i; fin_cases i <;> simp
theorem vec_z (a : ℝ) : (![0, 0, a] : Vec 3) = Pi.single 2 a := by ext i; fin_cases i <;> simp

theorem turn_rot (i : Fin 3) (t : ℝ) : IsRot (turn i t) := by
  have h := Real.cos_sq_add_sin_sq t
  constructor
  · ext x y
    fin_cases i <;> fin_cases x <;> fin_cases y <;> simp [turn, Matrix.mul_apply, Fin.sum_univ_three] <;> linarith
  · rw [det_fin_three]
    fin_cases i <;> simp [turn] <;> linarith

theorem rot_mul' {A B : Mat 3} (hA : IsRot A) (hB : IsRot B) : IsRot (A * B) := rot_mul hA hB

/-! ### Euler angles -/

theorem axes_mem {name : String} {a : Axes} (h : axesOf name = some a) : (name, a) ∈ axesTable := by
  unfold axesOf at h
  rw [List.lookup_eq_some_iff] at h
  obtain ⟨l1, l2, e, _⟩ := h
  rw [e]; simp

theorem mat_eta (m : Mat 3) : m = !![m 0 0, m 0 1, m 0 2; m 1 0, m 1 1, m 1 2; m 2 0, m 2 1, m 2 2] := by
  ext i j
  fin_cases i <;> fin_cases j <;> rfl

theorem place_012 (m : Mat 3) : place 0 1 m = m := by
  ext i j; fin_cases i <;> fin_cases j <;> rfl

theorem place_021 (m : Mat 3) :
    place 0 2 m = !![m 0 0, m 0 2, m 0 1; m 2 0, m 2 2, m 2 1; m 1 0, m 1 2, m 1 1] := by
  ext i j; fin_cases i <;> fin_cases j <;> rfl

theorem place_120 (m : Mat 3) :
    place 1 2 m = !![m 2 2, m 2 0, m 2 1; m 0 2, m 0 0, m 0 1; m 1 2, m 1 0, m 1 1] := by
  ext i j; fin_cases i <;> fin_cases j <;> rfl

theorem place_102 (m : Mat 3) :
    place 1 0 m = !![m 1 1, m 1 0, m 1 2; m 0 1, m 0 0, m 0 2; m 2 1, m 2 0, m 2 2] := by
  ext i j; fin_cases i <;> fin_cases j <;> rfl

theorem place_201 (m : Mat 3) :
    place 2 0 m = !![m 1 1, m 1 2, m 1 0; m 2 1, m 2 2, m 2 0; m 0 1, m 0 2, m 0 0] := by
  ext i j; fin_cases i <;> fin_cases j <;> rfl

theorem place_210 (m : Mat 3) :
    place 2 1 m = !![m 2 2, m 2 1, m 2 0; m 1 2, m 1 1, m 1 0; m 0 2, m 0 1, m 0 0] := by
  ext i j; fin_cases i <;> fin_cases j <;> rfl

theorem lit_congr {a b c d e f g h i a' b' c' d' e' f' g' h' i' : ℝ} (h1 : a = a') (h2 : b = b') (h3 : c = c') (h4 : d = d')
    (h5 : e = e') (h6 : f = f') (h7 : g = g') (h8 : h = h') (h9 : i = i') :
    (!![a, b, c; d, e, f; g, h, i] : Mat 3) = !![a', b', c'; d', e', f'; g', h', i'] := by
  subst h1 h2 h3 h4 h5 h6 h7 h8 h9; rfl

theorem euler_static (f : Fin 3) (p r : Bool) (x y z : ℝ) :
    eulerMatrix x y z ⟨f, p, r, false⟩ =
      turn (if r then f else (Axes.third ⟨f, p, r, false⟩)) z * turn (Axes.second ⟨f, p, r, false⟩) y * turn f x := by
  unfold eulerMatrix eulerEntries
  cases p <;> cases r <;> fin_cases f <;>
    simp only [Bool.false_eq_true, if_false, if_true, Fin.zero_eta, Fin.mk_one, Fin.reduceFinMk, Real.cos_neg, Real.sin_neg,
      Axes.second, Axes.third, nextAxis] <;>
    simp only [Fin.val_zero, Fin.val_one, Fin.val_two, Nat.reduceAdd, Nat.reduceEqDiff, Nat.reduceSub, if_false, if_true,
      OfNat.ofNat_ne_zero, one_ne_zero, zero_ne_one, place_012, place_021, place_120, place_102, place_201, place_210, turn,
      Matrix.mul_fin_three, OfNat.ofNat_eq_ofNat] <;>
    apply lit_congr <;> simp <;> ring

theorem euler_rotating (f : Fin 3) (p r : Bool) (x y z : ℝ) :
    eulerMatrix x y z ⟨f, p, r, true⟩ =
      turn (if r then f else (Axes.third ⟨f, p, r, false⟩)) x * turn (Axes.second ⟨f, p, r, false⟩) y * turn f z :=
  euler_static f p r z y x

/-- Every sequence of axes stands for the turns that its letters name. -/
theorem C106_euler_names (name : String) (a : Axes) (h : axesOf name = some a) (x y z : ℝ) :
    eulerMatrix x y z a = spelled name x y z := by
  have hm := axes_mem h
  clear h
  simp only [axesTable, List.mem_cons, List.not_mem_nil, or_false, Prod.mk.injEq] at hm
  rcases hm with h | h | h | h | h | h | h | h | h | h | h | h | h | h | h | h | h | h | h | h | h | h | h | h <;>
  · obtain ⟨rfl, rfl⟩ := h
    first
    | rw [euler_static]; rfl
    | rw [euler_rotating]; rfl

/-- Exactly the names of three axes, of which neighbours differ, after `s` or `r` are known. -/
theorem C106_euler_known (name : String) :
    (axesOf name).isSome = true ↔
      ∃ (f x y z : Char), name = String.ofList [f, x, y, z] ∧ (f = 's' ∨ f = 'r') ∧ (x = 'x' ∨ x = 'y' ∨ x = 'z') ∧
        (y = 'x' ∨ y = 'y' ∨ y = 'z') ∧ (z = 'x' ∨ z = 'y' ∨ z = 'z') ∧ x ≠ y ∧ y ≠ z := by
  constructor
  · intro h
    obtain ⟨a, ha⟩ := Option.isSome_iff_exists.1 h
    have hm := axes_mem ha
    clear h ha
    simp only [axesTable, List.mem_cons, List.not_mem_nil, or_false, Prod.mk.injEq] at hm
    rcases hm with h | h | h | h | h | h | h | h | h | h | h | h | h | h | h | h | h | h | h | h | h | h | h | h <;>
    · obtain ⟨rfl, rfl⟩ := h
      exact ⟨_, _, _, _, rfl, by decide, by decide, by decide, by decide, by decide, by decide⟩
  · rintro ⟨f, x, y, z, rfl, hf, hx, hy, hz, h1, h2⟩
    rcases hf with rfl | rfl <;> rcases hx with rfl | rfl | rfl <;> rcases hy with rfl | rfl | rfl <;>
      rcases hz with rfl | rfl | rfl <;> first | exact absurd rfl h1 | exact absurd rfl h2 | rfl

theorem spelled_rot {name : String} {a : Axes} (h : axesOf name = some a) (x y z : ℝ) : IsRot (eulerMatrix x y z a) := by
  obtain ⟨f, p, r, fr⟩ := a
  cases fr
  · rw [euler_static]; exact rot_mul (rot_mul (turn_rot _ _) (turn_rot _ _)) (turn_rot _ _)
  · rw [euler_rotating]; exact rot_mul (rot_mul (turn_rot _ _) (turn_rot _ _)) (turn_rot _ _)

/-! #### Angles of a rotation -/

/-- The cofactors of a rotation, for the axes in any order. -/
theorem rot_cof {M : Mat 3} (hM : IsRot M) (i j k : Fin 3) (h1 : i ≠ j) (h2 : j ≠ k) (h3 : i ≠ k) :
    M j j = M k k * M i i - M k i * M i k ∧ M j k = M k i * M i j - M k j * M i i ∧
      M i j ^ 2 + M i k ^ 2 + M i i ^ 2 = 1 ∧ M j i ^ 2 + M k i ^ 2 + M i i ^ 2 = 1 := by
  have e1 : M * Mᵀ = 1 := mul_eq_one_comm.1 hM.1
  have e2 : Mᵀ * M = 1 := hM.1
  have ha : M.adjugate = Mᵀ := by
    have : M * M.adjugate = 1 := by rw [mul_adjugate, hM.2, one_smul]
    calc M.adjugate = (Mᵀ * M) * M.adjugate := by rw [e2, one_mul]
      _ = Mᵀ := by rw [Matrix.mul_assoc, this, mul_one]
  rw [adjugate_fin_three] at ha
  have c := fun x y => congrFun (congrFun ha x) y
  have r1 := congrFun (congrFun e1 i) i
  have r2 := congrFun (congrFun e2 i) i
  rw [Matrix.mul_apply, Fin.sum_univ_three, Matrix.one_apply, if_pos rfl] at r1 r2
  simp only [Matrix.transpose_apply] at r1 r2
  have c00 := c 0 0
  have c01 := c 0 1
  have c02 := c 0 2
  have c10 := c 1 0
  have c11 := c 1 1
  have c12 := c 1 2
  have c20 := c 2 0
  have c21 := c 2 1
  have c22 := c 2 2
  simp [Matrix.transpose_apply] at c00 c01 c02 c10 c11 c12 c20 c21 c22
  clear c ha e1 e2
  fin_cases i <;> fin_cases j <;> fin_cases k <;>
    first
    | exact absurd rfl h1
    | exact absurd rfl h2
    | exact absurd rfl h3
    | (refine ⟨?_, ?_, ?_, ?_⟩ <;> simp at r1 r2 ⊢ <;> linarith)

theorem atan_of {x y r : ℝ} (hr : 0 < r) (h : x ^ 2 + y ^ 2 = r ^ 2) :
    Real.cos (arctan2 y x) = x / r ∧ Real.sin (arctan2 y x) = y / r := by
  have hs : Real.sqrt (x ^ 2 + y ^ 2) = r := by rw [h, Real.sqrt_sq hr.le]
  have h1 := Geo.cos_arctan2 x y
  have h2 := Geo.sin_arctan2 x y
  rw [hs] at h1 h2
  constructor
  · rw [eq_div_iff hr.ne', mul_comm]; exact h1
  · rw [eq_div_iff hr.ne', mul_comm]; exact h2

theorem place_eta (M : Mat 3) (i j k : Fin 3) (h1 : i ≠ j) (h2 : j ≠ k) (h3 : i ≠ k) :
    M = place i j !![M i i, M i j, M i k; M j i, M j j, M j k; M k i, M k j, M k k] := by
  ext x y
  fin_cases i <;> fin_cases j <;> fin_cases k <;>
    first
    | exact absurd rfl h1
    | exact absurd rfl h2
    | exact absurd rfl h3
    | (fin_cases x <;> fin_cases y <;> rfl)

theorem eps_pos : 0 < eps := by unfold eps; positivity

theorem two_sq_zero {a b : ℝ} (h : a ^ 2 + b ^ 2 = 0) : a = 0 ∧ b = 0 := by
  constructor <;> nlinarith [sq_nonneg a, sq_nonneg b]

theorem core_rep {M : Mat 3} (hM : IsRot M) (i j k : Fin 3) (h1 : i ≠ j) (h2 : j ≠ k) (h3 : i ≠ k)
    (hs : Real.sqrt (M i j * M i j + M i k * M i k) = 0 ∨ Real.sqrt (M i j * M i j + M i k * M i k) > eps) :
    place i j (eulerEntries true (eulerAngles true M i j k).1 (eulerAngles true M i j k).2.1 (eulerAngles true M i j k).2.2) =
      M := by
  obtain ⟨cjj, cjk, n1, n2⟩ := rot_cof hM i j k h1 h2 h3
  obtain ⟨ckk, ckj, -, -⟩ := rot_cof hM i k j h3 h2.symm h1
  obtain ⟨-, -, n3, -⟩ := rot_cof hM j k i h2 h3.symm h1.symm
  conv_rhs => rw [place_eta M i j k h1 h2 h3]
  congr 1
  obtain ⟨s, hsd⟩ : ∃ s, s = Real.sqrt (M i j * M i j + M i k * M i k) := ⟨_, rfl⟩
  have hs2 : s ^ 2 = M i j ^ 2 + M i k ^ 2 := by
    rw [hsd, Real.sq_sqrt (add_nonneg (mul_self_nonneg _) (mul_self_nonneg _))]; ring
  simp only [eulerAngles, eulerEntries, if_true, ← hsd]
  rw [← hsd] at hs
  obtain ⟨y1, y2⟩ := atan_of (x := M i i) (y := s) (r := 1) one_pos (by linarith)
  rcases hs with hs | hs
  · have hn : ¬ s > eps := by rw [hs]; exact not_lt.2 eps_pos.le
    rw [if_neg hn]
    rw [hs] at hs2
    obtain ⟨z1, z2⟩ := two_sq_zero (a := M i j) (b := M i k) (by linarith)
    rw [z1, z2] at n1
    obtain ⟨z3, z4⟩ := two_sq_zero (a := M j i) (b := M k i) (by linarith)
    have hj : M j j ^ 2 + (-M j k) ^ 2 = 1 ^ 2 := by rw [z3] at n3; linarith
    obtain ⟨x1, x2⟩ := atan_of one_pos hj
    rw [hs] at y1 y2
    rw [z1] at ckk
    rw [z3, z2] at ckj
    simp only [x1, x2, y1, y2, Real.sin_zero, Real.cos_zero, hs, z1, z2, z3, z4]
    apply lit_congr
    · ring
    · ring
    · ring
    · ring
    · ring
    · ring
    · ring
    · linarith
    · linarith
  · have hp : 0 < s := lt_trans eps_pos hs
    rw [if_pos hs]
    obtain ⟨x1, x2⟩ := atan_of (x := M i k) (y := M i j) hp (by rw [hs2]; ring)
    obtain ⟨w1, w2⟩ := atan_of (x := -M k i) (y := M j i) hp (by rw [hs2]; linarith)
    simp only [x1, x2, y1, y2, w1, w2]
    have e : s ^ 2 = 1 - M i i ^ 2 := by rw [hs2]; linarith
    apply lit_congr
    · ring
    · field_simp
    · field_simp
    · field_simp
    · field_simp
      linear_combination (-(M j j)) * e - cjj - M i i * ckk
    · field_simp
      linear_combination (-(M j k)) * e - cjk + M i i * ckj
    · field_simp
    · field_simp
      linear_combination (-(M k j)) * e - ckj + M i i * cjk
    · field_simp
      linear_combination (-(M k k)) * e - ckk - M i i * cjj

theorem core_plain {M : Mat 3} (hM : IsRot M) (i j k : Fin 3) (h1 : i ≠ j) (h2 : j ≠ k) (h3 : i ≠ k)
    (hs : Real.sqrt (M i i * M i i + M j i * M j i) = 0 ∨ Real.sqrt (M i i * M i i + M j i * M j i) > eps) :
    place i j (eulerEntries false (eulerAngles false M i j k).1 (eulerAngles false M i j k).2.1
      (eulerAngles false M i j k).2.2) = M := by
  obtain ⟨cjj, cjk, n1, n2⟩ := rot_cof hM i j k h1 h2 h3
  obtain ⟨-, cij, -, -⟩ := rot_cof hM k i j h3.symm h1 h2.symm
  obtain ⟨-, cik, -, -⟩ := rot_cof hM j i k h1.symm h3 h2
  obtain ⟨-, -, n3, -⟩ := rot_cof hM k j i h2.symm h1.symm h3.symm
  obtain ⟨-, -, n4, -⟩ := rot_cof hM j k i h2 h3.symm h1.symm
  conv_rhs => rw [place_eta M i j k h1 h2 h3]
  congr 1
  obtain ⟨s, hsd⟩ : ∃ s, s = Real.sqrt (M i i * M i i + M j i * M j i) := ⟨_, rfl⟩
  have hs2 : s ^ 2 = M i i ^ 2 + M j i ^ 2 := by
    rw [hsd, Real.sq_sqrt (add_nonneg (mul_self_nonneg _) (mul_self_nonneg _))]; ring
  simp only [eulerAngles, eulerEntries, Bool.false_eq_true, if_false, ← hsd]
  rw [← hsd] at hs
  obtain ⟨y1, y2⟩ := atan_of (x := s) (y := -M k i) (r := 1) one_pos (by linarith)
  rcases hs with hs | hs
  · have hn : ¬ s > eps := by rw [hs]; exact not_lt.2 eps_pos.le
    rw [if_neg hn]
    rw [hs] at hs2
    obtain ⟨z1, z2⟩ := two_sq_zero (a := M i i) (b := M j i) (by linarith)
    rw [z1, z2] at n2
    obtain ⟨z3, z4⟩ := two_sq_zero (a := M k j) (b := M k k) (by linarith)
    have hj : M j j ^ 2 + (-M j k) ^ 2 = 1 ^ 2 := by rw [z2] at n4; linarith
    obtain ⟨x1, x2⟩ := atan_of one_pos hj
    rw [hs] at y1 y2
    rw [z2] at cij cik
    simp only [x1, x2, y1, y2, Real.sin_zero, Real.cos_zero, hs, z1, z2, z3, z4]
    apply lit_congr
    · ring
    · linarith
    · linarith
    · ring
    · ring
    · ring
    · ring
    · ring
    · ring
  · have hp : 0 < s := lt_trans eps_pos hs
    rw [if_pos hs]
    obtain ⟨x1, x2⟩ := atan_of (x := M k k) (y := M k j) hp (by rw [hs2]; linarith)
    obtain ⟨w1, w2⟩ := atan_of (x := M i i) (y := M j i) hp (by rw [hs2])
    simp only [x1, x2, y1, y2, w1, w2]
    have e : s ^ 2 = 1 - M k i ^ 2 := by rw [hs2]; linarith
    apply lit_congr
    · field_simp
    · field_simp
      linear_combination (-(M i j)) * e - cij - M k i * cjk
    · field_simp
      linear_combination (-(M i k)) * e - cik + M k i * cjj
    · field_simp
    · field_simp
      linear_combination (-(M j j)) * e - cjj + M k i * cik
    · field_simp
      linear_combination (-(M j k)) * e - cjk - M k i * cij
    · ring
    · field_simp
    · field_simp

theorem axes_facts {name : String} {a : Axes} (h : axesOf name = some a) :
    (sequence name).1 = a.first ∧ (sequence name).2.1 = a.second ∧
      (sequence name).2.2 = (if a.repetition then a.first else a.third) ∧ a.first ≠ a.second ∧ a.second ≠ a.third ∧
      a.first ≠ a.third ∧ (a.parity = false ↔ a.second = a.first + 1) := by
  have hm := axes_mem h
  clear h
  simp only [axesTable, List.mem_cons, List.not_mem_nil, or_false, Prod.mk.injEq] at hm
  rcases hm with h | h | h | h | h | h | h | h | h | h | h | h | h | h | h | h | h | h | h | h | h | h | h | h <;>
  · obtain ⟨rfl, rfl⟩ := h
    decide

/-- The angles computed from a rotation give it back, for every sequence of axes, in gimbal lock too; only for rotations next
to gimbal lock are they approximate. -/
theorem C106_euler_inverse (name : String) (a : Axes) (h : axesOf name = some a) (M : Mat 3) (hM : IsRot M)
    (hl : lockEntry name M ^ 2 = 1 ∨ Real.sqrt (1 - lockEntry name M ^ 2) > (2 : ℝ) ^ (-50 : ℤ)) (x y z : ℝ)
    (e : eulerFromMatrix M a = (x, y, z)) : spelled name x y z = M := by
  rw [← C106_euler_names name a h]
  obtain ⟨f1, f2, f3, d1, d2, d3, f4⟩ := axes_facts h
  have heps : eps = (2 : ℝ) ^ (-50 : ℤ) := by unfold eps; norm_num
  unfold lockEntry at hl
  rw [f1, f3, ← heps] at hl
  have key : place a.first a.second (eulerEntries a.repetition (eulerAngles a.repetition M a.first a.second a.third).1
      (eulerAngles a.repetition M a.first a.second a.third).2.1 (eulerAngles a.repetition M a.first a.second a.third).2.2) =
      M := by
    obtain ⟨-, -, n1, -⟩ := rot_cof hM a.first a.second a.third d1 d2 d3
    obtain ⟨-, -, -, n2⟩ := rot_cof hM a.first a.second a.third d1 d2 d3
    cases hr : a.repetition
    · rw [hr] at hl
      simp only [Bool.false_eq_true, if_false] at hl
      have e1 : M a.first a.first * M a.first a.first + M a.second a.first * M a.second a.first =
          1 - M a.third a.first ^ 2 := by linarith
      apply core_plain hM _ _ _ d1 d2 d3
      rw [e1]
      rcases hl with hl | hl
      · left; rw [hl, sub_self, Real.sqrt_zero]
      · exact Or.inr hl
    · rw [hr] at hl
      simp only [if_true] at hl
      have e1 : M a.first a.second * M a.first a.second + M a.first a.third * M a.first a.third =
          1 - M a.first a.first ^ 2 := by linarith
      apply core_rep hM _ _ _ d1 d2 d3
      rw [e1]
      rcases hl with hl | hl
      · left; rw [hl, sub_self, Real.sqrt_zero]
      · exact Or.inr hl
  unfold eulerFromMatrix at e
  obtain ⟨ax, ay, az, ha⟩ : ∃ ax ay az, eulerAngles a.repetition M a.first a.second a.third = (ax, ay, az) := ⟨_, _, _, rfl⟩
  rw [ha] at e key
  unfold eulerMatrix
  cases hp : a.parity <;> cases hf : a.frame <;> simp only [hp, hf, Bool.false_eq_true, if_false, if_true, Prod.mk.injEq] at e <;>
    obtain ⟨rfl, rfl, rfl⟩ := e <;> simpa [hp, hf] using key

theorem place_at (m : Mat 3) (i j k : Fin 3) (h1 : i ≠ j) (h2 : j ≠ k) (h3 : i ≠ k) :
    place i j m i i = m 0 0 ∧ place i j m i j = m 0 1 ∧ place i j m i k = m 0 2 ∧ place i j m j i = m 1 0 ∧
      place i j m j j = m 1 1 ∧ place i j m j k = m 1 2 ∧ place i j m k i = m 2 0 ∧ place i j m k j = m 2 1 ∧
      place i j m k k = m 2 2 := by
  simp [place, h1, h1.symm, h2, h2.symm, h3, h3.symm]

theorem angles_rep (i j k : Fin 3) (h1 : i ≠ j) (h2 : j ≠ k) (h3 : i ≠ k) (x y z : ℝ) (hx : -Real.pi < x ∧ x ≤ Real.pi)
    (hy : 0 < y ∧ y < Real.pi) (hz : -Real.pi < z ∧ z ≤ Real.pi) (hs : Real.sin y > eps) :
    eulerAngles true (place i j (eulerEntries true x y z)) i j k = (x, y, z) := by
  obtain ⟨e1, e2, e3, e4, e5, e6, e7, e8, e9⟩ := place_at (eulerEntries true x y z) i j k h1 h2 h3
  have hp : 0 < Real.sin y := lt_trans eps_pos hs
  unfold eulerAngles
  simp only [if_true, e1, e2, e3, e4, e7]
  have r : Real.sqrt (Real.sin y * Real.sin x * (Real.sin y * Real.sin x) +
      Real.sin y * Real.cos x * (Real.sin y * Real.cos x)) = Real.sin y := by
    rw [show Real.sin y * Real.sin x * (Real.sin y * Real.sin x) + Real.sin y * Real.cos x * (Real.sin y * Real.cos x) =
      Real.sin y ^ 2 by linear_combination (Real.sin y ^ 2) * Real.cos_sq_add_sin_sq x, Real.sqrt_sq hp.le]
  have q1 : eulerEntries true x y z 0 1 = Real.sin y * Real.sin x := by simp [eulerEntries]
  have q2 : eulerEntries true x y z 0 2 = Real.sin y * Real.cos x := by simp [eulerEntries]
  have q3 : eulerEntries true x y z 0 0 = Real.cos y := by simp [eulerEntries]
  have q4 : eulerEntries true x y z 1 0 = Real.sin y * Real.sin z := by simp [eulerEntries]
  have q5 : -eulerEntries true x y z 2 0 = Real.sin y * Real.cos z := by simp [eulerEntries]
  rw [q1, q2, q3, q4, q5, r, if_pos hs, Geo.arctan2_mul_cos_sin hp hx.1 hx.2, Geo.arctan2_mul_cos_sin hp hz.1 hz.2]
  have := Geo.arctan2_mul_cos_sin (k := 1) (t := y) one_pos (by linarith [Real.pi_pos]) hy.2.le
  rw [one_mul, one_mul] at this
  rw [this]

theorem angles_plain (i j k : Fin 3) (h1 : i ≠ j) (h2 : j ≠ k) (h3 : i ≠ k) (x y z : ℝ) (hx : -Real.pi < x ∧ x ≤ Real.pi)
    (hy : -(Real.pi / 2) < y ∧ y < Real.pi / 2) (hz : -Real.pi < z ∧ z ≤ Real.pi) (hs : Real.cos y > eps) :
    eulerAngles false (place i j (eulerEntries false x y z)) i j k = (x, y, z) := by
  obtain ⟨e1, e2, e3, e4, e5, e6, e7, e8, e9⟩ := place_at (eulerEntries false x y z) i j k h1 h2 h3
  have hp : 0 < Real.cos y := lt_trans eps_pos hs
  unfold eulerAngles
  simp only [Bool.false_eq_true, if_false, e1, e4, e7, e8, e9]
  have r : Real.sqrt (Real.cos y * Real.cos z * (Real.cos y * Real.cos z) +
      Real.cos y * Real.sin z * (Real.cos y * Real.sin z)) = Real.cos y := by
    rw [show Real.cos y * Real.cos z * (Real.cos y * Real.cos z) + Real.cos y * Real.sin z * (Real.cos y * Real.sin z) =
      Real.cos y ^ 2 by linear_combination (Real.cos y ^ 2) * Real.cos_sq_add_sin_sq z, Real.sqrt_sq hp.le]
  have q1 : eulerEntries false x y z 0 0 = Real.cos y * Real.cos z := by simp [eulerEntries]
  have q2 : eulerEntries false x y z 1 0 = Real.cos y * Real.sin z := by simp [eulerEntries]
  have q3 : -eulerEntries false x y z 2 0 = Real.sin y := by simp [eulerEntries]
  have q4 : eulerEntries false x y z 2 1 = Real.cos y * Real.sin x := by simp [eulerEntries]
  have q5 : eulerEntries false x y z 2 2 = Real.cos y * Real.cos x := by simp [eulerEntries]
  rw [q1, q2, q3, q4, q5, r, if_pos hs, Geo.arctan2_mul_cos_sin hp hx.1 hx.2, Geo.arctan2_mul_cos_sin hp hz.1 hz.2]
  have := Geo.arctan2_mul_cos_sin (k := 1) (t := y) one_pos (by linarith [Real.pi_pos]) (by linarith [Real.pi_pos])
  rw [one_mul, one_mul] at this
  rw [this]

/-- The angles themselves come back: outer angles within half a turn, the middle one within a quarter turn or, for a repeated
axis, between 0 and half a turn (when the axes of the three turns follow each other in the order x, y, z, x) or between minus
half a turn and 0 (otherwise). -/
theorem C106_euler_angles (name : String) (a : Axes) (h : axesOf name = some a) (x y z : ℝ)
    (hx : -Real.pi < x ∧ x < Real.pi) (hz : -Real.pi < z ∧ z < Real.pi)
    (hy : if (sequence name).2.2 = (sequence name).1 then
        (if (sequence name).2.1 = (sequence name).1 + 1 then 0 < y ∧ y < Real.pi else -Real.pi < y ∧ y < 0) ∧
          |Real.sin y| > (2 : ℝ) ^ (-50 : ℤ)
      else (-(Real.pi / 2) < y ∧ y < Real.pi / 2) ∧ Real.cos y > (2 : ℝ) ^ (-50 : ℤ)) :
    eulerFromMatrix (spelled name x y z) a = (x, y, z) := by
  rw [← C106_euler_names name a h]
  obtain ⟨f1, f2, f3, d1, d2, d3, f4⟩ := axes_facts h
  have heps : eps = (2 : ℝ) ^ (-50 : ℤ) := by unfold eps; norm_num
  rw [f1, f2, f3, ← heps] at hy
  unfold eulerFromMatrix eulerMatrix
  cases hr : a.repetition
  · simp only [hr, Bool.false_eq_true, if_false, d3.symm] at hy
    obtain ⟨hy, hc⟩ := hy
    cases hp : a.parity <;> cases hf : a.frame <;> simp only [hp, hf, hr, Bool.false_eq_true, if_false, if_true]
    · rw [angles_plain _ _ _ d1 d2 d3 x y z ⟨hx.1, hx.2.le⟩ hy ⟨hz.1, hz.2.le⟩ hc]
    · rw [angles_plain _ _ _ d1 d2 d3 z y x ⟨hz.1, hz.2.le⟩ hy ⟨hx.1, hx.2.le⟩ hc]
    · rw [angles_plain _ _ _ d1 d2 d3 (-x) (-y) (-z) ⟨by linarith, by linarith⟩ ⟨by linarith, by linarith⟩
        ⟨by linarith, by linarith⟩ (by rwa [Real.cos_neg])]
      simp
    · rw [angles_plain _ _ _ d1 d2 d3 (-z) (-y) (-x) ⟨by linarith, by linarith⟩ ⟨by linarith, by linarith⟩
        ⟨by linarith, by linarith⟩ (by rwa [Real.cos_neg])]
      simp
  · simp only [hr, if_true] at hy
    obtain ⟨hy, hc⟩ := hy
    cases hp : a.parity
    · rw [if_pos (f4.1 hp)] at hy
      have hsin : 0 < Real.sin y := Real.sin_pos_of_pos_of_lt_pi hy.1 hy.2
      rw [abs_of_pos hsin] at hc
      cases hf : a.frame <;> simp only [Bool.false_eq_true, if_false, if_true]
      · rw [angles_rep _ _ _ d1 d2 d3 x y z ⟨hx.1, hx.2.le⟩ hy ⟨hz.1, hz.2.le⟩ hc]
      · rw [angles_rep _ _ _ d1 d2 d3 z y x ⟨hz.1, hz.2.le⟩ hy ⟨hx.1, hx.2.le⟩ hc]
    · rw [if_neg (fun e => by rw [f4.2 e] at hp; exact Bool.false_ne_true hp)] at hy
      have hsin : 0 < Real.sin (-y) := Real.sin_pos_of_pos_of_lt_pi (by linarith) (by linarith)
      have hc' : Real.sin (-y) > eps := by
        rw [← abs_of_pos hsin, Real.sin_neg, abs_neg]; exact hc
      cases hf : a.frame <;> simp only [Bool.false_eq_true, if_false, if_true]
      · rw [angles_rep _ _ _ d1 d2 d3 (-x) (-y) (-z) ⟨by linarith, by linarith⟩ ⟨by linarith, by linarith⟩
          ⟨by linarith, by linarith⟩ hc']
        simp
      · rw [angles_rep _ _ _ d1 d2 d3 (-z) (-y) (-x) ⟨by linarith, by linarith⟩ ⟨by linarith, by linarith⟩
          ⟨by linarith, by linarith⟩ hc']
        simp

/-! ### Pan, tilt and roll -/

theorem ptr_turns (p t r : ℝ) : rotationFromPtr p t r = turn 2 r * turn 0 (t + Real.pi / 2) * turn 2 p := by
  unfold rotationFromPtr
  rw [vec_z, vec_z, vec_x, rodrigues_axis, rodrigues_axis, rodrigues_axis]

theorem ptr_matrix (p t r : ℝ) : rotationFromPtr p t r =
    !![Real.cos r * Real.cos p + Real.sin r * Real.sin t * Real.sin p,
        -(Real.cos r * Real.sin p) + Real.sin r * Real.sin t * Real.cos p, Real.sin r * Real.cos t;
      Real.sin r * Real.cos p - Real.cos r * Real.sin t * Real.sin p,
        -(Real.sin r * Real.sin p) - Real.cos r * Real.sin t * Real.cos p, -(Real.cos r * Real.cos t);
      Real.cos t * Real.sin p, Real.cos t * Real.cos p, -Real.sin t] := by
  rw [ptr_turns]
  simp only [turn, Matrix.mul_fin_three, Real.cos_add_pi_div_two, Real.sin_add_pi_div_two]
  apply lit_congr <;> ring

/-- The rotation of pan, tilt and roll: the camera looks along the compass angle `pan`, by `tilt` below the horizon; without
roll its x axis is level and its y axis does not point up; the roll turns the camera about its viewing direction. -/
theorem C106_ptr_meaning (p t r : ℝ) :
    IsRot (rotationFromPtr p t r) ∧
    rotationFromPtr p t r 2 = ![Real.cos t * Real.sin p, Real.cos t * Real.cos p, -Real.sin t] ∧
    rotationFromPtr p t 0 0 2 = 0 ∧ rotationFromPtr p t 0 1 2 = -Real.cos t ∧
    rotationFromPtr p t r = turn 2 r * rotationFromPtr p t 0 := by
  refine ⟨?_, ?_, ?_, ?_, ?_⟩
  · rw [ptr_turns]
    exact rot_mul (rot_mul (turn_rot _ _) (turn_rot _ _)) (turn_rot _ _)
  · rw [ptr_matrix]; ext i; fin_cases i <;> simp
  · rw [ptr_matrix]; simp
  · rw [ptr_matrix]; simp
  · rw [ptr_turns, ptr_turns]
    have : turn 2 0 = 1 := by ext i j; fin_cases i <;> fin_cases j <;> simp [turn]
    rw [this, one_mul, Matrix.mul_assoc]

theorem t_row (R : Mat 3) (v : Vec 3) (i : Fin 3) (h : v = Pi.single i 1) : Rᵀ *ᵥ v = R i := by
  rw [h]
  ext j
  rw [Matrix.mulVec_single_one]
  rfl

theorem e_x : (![1, 0, 0] : Vec 3) = Pi.single 0 1 := vec_x 1
theorem e_z : (![0, 0, 1] : Vec 3) = Pi.single 2 1 := vec_z 1

theorem norm_vert (a b : ℝ) (hb : 0 ≤ b) : AlignPrior.norm (![b * Real.cos a, -(b * Real.sin a), 0] : Vec 3) = b := by
  unfold AlignPrior.norm
  rw [show (![b * Real.cos a, -(b * Real.sin a), 0] : Vec 3) ⬝ᵥ ![b * Real.cos a, -(b * Real.sin a), 0] = b ^ 2 by
    simp [dotProduct, Fin.sum_univ_three]; linear_combination (b ^ 2) * Real.cos_sq_add_sin_sq a, Real.sqrt_sq hb]

theorem roll_value (p t r : ℝ) (ht : 0 < Real.cos t) :
    rollFromRotation (rotationFromPtr p t r) = some (Real.arcsin (Real.sin r)) := by
  unfold rollFromRotation
  rw [t_row _ _ 0 e_x, t_row _ _ 2 e_z]
  have ez : (rotationFromPtr p t r) 2 = ![Real.cos t * Real.sin p, Real.cos t * Real.cos p, -Real.sin t] :=
    (C106_ptr_meaning p t r).2.1
  have ex : (rotationFromPtr p t r) 0 = ![Real.cos r * Real.cos p + Real.sin r * Real.sin t * Real.sin p,
        -(Real.cos r * Real.sin p) + Real.sin r * Real.sin t * Real.cos p, Real.sin r * Real.cos t] := by
    rw [ptr_matrix]; ext i; fin_cases i <;> simp
  rw [ex, ez]
  have ec : cross ![Real.cos t * Real.sin p, Real.cos t * Real.cos p, -Real.sin t] ![0, 0, 1] =
      ![Real.cos t * Real.cos p, -(Real.cos t * Real.sin p), 0] := by
    apply RelativePose.vec_ext <;> simp [cross]
  simp only [ec, norm_vert p _ ht.le, if_neg ht.ne']
  congr 2
  have es : (1 / Real.cos t) • (![Real.cos t * Real.cos p, -(Real.cos t * Real.sin p), 0] : Vec 3) =
      ![Real.cos p, -Real.sin p, 0] := by
    apply RelativePose.vec_ext <;> simp <;> field_simp
  rw [es, RelativePose.dot3]
  simp [cross]
  have h1 := Real.cos_sq_add_sin_sq p
  have h2 := Real.cos_sq_add_sin_sq t
  linear_combination (Real.sin r * (Real.cos t ^ 2 + Real.sin t ^ 2 )) * h1 + Real.sin r * h2

theorem pan_value (p t r : ℝ) (ht : 0 < Real.cos t) (hp : -Real.pi < p ∧ p ≤ Real.pi) :
    panFromRotation (rotationFromPtr p t r) = p := by
  unfold panFromRotation
  rw [t_row _ _ 2 e_z, (C106_ptr_meaning p t r).2.1]
  exact Geo.arctan2_mul_cos_sin ht hp.1 hp.2

theorem tilt_value (p t r : ℝ) (ht : -(Real.pi / 2) ≤ t ∧ t ≤ Real.pi / 2) :
    tiltFromRotation (rotationFromPtr p t r) = t := by
  unfold tiltFromRotation
  rw [t_row _ _ 2 e_z, (C106_ptr_meaning p t r).2.1]
  have hc : 0 ≤ Real.cos t := Real.cos_nonneg_of_mem_Icc ⟨ht.1, ht.2⟩
  have e : Real.sqrt ((Real.cos t * Real.sin p) ^ 2 + (Real.cos t * Real.cos p) ^ 2) = Real.cos t := by
    rw [show (Real.cos t * Real.sin p) ^ 2 + (Real.cos t * Real.cos p) ^ 2 = Real.cos t ^ 2 by
      linear_combination (Real.cos t ^ 2) * Real.cos_sq_add_sin_sq p, Real.sqrt_sq hc]
  have := Geo.arctan2_mul_cos_sin (k := 1) (t := t) one_pos (by linarith [Real.pi_pos]) (by linarith [Real.pi_pos])
  rw [one_mul, one_mul] at this
  simp only [Matrix.cons_val_zero, Matrix.cons_val_one, Matrix.cons_val, neg_neg]
  rw [e, this]

theorem cos_pos_of {t : ℝ} (ht : -(Real.pi / 2) < t ∧ t < Real.pi / 2) : 0 < Real.cos t :=
  Real.cos_pos_of_mem_Ioo ⟨ht.1, ht.2⟩

/-- Pan, tilt and roll come back when the camera does not look straight up or down and is not upside down. -/
theorem C106_ptr_round (p t r : ℝ) (hp : -Real.pi < p ∧ p ≤ Real.pi) (ht : -(Real.pi / 2) < t ∧ t < Real.pi / 2)
    (hr : -(Real.pi / 2) ≤ r ∧ r ≤ Real.pi / 2) : ptrFromRotation (rotationFromPtr p t r) = (p, t, some r) := by
  unfold ptrFromRotation
  rw [pan_value p t r (cos_pos_of ht) hp, tilt_value p t r ⟨ht.1.le, ht.2.le⟩, roll_value p t r (cos_pos_of ht),
    Real.arcsin_sin hr.1 hr.2]

/-- A camera that is upside down gets the roll of another camera, mirrored at a quarter turn. -/
theorem C106_roll_folded (p t r : ℝ) (hp : -Real.pi < p ∧ p ≤ Real.pi) (ht : -(Real.pi / 2) < t ∧ t < Real.pi / 2)
    (hr : Real.pi / 2 < r ∧ r ≤ Real.pi) :
    ptrFromRotation (rotationFromPtr p t r) = (p, t, some (Real.pi - r)) ∧
      rotationFromPtr p t r ≠ rotationFromPtr p t (Real.pi - r) := by
  refine ⟨?_, ?_⟩
  · unfold ptrFromRotation
    rw [pan_value p t r (cos_pos_of ht) hp, tilt_value p t r ⟨ht.1.le, ht.2.le⟩, roll_value p t r (cos_pos_of ht),
      ← Real.sin_pi_sub, Real.arcsin_sin (by linarith [Real.pi_pos]) (by linarith)]
  · intro h
    have := congrFun (congrFun h 1) 2
    rw [ptr_matrix, ptr_matrix] at this
    simp at this
    have hc : Real.cos r < 0 := Real.cos_neg_of_pi_div_two_lt_of_lt hr.1 (by linarith [Real.pi_pos])
    nlinarith [cos_pos_of ht]

/-- Looking straight up or down, no roll is computed. -/
theorem C106_roll_vertical (p r : ℝ) (t : ℝ) (ht : Real.cos t = 0) : rollFromRotation (rotationFromPtr p t r) = none := by
  unfold rollFromRotation
  rw [t_row _ _ 2 e_z, (C106_ptr_meaning p t r).2.1, ht]
  have ec : cross ![0 * Real.sin p, 0 * Real.cos p, -Real.sin t] ![0, 0, 1] = 0 := by
    apply RelativePose.vec_ext <;> simp [cross]
  simp only [ec]
  simp [AlignPrior.norm]

theorem szxz_eq : axesOf "szxz" = some szxz := by decide +kernel

/-- The second version is the same function, for all angles. -/
theorem C106_ptr_same (p t r : ℝ) : rotationFromPtr2 p t r = rotationFromPtr p t r := by
  unfold rotationFromPtr2
  rw [C106_euler_names _ _ szxz_eq, ptr_turns]
  rfl

/-- With the second version every roll comes back. -/
theorem C106_ptr2_round (p t r : ℝ) (hp : -Real.pi < p ∧ p ≤ Real.pi) (ht : -(Real.pi / 2) < t ∧ t < Real.pi / 2)
    (hr : -Real.pi < r ∧ r ≤ Real.pi) (hc : Real.cos t > (2 : ℝ) ^ (-50 : ℤ)) :
    ptrFromRotation2 (rotationFromPtr2 p t r) = (p, t, r) := by
  have hs : szxz = ⟨2, false, true, false⟩ := by decide +kernel
  have heps : eps = (2 : ℝ) ^ (-50 : ℤ) := by unfold eps; norm_num
  unfold ptrFromRotation2 rotationFromPtr2 eulerFromMatrix eulerMatrix
  rw [hs]
  simp only [Bool.false_eq_true, if_false]
  rw [angles_rep _ _ _ (by decide) (by decide) (by decide) p _ r hp ⟨by linarith, by linarith⟩ hr
    (by rw [Real.sin_add_pi_div_two, heps]; exact hc)]
  simp

/-- With the second version every rotation comes back, when the camera looks straight up or down too, except next to it. -/
theorem C106_ptr2_inverse (R : Mat 3) (hR : IsRot R)
    (hl : R 2 2 ^ 2 = 1 ∨ Real.sqrt (1 - R 2 2 ^ 2) > (2 : ℝ) ^ (-50 : ℤ)) (p t r : ℝ)
    (h : ptrFromRotation2 R = (p, t, r)) : rotationFromPtr2 p t r = R := by
  unfold ptrFromRotation2 at h
  obtain ⟨x, y, z, e⟩ : ∃ x y z, eulerFromMatrix R szxz = (x, y, z) := ⟨_, _, _, rfl⟩
  rw [e] at h
  simp only [Prod.mk.injEq] at h
  obtain ⟨rfl, rfl, rfl⟩ := h
  unfold rotationFromPtr2
  rw [sub_add_cancel, C106_euler_names _ _ szxz_eq]
  exact C106_euler_inverse _ _ szxz_eq R hR hl _ _ _ e

/-! ### Omega, phi and kappa -/

theorem opk_matrix (w p k : ℝ) : rotationFromOpk w p k =
    !![Real.cos k * Real.cos p, Real.cos k * Real.sin p * Real.sin w + Real.sin k * Real.cos w,
        -(Real.cos k * Real.sin p * Real.cos w) + Real.sin k * Real.sin w;
      Real.sin k * Real.cos p, Real.sin k * Real.sin p * Real.sin w - Real.cos k * Real.cos w,
        -(Real.sin k * Real.sin p * Real.cos w) - Real.cos k * Real.sin w;
      -Real.sin p, Real.cos p * Real.sin w, -(Real.cos p * Real.cos w)] := by
  unfold rotationFromOpk
  rw [vec_z, vec_y, vec_x, rodrigues_axis, rodrigues_axis, rodrigues_axis]
  simp only [turn, opkAxes, Matrix.mul_fin_three, Real.cos_neg, Real.sin_neg]
  apply lit_congr <;> ring

/-- The rotation of omega, phi and kappa: the camera of aerial surveying, with x to the right, y up in the image and z backwards, is
turned from the axes of the world by omega about x, then phi about the turned y, then kappa about the turned z. -/
theorem C106_opk_meaning (w p k : ℝ) :
    IsRot (rotationFromOpk w p k) ∧
    (rotationFromOpk w p k)ᵀ * diagonal ![1, -1, -1] = turn 0 w * turn 1 p * turn 2 k := by
  constructor
  · unfold rotationFromOpk
    rw [vec_z, vec_y, vec_x, rodrigues_axis, rodrigues_axis, rodrigues_axis]
    refine rot_mul (rot_mul (rot_mul ?_ (turn_rot _ _)) (turn_rot _ _)) (turn_rot _ _)
    constructor
    · ext i j; fin_cases i <;> fin_cases j <;> simp [opkAxes, Matrix.mul_apply, Fin.sum_univ_three]
    · rw [det_fin_three]; simp [opkAxes]
  · rw [opk_matrix]
    ext i j
    fin_cases i <;> fin_cases j <;> simp [turn, Matrix.mul_apply, Fin.sum_univ_three] <;> ring

/-- Omega, phi and kappa come back. -/
theorem C106_opk_round (w p k : ℝ) (hw : -Real.pi < w ∧ w ≤ Real.pi) (hp : -(Real.pi / 2) < p ∧ p < Real.pi / 2)
    (hk : -Real.pi < k ∧ k ≤ Real.pi) : opkFromRotation (rotationFromOpk w p k) = (w, p, k) := by
  have hc := cos_pos_of hp
  unfold opkFromRotation
  rw [opk_matrix]
  simp only [opkAxes]
  have e1 := Geo.arctan2_mul_cos_sin hc hw.1 hw.2
  have e2 := Geo.arctan2_mul_cos_sin hc hk.1 hk.2
  have e3 := Real.arcsin_sin hp.1.le hp.2.le
  simp only [Prod.mk.injEq]
  refine ⟨?_, ?_, ?_⟩
  · refine Eq.trans ?_ e1; congr 1 <;> simp [Matrix.mul_apply, Fin.sum_univ_three]
  · conv_rhs => rw [← e3]
    congr 1; simp [Matrix.mul_apply, Fin.sum_univ_three]
  · refine Eq.trans ?_ e2; congr 1 <;> simp [Matrix.mul_apply, Fin.sum_univ_three] <;> ring

theorem arcsin_cos_sin {x : ℝ} (h : x ^ 2 ≤ 1) : Real.sin (Real.arcsin x) = x ∧ Real.cos (Real.arcsin x) = Real.sqrt (1 - x ^ 2) := by
  have := abs_le_of_sq_le_sq' (show x ^ 2 ≤ 1 ^ 2 by simpa using h) zero_le_one
  exact ⟨Real.sin_arcsin this.1 this.2, Real.cos_arcsin x⟩

/-- The angles of a rotation give it back, whenever the camera does not look level along the east axis. -/
theorem C106_opk_inverse (R : Mat 3) (hR : IsRot R) (hl : R 2 0 ^ 2 < 1) (w p k : ℝ) (h : opkFromRotation R = (w, p, k)) :
    rotationFromOpk w p k = R := by
  unfold opkFromRotation at h
  have q : ∀ i j, (Rᵀ * opkAxes) i j = if j = 0 then R 0 i else -R j i := by
    intro i j
    rw [Matrix.mul_apply, Fin.sum_univ_three]
    fin_cases j <;> simp [opkAxes]
  simp only [q, Prod.mk.injEq, if_true, if_false, show (2 : Fin 3) ≠ 0 by decide, show (1 : Fin 3) ≠ 0 by decide] at h
  obtain ⟨h1, h2, h3⟩ := h
  obtain ⟨-, -, n1, n2⟩ := rot_cof hR 2 0 1 (by decide) (by decide) (by decide)
  obtain ⟨-, -, m1, m2⟩ := rot_cof hR 0 1 2 (by decide) (by decide) (by decide)
  have hs : 0 < Real.sqrt (1 - R 2 0 ^ 2) := Real.sqrt_pos.2 (by linarith)
  obtain ⟨s, hsd⟩ : ∃ s, s = Real.sqrt (1 - R 2 0 ^ 2) := ⟨_, rfl⟩
  have hs2 : s ^ 2 = 1 - R 2 0 ^ 2 := by rw [hsd, Real.sq_sqrt (by linarith)]
  rw [← hsd] at hs
  obtain ⟨w1, w2⟩ := atan_of (x := -R 2 2) (y := - -R 2 1) hs (by linarith)
  obtain ⟨p1, p2⟩ := arcsin_cos_sin (x := -R 2 0) (by linarith)
  rw [show (1 : ℝ) - (-R 2 0) ^ 2 = 1 - R 2 0 ^ 2 by ring, ← hsd] at p2
  obtain ⟨k1, k2⟩ := atan_of (x := R 0 0) (y := - -R 1 0) hs (by linarith)
  rw [h1] at w1 w2
  rw [h2] at p1 p2
  rw [h3] at k1 k2
  rw [opk_matrix, w1, w2, p1, p2, k1, k2]
  obtain ⟨c11, c12, -, -⟩ := rot_cof hR 0 1 2 (by decide) (by decide) (by decide)
  obtain ⟨-, c01, -, -⟩ := rot_cof hR 2 0 1 (by decide) (by decide) (by decide)
  obtain ⟨-, c02, -, -⟩ := rot_cof hR 1 0 2 (by decide) (by decide) (by decide)
  conv_rhs => rw [mat_eta R]
  apply lit_congr
  · field_simp
  · field_simp
    linear_combination (-(R 0 1)) * hs2 - c01 - R 2 0 * c12
  · field_simp
    linear_combination (-(R 0 2)) * hs2 - c02 + R 2 0 * c11
  · field_simp
  · field_simp
    linear_combination (-(R 1 1)) * hs2 - c11 + R 2 0 * c02
  · field_simp
    linear_combination (-(R 1 2)) * hs2 - c12 - R 2 0 * c01
  · ring
  · field_simp
  · field_simp

/-- With phi a quarter turn different angles give the same rotation, so they cannot come back. -/
theorem C106_opk_lock (w k d : ℝ) : rotationFromOpk (w + d) (Real.pi / 2) (k - d) = rotationFromOpk w (Real.pi / 2) k := by
  rw [opk_matrix, opk_matrix]
  simp only [Real.cos_pi_div_two, Real.sin_pi_div_two, mul_zero, zero_mul, mul_one]
  apply lit_congr <;> first | rfl | skip
  · have := Real.sin_add (w + d) (k - d)
    have h2 := Real.sin_add w k
    rw [show w + d + (k - d) = w + k by ring] at this
    linarith
  · have := Real.cos_add (w + d) (k - d)
    have h2 := Real.cos_add w k
    rw [show w + d + (k - d) = w + k by ring] at this
    linarith
  · have := Real.cos_add (w + d) (k - d)
    have h2 := Real.cos_add w k
    rw [show w + d + (k - d) = w + k by ring] at this
    linarith
  · have := Real.sin_add (w + d) (k - d)
    have h2 := Real.sin_add w k
    rw [show w + d + (k - d) = w + k by ring] at this
    linarith

/-! ### Up vector and compass -/

theorem columns_mul (r1 r2 r3 : Vec 3) (t : ℝ) : columns r1 r2 r3 * turn 2 t =
    columns (Real.cos t • r1 + Real.sin t • r2) (-Real.sin t • r1 + Real.cos t • r2) r3 := by
  ext i j
  rw [Matrix.mul_apply, Fin.sum_univ_three]
  fin_cases j <;> simp [columns, turn] <;> ring

theorem columns_rot {a b c : Vec 3} (h1 : a ⬝ᵥ a = 1) (h2 : b ⬝ᵥ b = 1) (h3 : a ⬝ᵥ b = 0) (h4 : c = cross a b) :
    IsRot (columns a b c) := by
  rw [RelativePose.dot3] at h1 h2 h3
  constructor
  · ext i j
    rw [Matrix.mul_apply, Fin.sum_univ_three]
    subst h4
    fin_cases i <;> fin_cases j <;> simp [columns, cross] 
    · linear_combination h1
    · linear_combination h3
    · ring
    · linear_combination h3
    · linear_combination h2
    · ring
    · ring
    · ring
    · linear_combination (b 0 ^ 2 + b 1 ^ 2 + b 2 ^ 2) * h1 + h2 - (a 0 * b 0 + a 1 * b 1 + a 2 * b 2) * h3
  · rw [det_fin_three]
    subst h4
    simp [columns, cross]
    linear_combination (b 0 ^ 2 + b 1 ^ 2 + b 2 ^ 2) * h1 + h2 - (a 0 * b 0 + a 1 * b 1 + a 2 * b 2) * h3

theorem columns_third (a b c : Vec 3) (i : Fin 3) : columns a b c i 2 = c i := by simp [columns]

theorem columns_up (a b c : Vec 3) : columns a b c *ᵥ ![0, 0, 1] = c := by
  rw [e_z, Matrix.mulVec_single_one]
  ext i
  exact columns_third a b c i

theorem radians_bound {x : ℝ} (h : -180 < x ∧ x ≤ 180) : -Real.pi < radians x ∧ radians x ≤ Real.pi := by
  unfold radians
  have := Real.pi_pos
  constructor
  · have : -180 * Real.pi < x * Real.pi := mul_lt_mul_of_pos_right h.1 this
    linarith
  · have : x * Real.pi ≤ 180 * Real.pi := mul_le_mul_of_nonneg_right h.2 this.le
    linarith

theorem degrees_radians' (x : ℝ) : degrees (radians x) = x := by
  unfold degrees radians
  have := Real.pi_ne_zero
  field_simp

/-- What is left of the viewing direction of a camera when its vertical part is removed: its square length, for the direction
`up` in the axes of the camera. -/
noncomputable def levelPart (up : Vec 3) : ℝ := 1 - up 2 ^ 2 / (up 0 ^ 2 + up 1 ^ 2 + up 2 ^ 2)

theorem unit_of (up : Vec 3) (h : up ≠ 0) :
    ∃ n : ℝ, 0 < n ∧ n ^ 2 = up 0 ^ 2 + up 1 ^ 2 + up 2 ^ 2 ∧ AlignPrior.norm up = n :=
  ⟨AlignPrior.norm up, norm_pos up h, norm_sq up, rfl⟩

/-- The rotation made of the direction that is up in the camera and of a compass angle, for a camera that does not look
straight up or down: it is a rotation with this direction up, which looks along the compass angle. -/
theorem C106_up_compass (up : Vec 3) (compass : ℝ) (h0 : up ≠ 0) (hl : Real.sqrt (levelPart up) > 1 / 10 ^ 8)
    (hc : -180 < compass ∧ compass ≤ 180) :
    IsRot (rotationFromUp up compass) ∧ (∃ k : ℝ, 0 < k ∧ rotationFromUp up compass *ᵥ ![0, 0, 1] = k • up) ∧
    cameraUpVector (rotationFromUp up compass) = rotationFromUp up compass *ᵥ ![0, 0, 1] ∧
    cameraCompassAngle (rotationFromUp up compass) = compass ∧
    (∃ l : ℝ, 0 < l ∧ rotationFromUp up compass 2 0 = l * Real.sin (radians compass) ∧
      rotationFromUp up compass 2 1 = l * Real.cos (radians compass)) := by
  obtain ⟨n, hn, hn2, hne⟩ := unit_of up h0
  obtain ⟨v, hv⟩ : ∃ v : Vec 3, v = (1 / n) • up := ⟨_, rfl⟩
  have hv0 : v 0 = up 0 / n := by rw [hv]; simp; ring
  have hv1 : v 1 = up 1 / n := by rw [hv]; simp; ring
  have hv2 : v 2 = up 2 / n := by rw [hv]; simp; ring
  have hu : v 0 ^ 2 + v 1 ^ 2 + v 2 ^ 2 = 1 := by
    rw [hv0, hv1, hv2]; field_simp; linarith
  have hlp : levelPart up = 1 - v 2 ^ 2 := by
    unfold levelPart; rw [← hn2, hv2]; field_simp
  obtain ⟨w, hw⟩ : ∃ w : Vec 3, w = ![0, 0, 1] - ((![0, 0, 1] : Vec 3) ⬝ᵥ v) • v := ⟨_, rfl⟩
  have hez : (![0, 0, 1] : Vec 3) ⬝ᵥ v = v 2 := by rw [RelativePose.dot3]; simp
  rw [hez] at hw
  have hw0 : w 0 = -(v 2 * v 0) := by rw [hw]; simp
  have hw1 : w 1 = -(v 2 * v 1) := by rw [hw]; simp
  have hw2 : w 2 = 1 - v 2 ^ 2 := by rw [hw]; simp; ring
  obtain ⟨s, hs⟩ : ∃ s, s = Real.sqrt (levelPart up) := ⟨_, rfl⟩
  have hlpos : 0 < levelPart up := by
    by_contra hneg
    rw [Real.sqrt_eq_zero_of_nonpos (not_lt.1 hneg)] at hl
    norm_num at hl
  have hspos : 0 < s := by rw [hs]; exact Real.sqrt_pos.2 hlpos
  have hs2 : s ^ 2 = 1 - v 2 ^ 2 := by rw [hs, Real.sq_sqrt hlpos.le, hlp]
  have hwn : AlignPrior.norm w = s := by
    have : AlignPrior.norm w ^ 2 = s ^ 2 := by
      rw [norm_sq, hw0, hw1, hw2, hs2]
      linear_combination (v 2 ^ 2) * hu
    exact (pow_left_inj₀ (norm_nonneg' w) hspos.le two_ne_zero).1 this
  have hR : rotationFromUp up compass =
      columns (cross ((1 / s) • w) v) ((1 / s) • w) v * turn 2 (radians compass) := by
    unfold rotationFromUp
    rw [hne, vec_z (radians compass), rodrigues_axis]
    simp only [← hv, hez, ← hw, hwn]
    rw [if_pos (by rw [hs]; norm_num at hl ⊢; exact hl)]
  obtain ⟨b, hb⟩ : ∃ b : Vec 3, b = (1 / s) • w := ⟨_, rfl⟩
  rw [← hb] at hR
  have hb0 : b 0 = -(v 2 * v 0) / s := by rw [hb]; simp [hw0]; ring
  have hb1 : b 1 = -(v 2 * v 1) / s := by rw [hb]; simp [hw1]; ring
  have hb2 : b 2 = s := by rw [hb]; simp [hw2, ← hs2]; field_simp
  have hbb : b ⬝ᵥ b = 1 := by
    rw [RelativePose.dot3, hb0, hb1, hb2]
    field_simp
    linear_combination (v 2 ^ 2) * hu + (s ^ 2 + 1 - v 2 ^ 2 - 1) * hs2
  have hbv : b ⬝ᵥ v = 0 := by
    rw [RelativePose.dot3, hb0, hb1, hb2]
    field_simp
    linear_combination (v 2) * hs2 - (v 2) * hu
  have hvv : v ⬝ᵥ v = 1 := by rw [RelativePose.dot3]; linarith
  have hrot : IsRot (rotationFromUp up compass) := by
    rw [hR]
    refine rot_mul ?_ (turn_rot _ _)
    have haa : cross b v ⬝ᵥ cross b v = 1 := by
      rw [RelativePose.cross_dot_cross, hbb, hvv, hbv]; ring
    apply columns_rot haa hbb
    · rw [RelativePose.dot3]; simp [cross]; ring
    · rw [RelativePose.dot3] at hbb hbv
      apply RelativePose.vec_ext <;> simp [cross]
      · linear_combination (-(v 0)) * hbb + (b 0) * hbv
      · linear_combination (-(v 1)) * hbb + (b 1) * hbv
      · linear_combination (-(v 2)) * hbb + (b 2) * hbv
  have hup : rotationFromUp up compass *ᵥ ![0, 0, 1] = v := by
    rw [hR, columns_mul, columns_up]
  have ha2 : cross b v 2 = 0 := by simp [cross, hb0, hb1]; ring
  have hrow : rotationFromUp up compass 2 0 = s * Real.sin (radians compass) ∧
      rotationFromUp up compass 2 1 = s * Real.cos (radians compass) := by
    rw [hR, columns_mul]
    simp only [columns, if_true, show (1 : Fin 3) ≠ 0 by decide, if_false, Pi.add_apply, Pi.smul_apply, smul_eq_mul, ha2, hb2]
    constructor <;> ring
  refine ⟨hrot, ⟨1 / n, by positivity, by rw [hup, hv]⟩, ?_, ?_, s, hspos, hrow⟩
  · ext i
    rw [e_z, Matrix.mulVec_single_one]
    rfl
  · unfold cameraCompassAngle
    obtain ⟨c1, c2⟩ := radians_bound hc
    rw [hrow.1, hrow.2, Geo.arctan2_mul_cos_sin hspos c1 c2, degrees_radians']

/-- Looking straight up or down the result is a rotation with the given direction up. -/
theorem C106_up_vertical (up : Vec 3) (compass : ℝ) (h0 : up 0 = 0) (h1 : up 1 = 0) (h2 : up 2 ≠ 0) :
    IsRot (rotationFromUp up compass) ∧ (∃ k : ℝ, 0 < k ∧ rotationFromUp up compass *ᵥ ![0, 0, 1] = k • up) := by
  have hne : up ≠ 0 := fun h => h2 (by rw [h]; rfl)
  obtain ⟨n, hn, hn2, hnn⟩ := unit_of up hne
  rw [h0, h1] at hn2
  obtain ⟨v, hv⟩ : ∃ v : Vec 3, v = (1 / n) • up := ⟨_, rfl⟩
  have hv0 : v 0 = 0 := by rw [hv]; simp [h0]
  have hv1 : v 1 = 0 := by rw [hv]; simp [h1]
  have hv2 : v 2 ^ 2 = 1 := by
    have e : v 2 = n⁻¹ * up 2 := by rw [hv]; simp
    have e2 : up 2 ^ 2 = n ^ 2 := by rw [hn2]; ring
    rw [e, mul_pow, e2, inv_pow, inv_mul_cancel₀ (by positivity)]
  have hez : (![0, 0, 1] : Vec 3) ⬝ᵥ v = v 2 := by rw [RelativePose.dot3]; simp
  have hw : (![0, 0, 1] - v 2 • v : Vec 3) = 0 := by
    apply RelativePose.vec_ext <;> simp [hv0, hv1]
    linarith
  have hR : rotationFromUp up compass = columns ![1, 0, 0] (cross v ![1, 0, 0]) v * turn 2 (radians compass) := by
    unfold rotationFromUp
    rw [hnn, vec_z (radians compass), rodrigues_axis]
    simp only [← hv, hez, hw]
    rw [if_neg (by simp [AlignPrior.norm]; norm_num)]
  constructor
  · rw [hR]
    refine rot_mul ?_ (turn_rot _ _)
    apply columns_rot
    · rw [RelativePose.dot3]; simp
    · rw [RelativePose.dot3]; simp [cross, hv1]; linarith
    · rw [RelativePose.dot3]; simp [cross]
    · apply RelativePose.vec_ext <;> simp [cross, hv0, hv1]
  · refine ⟨1 / n, by positivity, ?_⟩
    rw [hR, columns_mul, ← hv, columns_up]

/-! ### The rotation of a shot from its metadata -/

/-- The direction of the first row of the upright picture in the stored picture, for each orientation of the Exif standard
(1 to 8: where row 0 and column 0 are shown: top left, top right, bottom right, bottom left, left top, right top, right bottom,
left bottom), as a vector of the camera, whose x axis points to the right and whose y axis points down. -/
def exifTop : ℤ → Option (Vec 3)
  | 1 | 2 => some ![0, -1, 0]
  | 3 | 4 => some ![0, 1, 0]
  | 5 | 6 => some ![-1, 0, 0]
  | 7 | 8 => some ![1, 0, 0]
  | _ => none

/-- The direction taken for up: opposite to the measured gravity, else the top of the upright picture, where an unknown
orientation counts as 1. -/
theorem C106_gravity (m : Measurements) :
    gravityUp m = match m.gravityDown, m.orientation with
      | some g, _ => some (-g)
      | none, none => none
      | none, some o => some ((exifTop o).getD ![0, -1, 0]) := by
  unfold gravityUp
  cases hg : m.gravityDown with
  | some g => rfl
  | none =>
    cases ho : m.orientation with
    | none => rfl
    | some o =>
      simp only
      by_cases h : 1 ≤ o ∧ o ≤ 8
      · rw [if_pos h]
        obtain ⟨h1, h2⟩ := h
        interval_cases o <;> simp [guessGravityUp, exifTop]
      · rw [if_neg h]
        have : exifTop o = none := by
          unfold exifTop
          split <;> first | rfl | (exfalso; apply h; constructor <;> norm_num)
        rw [this]
        simp [guessGravityUp]

/-- The rotation of a shot: from omega, phi and kappa in degrees when they are known; else from the direction that is up and the
compass angle, taken for north when it is missing; none without both. -/
theorem C106_metadata (m : Measurements) :
    (∀ w p k : ℝ, m.opk = some (w, p, k) →
      rotationFromMetadata m = some (rotationFromOpk (w * Real.pi / 180) (p * Real.pi / 180) (k * Real.pi / 180))) ∧
    (m.opk = none → ∀ up : Vec 3, gravityUp m = some up → ∀ c : ℝ, (m.compass = some c ∨ (m.compass = none ∧ c = 0)) →
      rotationFromMetadata m = some (rotationFromUp up c)) ∧
    (m.opk = none → gravityUp m = none → rotationFromMetadata m = none) := by
  refine ⟨?_, ?_, ?_⟩
  · intro w p k h
    simp [rotationFromMetadata, rotationFromAngles, h, radians]
  · intro h up hu c hc
    simp only [rotationFromMetadata, rotationFromAngles, h, rotationFromOrientation, hu]
    rcases hc with hc | ⟨hc, rfl⟩ <;> rw [hc] <;> rfl
  · intro h hu
    simp [rotationFromMetadata, rotationFromAngles, h, rotationFromOrientation, hu]

/-- A picture with an Exif orientation and no other direction: the shot looks level along the compass angle, with the top of the
upright picture up. -/
theorem C106_level (m : Measurements) (o : ℤ) (h1 : m.opk = none) (h2 : m.gravityDown = none) (h3 : m.orientation = some o)
    (c : ℝ) (hc : m.compass = some c) (hb : -180 < c ∧ c ≤ 180) :
    ∃ (R : Mat 3) (top : Vec 3), rotationFromMetadata m = some R ∧ exifTop (if 1 ≤ o ∧ o ≤ 8 then o else 1) = some top ∧ IsRot R ∧
      R *ᵥ ![0, 0, 1] = top ∧ R 2 = ![Real.sin (radians c), Real.cos (radians c), 0] := by
  have hg := C106_gravity m
  rw [h2, h3] at hg
  simp only at hg
  obtain ⟨top, ht⟩ : ∃ top, top = (exifTop o).getD ![0, -1, 0] := ⟨_, rfl⟩
  rw [← ht] at hg
  have htop : exifTop (if 1 ≤ o ∧ o ≤ 8 then o else 1) = some top ∧ top 2 = 0 ∧ top 0 ^ 2 + top 1 ^ 2 + top 2 ^ 2 = 1 := by
    by_cases h : 1 ≤ o ∧ o ≤ 8
    · rw [if_pos h]
      obtain ⟨h1, h2⟩ := h
      subst ht
      interval_cases o <;> simp [exifTop]
    · rw [if_neg h]
      have : exifTop o = none := by
        unfold exifTop
        split <;> first | rfl | (exfalso; apply h; constructor <;> norm_num)
      rw [this] at ht
      subst ht
      simp [exifTop]
  obtain ⟨t1, t2, t3⟩ := htop
  have hne : top ≠ 0 := fun h => by rw [h] at t3; simp at t3
  have hlev : levelPart top = 1 := by unfold levelPart; rw [t3, t2]; simp
  have hmain := C106_up_compass top c hne (by rw [hlev, Real.sqrt_one]; norm_num) hb
  obtain ⟨r1, ⟨k, hk, r2⟩, -, -, l, hl, r3, r4⟩ := hmain
  refine ⟨_, top, (C106_metadata m).2.1 h1 top hg c (Or.inl hc), t1, r1, ?_, ?_⟩
  · have hk1 : k = 1 := by
      obtain ⟨-, -, -, n⟩ := rot_cof r1 2 0 1 (by decide) (by decide) (by decide)
      have e : ∀ i : Fin 3, rotationFromUp top c i 2 = k * top i := by
        intro i
        have := congrFun r2 i
        rw [e_z, Matrix.mulVec_single_one] at this
        exact this
      rw [e, e, e] at n
      have : k ^ 2 = 1 := by linear_combination n - (k ^ 2) * t3
      nlinarith
    rw [r2, hk1, one_smul]
  · have e2 : rotationFromUp top c 2 2 = 0 := by
      have := congrFun r2 2
      rw [e_z, Matrix.mulVec_single_one] at this
      have q : rotationFromUp top c 2 2 = (k • top) 2 := this
      rw [q]; simp [t2]
    obtain ⟨-, -, n, -⟩ := rot_cof r1 2 0 1 (by decide) (by decide) (by decide)
    rw [r3, r4, e2] at n
    have : l ^ 2 = 1 := by linear_combination n - (l ^ 2) * Real.cos_sq_add_sin_sq (radians c)
    have hl1 : l = 1 := by nlinarith
    rw [hl1] at r3 r4
    apply RelativePose.vec_ext
    · rw [r3]; simp
    · rw [r4]; simp
    · rw [e2]; simp

/-! ### Examples -/

/-- A camera that looks north-west, down, and is tilted, meets the hypotheses of the round trips. -/
example : (-Real.pi < (-(Real.pi / 4) : ℝ) ∧ (-(Real.pi / 4) : ℝ) ≤ Real.pi) ∧
    (-(Real.pi / 2) < Real.pi / 3 ∧ Real.pi / 3 < Real.pi / 2) ∧ Real.cos (Real.pi / 3) > (2 : ℝ) ^ (-50 : ℤ) ∧
    (-(Real.pi / 2) ≤ Real.pi / 6 ∧ Real.pi / 6 ≤ Real.pi / 2) := by
  have := Real.pi_pos
  rw [Real.cos_pi_div_three]
  refine ⟨⟨?_, ?_⟩, ⟨?_, ?_⟩, ?_, ?_, ?_⟩ <;> first | linarith | norm_num

/-- The names of the sequences are read as the program reads them. -/
example : axesOf "rzyx" = some ⟨0, false, false, true⟩ ∧ axesOf "sxyy" = none ∧ sequence "rzyx" = (0, 1, 2) := by
  decide +kernel

/-- The identity is not in gimbal lock for `sxyz`, and is for `szxz`. -/
example : lockEntry "sxyz" 1 ^ 2 = 0 ∧ lockEntry "szxz" 1 ^ 2 = 1 := by
  have h1 : sequence "sxyz" = (0, 1, 2) := by decide +kernel
  have h2 : sequence "szxz" = (2, 0, 2) := by decide +kernel
  unfold lockEntry
  rw [h1, h2]
  constructor <;> simp

/-- The level part of a camera tilted like 3 to 4. -/
example : levelPart ![0, -4, 3] = 16 / 25 := by simp [levelPart]; norm_num

end Verif.Angles
