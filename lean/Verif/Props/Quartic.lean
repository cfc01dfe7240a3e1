import Verif.Model.Quartic
import Mathlib.Tactic.LinearCombination
import Mathlib.Tactic.FieldSimp
import Mathlib.Tactic.Linarith
import Mathlib.Tactic.FinCases
import Mathlib.Analysis.SpecialFunctions.Pow.Real
import Mathlib.Analysis.Calculus.Deriv.Pow
import Mathlib.Analysis.Calculus.Deriv.Add
import Mathlib.Analysis.Calculus.Deriv.Mul

/-!
C103: the quartic solver.
-/
set_option linter.unusedSectionVars false
set_option linter.unusedSimpArgs false
namespace Verif.Quartic

/-! ### Specification -/

/-- What `pow(z, 1/2)` and `pow(z, 1/3)` are assumed to be: some square root and some cube root. -/
structure IsPow (w : Pow) : Prop where
  sqrt : ∀ z, w.sqrt z * w.sqrt z = z
  cbrt : ∀ z, w.cbrt z * w.cbrt z * w.cbrt z = z

/-- The polynomial with the given coefficients, at a complex number. -/
def poly (k : Fin 5 → ℝ) (z : ℂ) : ℂ := (k 0 : ℂ) + (k 1 : ℂ) * z + (k 2 : ℂ) * z ^ 2 + (k 3 : ℂ) * z ^ 3 + (k 4 : ℂ) * z ^ 4

/-- The four numbers are the roots of the polynomial, with their multiplicities. -/
def AllRoots (k : Fin 5 → ℝ) (z : Fin 4 → ℂ) : Prop :=
  ∀ x : ℂ, poly k x = (k 4 : ℂ) * ((x - z 0) * (x - z 1) * (x - z 2) * (x - z 3))

/-- The coefficients whose roots are computed: a leading coefficient of at most 2^-52 is replaced by 2^-52. -/
noncomputable def used (k : Fin 5 → ℝ) : Fin 5 → ℝ := if |k 4| ≤ 2⁻¹ ^ 52 then ![k 0, k 1, k 2, k 3, 2⁻¹ ^ 52] else k

/-- The polynomial at a real number. -/
def realPoly (k : Fin 5 → ℝ) (x : ℝ) : ℝ := k 0 + k 1 * x + k 2 * x ^ 2 + k 3 * x ^ 3 + k 4 * x ^ 4

/-- At most `n` steps of Newton's method for a function; it stops at a zero of the derivative and when the step is below 1e-20. -/
noncomputable def newtonSpec (f : ℝ → ℝ) : ℕ → ℝ → ℝ
  | 0, x => x
  | n + 1, x => if deriv f x = 0 ∨ |f x / deriv f x| < 1e-20 then x else newtonSpec f n (x - f x / deriv f x)

/-! ### The formulas -/

theorem principal_pow : IsPow principal := by
  constructor
  · intro z
    have := Complex.cpow_nat_inv_pow z (n := 2) (by norm_num)
    rw [pow_two] at this
    exact this
  · intro z
    have := Complex.cpow_nat_inv_pow z (n := 3) (by norm_num)
    rw [pow_succ, pow_two] at this
    exact this

/-- The resolvent cubic. -/
theorem resolvent {w : Pow} (hw : IsPow w) (a b : ℝ) (h : q5 w a b ≠ 0) :
    27 * q6 a (q5 w a b) ^ 3 = 9 * (a : ℂ) * q6 a (q5 w a b) + b := by
  have h1 := hw.sqrt ((b : ℂ) * b / 4 - (a : ℂ) * a * a)
  have h2 := hw.cbrt ((b : ℂ) / 2 + w.sqrt ((b : ℂ) * b / 4 - (a : ℂ) * a * a))
  obtain ⟨s, hs⟩ : ∃ s, s = w.sqrt ((b : ℂ) * b / 4 - (a : ℂ) * a * a) := ⟨_, rfl⟩
  obtain ⟨p, hp⟩ : ∃ p, p = q5 w a b := ⟨_, rfl⟩
  rw [← hs] at h1 h2
  have hp' : w.cbrt ((b : ℂ) / 2 + s) = p := by rw [hp, hs]; rfl
  rw [hp'] at h2
  rw [← hp] at h ⊢
  unfold q6
  field_simp
  linear_combination 27 * (p ^ 3 - ((b : ℂ) / 2 - s)) * h2 + 27 * h1

/-- The product of the two quadratic factors. -/
theorem factors (b c d e : ℝ) (Q S r1 r2 : ℂ) (hS : S ≠ 0)
    (hQ : 27 * Q ^ 3 = 9 * ((q1 b c d e : ℝ) : ℂ) * Q + ((q2 b c d e : ℝ) : ℂ))
    (h7 : S * S = 4 * (((q4 b c : ℝ) : ℂ) / 12 + Q))
    (h1 : r1 * r1 = 4 * ((q4 b c : ℝ) : ℂ) / 6 - 4 * Q - ((q3 b c d : ℝ) : ℂ) / S)
    (h2 : r2 * r2 = 4 * ((q4 b c : ℝ) : ℂ) / 6 - 4 * Q + ((q3 b c d : ℝ) : ℂ) / S) (x : ℂ) :
    (e : ℂ) + d * x + c * x ^ 2 + b * x ^ 3 + x ^ 4 =
      (x - (-(b : ℂ) - S - r1) / 4) * (x - (-(b : ℂ) - S + r1) / 4) * (x - (-(b : ℂ) + S - r2) / 4) * (x - (-(b : ℂ) + S + r2) / 4) := by
  obtain ⟨u, hu⟩ : ∃ u, u = ((q3 b c d : ℝ) : ℂ) / S := ⟨_, rfl⟩
  have hus : u * S = ((q3 b c d : ℝ) : ℂ) := by rw [hu]; field_simp
  rw [← hu] at h1 h2
  unfold q1 q2 at hQ
  unfold q4 at h7 h1 h2
  unfold q3 at hus
  push_cast at hQ h7 h1 h2 hus
  -- the square of `u`
  have huu : u * u = (S * S - (4 * (3 * (b : ℂ) * b - 8 * c) / 6 - 4 * Q)) ^ 2 - (-3 * (b : ℂ) ^ 4 + 16 * b ^ 2 * c - 64 * b * d + 256 * e) := by
    have hS2 : S * S ≠ 0 := mul_ne_zero hS hS
    apply mul_right_cancel₀ hS2
    have : u * u * (S * S) = (8 * (b : ℂ) * c - 16 * d - 2 * b * b * b) ^ 2 := by
      rw [show u * u * (S * S) = (u * S) ^ 2 by ring, hus]
    rw [this, h7]
    linear_combination (-256 / 27 : ℂ) * hQ
  have e1 : (x - (-(b : ℂ) - S - r1) / 4) * (x - (-(b : ℂ) - S + r1) / 4) = ((4 * x + b + S) ^ 2 - r1 * r1) / 16 := by ring
  have e2 : (x - (-(b : ℂ) + S - r2) / 4) * (x - (-(b : ℂ) + S + r2) / 4) = ((4 * x + b - S) ^ 2 - r2 * r2) / 16 := by ring
  rw [mul_assoc, mul_assoc, ← mul_assoc, e1, e2, h1, h2]
  linear_combination (1 / 256 : ℂ) * huu + ((4 * x + b) / 64) * hus + ((4 * x + b) ^ 2 / 128) * h7

theorem eps_eq : eps = 2⁻¹ ^ 52 := by unfold eps; norm_num

theorem eps_pos : 0 < eps := by unfold eps; norm_num

theorem leading_eq (k : Fin 5 → ℝ) : leading k = used k 4 := by
  unfold leading used
  rw [← eps_eq]
  by_cases h : |k 4| > eps
  · rw [if_pos h, if_neg (not_le.2 h)]
  · rw [if_neg h, if_pos (not_lt.1 h)]
    rfl

theorem leading_ne (k : Fin 5 → ℝ) : leading k ≠ 0 := by
  unfold leading
  split
  · intro h
    rename_i h'
    rw [h, abs_zero] at h'
    exact absurd h' (not_lt.2 eps_pos.le)
  · exact eps_pos.ne'

theorem used_low (k : Fin 5 → ℝ) : used k 0 = k 0 ∧ used k 1 = k 1 ∧ used k 2 = k 2 ∧ used k 3 = k 3 := by
  unfold used
  split <;> exact ⟨rfl, rfl, rfl, rfl⟩

theorem used_self {k : Fin 5 → ℝ} (h : 2⁻¹ ^ 52 < |k 4|) : used k = k := if_neg (not_le.2 h)

/-- The polynomial used, from its monic form. -/
theorem poly_used (k : Fin 5 → ℝ) (x : ℂ) :
    poly (used k) x = ((leading k : ℝ) : ℂ) * (((k 0 / leading k : ℝ) : ℂ) + ((k 1 / leading k : ℝ) : ℂ) * x +
      ((k 2 / leading k : ℝ) : ℂ) * x ^ 2 + ((k 3 / leading k : ℝ) : ℂ) * x ^ 3 + x ^ 4) := by
  obtain ⟨h0, h1, h2, h3⟩ := used_low k
  unfold poly
  rw [h0, h1, h2, h3, ← leading_eq]
  have : ((leading k : ℝ) : ℂ) ≠ 0 := by exact_mod_cast leading_ne k
  push_cast
  field_simp

/-- The four results: all are not numbers, or they are the real parts of the four roots of the polynomial, with multiplicities. -/
theorem C103_solve (w : Pow) (hw : IsPow w) (k : Fin 5 → ℝ) (rs : List (Option ℝ)) (h : solve w k = some rs) :
    rs = [none, none, none, none] ∨
    ∃ z : Fin 4 → ℂ, AllRoots (used k) z ∧ rs = [some (z 0).re, some (z 1).re, some (z 2).re, some (z 3).re] := by
  unfold solve solveMonic at h
  obtain ⟨b, hb⟩ : ∃ b, b = k 3 / leading k := ⟨_, rfl⟩
  obtain ⟨c, hc⟩ : ∃ c, c = k 2 / leading k := ⟨_, rfl⟩
  obtain ⟨d, hd⟩ : ∃ d, d = k 1 / leading k := ⟨_, rfl⟩
  obtain ⟨e, he⟩ : ∃ e, e = k 0 / leading k := ⟨_, rfl⟩
  rw [← hb, ← hc, ← hd, ← he] at h
  split at h
  · exact absurd h (by simp)
  split at h
  · left; exact (Option.some.inj h).symm
  rename_i h5
  split at h
  · left; exact (Option.some.inj h).symm
  rename_i h7
  right
  have hQ := resolvent hw _ _ h5
  obtain ⟨Q, hQe⟩ : ∃ Q, Q = q6 (q1 b c d e) (q5 w (q1 b c d e) (q2 b c d e)) := ⟨_, rfl⟩
  rw [← hQe] at hQ h7 h
  have hSS : q7 w (q4 b c) Q * q7 w (q4 b c) Q = 4 * (((q4 b c : ℝ) : ℂ) / 12 + Q) := by
    unfold q7
    linear_combination 4 * hw.sqrt (((q4 b c : ℝ) : ℂ) / 12 + Q)
  obtain ⟨S, hS⟩ : ∃ S, S = q7 w (q4 b c) Q := ⟨_, rfl⟩
  rw [← hS] at h h7 hSS
  have key := factors b c d e Q S _ _ h7 hQ hSS (hw.sqrt _) (hw.sqrt _)
  refine ⟨![_, _, _, _], ?_, (Option.some.inj h).symm⟩
  intro x
  rw [poly_used, ← hb, ← hc, ← hd, ← he, key x, ← leading_eq]
  rfl

/-- Without an exception or an undefined result, every real root is found. -/
theorem C103_real_roots (w : Pow) (hw : IsPow w) (k : Fin 5 → ℝ) (hk : 2⁻¹ ^ 52 < |k 4|) (rs : List (Option ℝ))
    (h : solve w k = some rs) (hn : none ∉ rs) (x : ℝ) (hx : realPoly k x = 0) : some x ∈ rs := by
  rcases C103_solve w hw k rs h with hr | ⟨z, hz, hr⟩
  · rw [hr] at hn
    simp at hn
  · rw [used_self hk] at hz
    have hp : poly k (x : ℂ) = 0 := by
      unfold poly
      unfold realPoly at hx
      exact_mod_cast hx
    have h4 : ((k 4 : ℝ) : ℂ) ≠ 0 := by
      intro h0
      rw [Complex.ofReal_eq_zero.1 h0, abs_zero] at hk
      exact absurd hk (by norm_num)
    have := hz x
    rw [hp, eq_comm, mul_eq_zero, or_iff_right h4, mul_eq_zero, mul_eq_zero, mul_eq_zero] at this
    rw [hr]
    simp only [List.mem_cons, List.not_mem_nil, or_false, Option.some.injEq]
    rcases this with ((h | h) | h) | h
    · left; rw [← sub_eq_zero.1 h]; rfl
    · right; left; rw [← sub_eq_zero.1 h]; rfl
    · right; right; left; rw [← sub_eq_zero.1 h]; rfl
    · right; right; right; rw [← sub_eq_zero.1 h]; rfl

/-- The solver refuses only when the polynomial is nearly the fourth power of a linear one. -/
theorem C103_refused (w : Pow) (k : Fin 5 → ℝ) (hk : 2⁻¹ ^ 52 < |k 4|) (h : solve w k = none) (x y : ℝ) (hy : y = 4 * x + k 3 / k 4) :
    |256 * (realPoly k x / k 4) - y ^ 4| ≤ 2⁻¹ ^ 52 * (2 * y ^ 2 + 4 * |y| + 22) := by
  have hl : leading k = k 4 := by rw [leading_eq, used_self hk]
  have h4 : k 4 ≠ 0 := by rw [← hl]; exact leading_ne k
  unfold solve solveMonic at h
  rw [hl] at h
  split at h
  · rename_i hq
    obtain ⟨g1, g2, g3, g4⟩ := hq
    rw [eps_eq] at g1 g2 g3 g4
    have e : 256 * (realPoly k x / k 4) - y ^ 4 = -2 * q4 (k 3 / k 4) (k 2 / k 4) * y ^ 2 - 4 * q3 (k 3 / k 4) (k 2 / k 4) (k 1 / k 4) * y +
        (64 / 3 * q1 (k 3 / k 4) (k 2 / k 4) (k 1 / k 4) (k 0 / k 4) - 1 / 3 * q4 (k 3 / k 4) (k 2 / k 4) ^ 2) := by
      rw [hy]
      unfold realPoly q1 q3 q4
      field_simp
      ring
    rw [e]
    obtain ⟨A, hA⟩ : ∃ A, A = q4 (k 3 / k 4) (k 2 / k 4) := ⟨_, rfl⟩
    obtain ⟨B, hB⟩ : ∃ B, B = q3 (k 3 / k 4) (k 2 / k 4) (k 1 / k 4) := ⟨_, rfl⟩
    obtain ⟨C, hC⟩ : ∃ C, C = q1 (k 3 / k 4) (k 2 / k 4) (k 1 / k 4) (k 0 / k 4) := ⟨_, rfl⟩
    rw [← hA, ← hB, ← hC]
    rw [← hA] at g4
    rw [← hB] at g3
    rw [← hC] at g1
    have t1 : |-2 * A * y ^ 2| ≤ 2⁻¹ ^ 52 * (2 * y ^ 2) := by
      rw [abs_mul, abs_mul, abs_of_nonneg (sq_nonneg y)]
      have := mul_le_mul_of_nonneg_right g4.le (sq_nonneg y)
      norm_num at this ⊢
      linarith
    have t2 : |4 * B * y| ≤ 2⁻¹ ^ 52 * (4 * |y|) := by
      rw [abs_mul, abs_mul]
      have := mul_le_mul_of_nonneg_right g3.le (abs_nonneg y)
      norm_num at this ⊢
      linarith
    have t3 : |64 / 3 * C| ≤ 2⁻¹ ^ 52 * (64 / 3) := by
      rw [abs_mul]
      norm_num at g1 ⊢
      linarith
    have t4 : |1 / 3 * A ^ 2| ≤ 2⁻¹ ^ 52 * (1 / 3) := by
      rw [abs_mul, abs_pow]
      have : |A| ^ 2 ≤ |A| * 1 := by
        rw [pow_two]
        apply mul_le_mul_of_nonneg_left _ (abs_nonneg A)
        norm_num at g4 ⊢
        linarith
      norm_num at g4 this ⊢
      linarith
    calc |-2 * A * y ^ 2 - 4 * B * y + (64 / 3 * C - 1 / 3 * A ^ 2)|
        ≤ |-2 * A * y ^ 2 - 4 * B * y| + |64 / 3 * C - 1 / 3 * A ^ 2| := abs_add_le _ _
      _ ≤ (|-2 * A * y ^ 2| + |4 * B * y|) + (|64 / 3 * C| + |1 / 3 * A ^ 2|) := add_le_add (abs_sub _ _) (abs_sub _ _)
      _ ≤ 2⁻¹ ^ 52 * (2 * y ^ 2 + 4 * |y| + 22) := by linarith
  · split at h
    · exact absurd h (by simp)
    · split at h <;> exact absurd h (by simp)

/-- A polynomial with a fourfold root is refused: the root is not found. -/
theorem C103_quadruple (w : Pow) (a r : ℝ) (ha : 2⁻¹ ^ 52 < |a|) :
    solve w ![a * r ^ 4, -4 * a * r ^ 3, 6 * a * r ^ 2, -4 * a * r, a] = none := by
  have ha0 : a ≠ 0 := by
    intro h
    rw [h, abs_zero] at ha
    exact absurd ha (by norm_num)
  have hl : leading ![a * r ^ 4, -4 * a * r ^ 3, 6 * a * r ^ 2, -4 * a * r, a] = a := by
    rw [leading_eq, used_self (by exact ha)]
    rfl
  unfold solve
  rw [hl]
  have e0 : a * r ^ 4 / a = r ^ 4 := by field_simp
  have e1 : -4 * a * r ^ 3 / a = -4 * r ^ 3 := by field_simp
  have e2 : 6 * a * r ^ 2 / a = 6 * r ^ 2 := by field_simp
  have e3 : -4 * a * r / a = -4 * r := by field_simp
  simp only [Matrix.cons_val]
  rw [e0, e1, e2, e3]
  unfold solveMonic
  have z1 : q1 (-4 * r) (6 * r ^ 2) (-4 * r ^ 3) (r ^ 4) = 0 := by unfold q1; ring
  have z2 : q2 (-4 * r) (6 * r ^ 2) (-4 * r ^ 3) (r ^ 4) = 0 := by unfold q2; ring
  have z3 : q3 (-4 * r) (6 * r ^ 2) (-4 * r ^ 3) = 0 := by unfold q3; ring
  have z4 : q4 (-4 * r) (6 * r ^ 2) = 0 := by unfold q4; ring
  rw [if_pos]
  rw [z1, z2, z3, z4]
  simp [eps_pos]

theorem sqrt_zero {w : Pow} (hw : IsPow w) : w.sqrt 0 = 0 := mul_self_eq_zero.1 (hw.sqrt 0)

theorem cbrt_zero {w : Pow} (hw : IsPow w) : w.cbrt 0 = 0 := by
  have := hw.cbrt 0
  rwa [mul_eq_zero, mul_self_eq_zero, or_self] at this

/-- A polynomial with a threefold root is never solved: it is refused or the results are not numbers. -/
theorem C103_triple (w : Pow) (hw : IsPow w) (a r s : ℝ) (ha : 2⁻¹ ^ 52 < |a|) :
    solve w ![a * (r ^ 3 * s), -(a * (r ^ 3 + 3 * r ^ 2 * s)), a * (3 * r ^ 2 + 3 * r * s), -(a * (3 * r + s)), a] = none ∨
    solve w ![a * (r ^ 3 * s), -(a * (r ^ 3 + 3 * r ^ 2 * s)), a * (3 * r ^ 2 + 3 * r * s), -(a * (3 * r + s)), a] =
      some [none, none, none, none] := by
  have ha0 : a ≠ 0 := by
    intro h
    rw [h, abs_zero] at ha
    exact absurd ha (by norm_num)
  have hl : leading ![a * (r ^ 3 * s), -(a * (r ^ 3 + 3 * r ^ 2 * s)), a * (3 * r ^ 2 + 3 * r * s), -(a * (3 * r + s)), a] = a := by
    rw [leading_eq, used_self (by exact ha)]
    rfl
  unfold solve
  rw [hl]
  simp only [Matrix.cons_val]
  have e0 : a * (r ^ 3 * s) / a = r ^ 3 * s := by field_simp
  have e1 : -(a * (r ^ 3 + 3 * r ^ 2 * s)) / a = -(r ^ 3 + 3 * r ^ 2 * s) := by field_simp
  have e2 : a * (3 * r ^ 2 + 3 * r * s) / a = 3 * r ^ 2 + 3 * r * s := by field_simp
  have e3 : -(a * (3 * r + s)) / a = -(3 * r + s) := by field_simp
  rw [e0, e1, e2, e3]
  unfold solveMonic
  have z1 : q1 (-(3 * r + s)) (3 * r ^ 2 + 3 * r * s) (-(r ^ 3 + 3 * r ^ 2 * s)) (r ^ 3 * s) = 0 := by unfold q1; ring
  have z2 : q2 (-(3 * r + s)) (3 * r ^ 2 + 3 * r * s) (-(r ^ 3 + 3 * r ^ 2 * s)) (r ^ 3 * s) = 0 := by unfold q2; ring
  split
  · left; rfl
  · right
    rw [if_pos]
    rw [z1, z2]
    unfold q5
    rw [Complex.ofReal_zero, mul_zero, mul_zero, zero_div, zero_div, sub_zero, sqrt_zero hw, zero_add, cbrt_zero hw]

/-- An undefined result: only for polynomials that are symmetric about the mean of their roots or have a vanishing invariant. -/
theorem C103_nan (w : Pow) (hw : IsPow w) (k : Fin 5 → ℝ) (hk : 2⁻¹ ^ 52 < |k 4|) (rs : List (Option ℝ)) (h : solve w k = some rs)
    (hn : none ∈ rs) :
    12 * k 0 * k 4 - 3 * k 1 * k 3 + k 2 ^ 2 = 0 ∨ ∀ y : ℝ, realPoly k (-(k 3) / (4 * k 4) + y) = realPoly k (-(k 3) / (4 * k 4) - y) := by
  have hl : leading k = k 4 := by rw [leading_eq, used_self hk]
  have h4 : k 4 ≠ 0 := by rw [← hl]; exact leading_ne k
  unfold solve solveMonic at h
  rw [hl] at h
  obtain ⟨b, hb⟩ : ∃ b, b = k 3 / k 4 := ⟨_, rfl⟩
  obtain ⟨c, hc⟩ : ∃ c, c = k 2 / k 4 := ⟨_, rfl⟩
  obtain ⟨d, hd⟩ : ∃ d, d = k 1 / k 4 := ⟨_, rfl⟩
  obtain ⟨e, he⟩ : ∃ e, e = k 0 / k 4 := ⟨_, rfl⟩
  rw [← hb, ← hc, ← hd, ← he] at h
  split at h
  · exact absurd h (by simp)
  split at h
  · left
    rename_i h5
    have h1 := hw.sqrt (((q2 b c d e : ℝ) : ℂ) * ((q2 b c d e : ℝ) : ℂ) / 4 - ((q1 b c d e : ℝ) : ℂ) * ((q1 b c d e : ℝ) : ℂ) * ((q1 b c d e : ℝ) : ℂ))
    have h2 := hw.cbrt (((q2 b c d e : ℝ) : ℂ) / 2 + w.sqrt (((q2 b c d e : ℝ) : ℂ) * ((q2 b c d e : ℝ) : ℂ) / 4 - ((q1 b c d e : ℝ) : ℂ) * ((q1 b c d e : ℝ) : ℂ) * ((q1 b c d e : ℝ) : ℂ)))
    unfold q5 at h5
    rw [h5, mul_zero] at h2
    have h3 : ((q1 b c d e : ℝ) : ℂ) ^ 3 = 0 := by
      obtain ⟨t, ht⟩ : ∃ t, t = w.sqrt (((q2 b c d e : ℝ) : ℂ) * ((q2 b c d e : ℝ) : ℂ) / 4 - ((q1 b c d e : ℝ) : ℂ) * ((q1 b c d e : ℝ) : ℂ) * ((q1 b c d e : ℝ) : ℂ)) := ⟨_, rfl⟩
      rw [← ht] at h1 h2
      linear_combination h1 + (t - ((q2 b c d e : ℝ) : ℂ) / 2) * h2
    have h6 : q1 b c d e = 0 := by
      have := pow_eq_zero_iff (three_ne_zero) |>.1 h3
      exact_mod_cast this
    rw [hb, hc, hd, he] at h6
    unfold q1 at h6
    field_simp at h6
    linear_combination h6
  rename_i h5
  split at h
  · right
    rename_i h7
    have hQ := resolvent hw _ _ h5
    obtain ⟨Q, hQe⟩ : ∃ Q, Q = q6 (q1 b c d e) (q5 w (q1 b c d e) (q2 b c d e)) := ⟨_, rfl⟩
    rw [← hQe] at hQ h7
    have hSS : ((q4 b c : ℝ) : ℂ) / 12 + Q = 0 := by
      have := hw.sqrt (((q4 b c : ℝ) : ℂ) / 12 + Q)
      unfold q7 at h7
      rw [mul_eq_zero, or_iff_right two_ne_zero] at h7
      rw [← this, h7, mul_zero]
    have h3 : ((q3 b c d : ℝ) : ℂ) ^ 2 = 0 := by
      have hQe : Q = -(((q4 b c : ℝ) : ℂ) / 12) := by linear_combination hSS
      rw [hQe] at hQ
      unfold q1 q2 q4 at hQ
      unfold q3
      push_cast at hQ ⊢
      linear_combination (-256 / 27 : ℂ) * hQ
    have h6 : q3 b c d = 0 := by
      have := pow_eq_zero_iff (two_ne_zero) |>.1 h3
      exact_mod_cast this
    rw [hb, hc, hd] at h6
    unfold q3 at h6
    field_simp at h6
    intro y
    unfold realPoly
    field_simp
    linear_combination (-32 * y * k 4) * h6
  · exfalso
    rw [← Option.some.inj h] at hn
    unfold values at hn
    simp at hn

/-- With the principal branches, the equation `x⁴ = m` gives no number at all. -/
theorem C103_fourth_root (m : ℝ) (hm : 1 ≤ m) : solve principal ![-m, 0, 0, 0, 1] = some [none, none, none, none] := by
  have hl : leading ![-m, 0, 0, 0, 1] = 1 := by
    rw [leading_eq, used_self (by simp; norm_num)]
    rfl
  unfold solve
  rw [hl]
  simp only [Matrix.cons_val, div_one, zero_div]
  unfold solveMonic
  have z1 : q1 0 0 0 (-m) = -(12 * m) := by unfold q1; ring
  have z2 : q2 0 0 0 (-m) = 0 := by unfold q2; ring
  have z4 : q4 0 0 = 0 := by unfold q4; ring
  rw [if_neg]
  swap
  · rintro ⟨h, -⟩
    rw [z1, abs_neg, abs_of_pos (by linarith)] at h
    unfold eps at h
    norm_num at h
    linarith
  have hp : (0 : ℝ) < 12 * m := by linarith
  have hs : principal.sqrt ((12 * m : ℝ) ^ 3 : ℝ) = (((12 * m) ^ 3 : ℝ) ^ (2 : ℝ)⁻¹ : ℝ) := by
    unfold principal
    dsimp only
    rw [Complex.ofReal_cpow (by positivity)]
    push_cast
    rfl
  have hr : (((12 * m) ^ 3 : ℝ) ^ (2 : ℝ)⁻¹ : ℝ) = (Real.sqrt (12 * m)) ^ 3 := by
    rw [Real.sqrt_eq_rpow, ← Real.rpow_natCast, ← Real.rpow_natCast, ← Real.rpow_mul hp.le, ← Real.rpow_mul hp.le]
    norm_num
  have hc : principal.cbrt ((Real.sqrt (12 * m)) ^ 3 : ℝ) = (Real.sqrt (12 * m) : ℝ) := by
    have h0 : 0 ≤ Real.sqrt (12 * m) := Real.sqrt_nonneg _
    unfold principal
    dsimp only
    have : ((Real.sqrt (12 * m)) ^ 3 : ℝ) ^ (3 : ℝ)⁻¹ = Real.sqrt (12 * m) := by
      rw [← Real.rpow_natCast, ← Real.rpow_mul h0]
      norm_num
    rw [← Complex.ofReal_inj, Complex.ofReal_cpow (by positivity)] at this
    rw [← this]
    push_cast
    rfl
  have h5 : q5 principal (-(12 * m)) 0 = (Real.sqrt (12 * m) : ℝ) := by
    unfold q5
    rw [show (((0 : ℝ) : ℂ) * ((0 : ℝ) : ℂ) / 4 - ((-(12 * m) : ℝ) : ℂ) * ((-(12 * m) : ℝ) : ℂ) * ((-(12 * m) : ℝ) : ℂ)) = (((12 * m) ^ 3 : ℝ) : ℂ) by
      push_cast; ring]
    rw [hs, hr, Complex.ofReal_zero, zero_div, zero_add, hc]
  have hpos : (Real.sqrt (12 * m) : ℝ) ≠ 0 := (Real.sqrt_pos.2 hp).ne'
  have h6 : q6 (-(12 * m)) ((Real.sqrt (12 * m) : ℝ) : ℂ) = 0 := by
    unfold q6
    have hsq : ((12 * m : ℝ) : ℂ) = ((Real.sqrt (12 * m) : ℝ) : ℂ) * ((Real.sqrt (12 * m) : ℝ) : ℂ) := by
      rw [← Complex.ofReal_mul, Real.mul_self_sqrt hp.le]
    rw [Complex.ofReal_neg, hsq]
    have : ((Real.sqrt (12 * m) : ℝ) : ℂ) ≠ 0 := by exact_mod_cast hpos
    field_simp
    ring
  have h7 : q7 principal 0 0 = 0 := by
    unfold q7
    rw [Complex.ofReal_zero, zero_div, zero_add, sqrt_zero principal_pow, mul_zero]
  rw [if_neg (by rw [z1, z2, h5]; exact_mod_cast hpos), if_pos (by rw [z1, z2, z4, h5, h6]; exact h7)]

/-- A polynomial of smaller degree, or with a leading coefficient below 2^-52, is not solved: none of the values is a root of it, except zero. -/
theorem C103_lower_degree (k : Fin 5 → ℝ) (hk : |k 4| < 2⁻¹ ^ 52) (z : Fin 4 → ℂ) (hz : AllRoots (used k) z) (i : Fin 4) (hi : poly k (z i) = 0) : z i = 0 := by
  have h0 : poly (used k) (z i) = 0 := by
    rw [hz (z i)]
    fin_cases i <;> simp
  have hu : used k = ![k 0, k 1, k 2, k 3, 2⁻¹ ^ 52] := if_pos hk.le
  rw [hu] at h0
  unfold poly at h0 hi
  simp only [Matrix.cons_val] at h0
  have : ((2⁻¹ ^ 52 - k 4 : ℝ) : ℂ) * z i ^ 4 = 0 := by
    rw [Complex.ofReal_sub]
    linear_combination h0 - hi
  rw [mul_eq_zero] at this
  rcases this with h | h
  · exfalso
    rw [Complex.ofReal_eq_zero] at h
    have := le_abs_self (k 4)
    linarith
  · exact pow_eq_zero_iff (by norm_num) |>.1 h

/-! ### Refinement -/

theorem value_eq (k : Fin 5 → ℝ) : value k = realPoly k := by
  funext x
  unfold value realPoly
  ring

theorem deriv_eq (k : Fin 5 → ℝ) (x : ℝ) : deriv (realPoly k) x = derivative k x := by
  have h : HasDerivAt (fun x : ℝ => k 0 + k 1 * x + k 2 * x ^ 2 + k 3 * x ^ 3 + k 4 * x ^ 4)
      (0 + k 1 * 1 + k 2 * (2 * x ^ 1) + k 3 * (3 * x ^ 2) + k 4 * (4 * x ^ 3)) x := by
    have p2 := hasDerivAt_pow 2 x
    have p3 := hasDerivAt_pow 3 x
    have p4 := hasDerivAt_pow 4 x
    exact (((((hasDerivAt_const x (k 0)).add ((hasDerivAt_id x).const_mul (k 1))).add (p2.const_mul (k 2))).add (p3.const_mul (k 3))).add
      (p4.const_mul (k 4)))
  have := h.deriv
  have e : realPoly k = fun x : ℝ => k 0 + k 1 * x + k 2 * x ^ 2 + k 3 * x ^ 3 + k 4 * x ^ 4 := rfl
  rw [e, this]
  unfold derivative
  ring

/-- The refinement is five steps of Newton's method on every number; what is not a number remains so. -/
theorem C103_refine (k : Fin 5 → ℝ) (rs : List (Option ℝ)) : refine k rs = rs.map (Option.map (newtonSpec (realPoly k) 5)) := by
  have h : ∀ n x, newton k n x = newtonSpec (realPoly k) n x := by
    intro n
    induction n with
    | zero => intro x; rfl
    | succ n ih =>
      intro x
      unfold newton newtonSpec
      rw [value_eq, ← deriv_eq]
      unfold decrement
      by_cases h0 : deriv (realPoly k) x = 0
      · rw [if_pos h0, abs_zero, if_pos (by norm_num), if_pos (Or.inl h0)]
      · rw [if_neg h0, ih]
        have e : (1e-20 : ℝ) = 1 / 100000000000000000000 := by norm_num
        by_cases h1 : |realPoly k x / deriv (realPoly k) x| < 1 / 100000000000000000000
        · rw [if_pos h1, if_pos (Or.inr (by rw [e]; exact h1))]
        · rw [if_neg h1, if_neg (by rw [e]; exact not_or.2 ⟨h0, h1⟩)]
  unfold refine
  congr 2
  funext x
  exact h 5 x

/-- The refinement keeps the roots that were found. -/
theorem C103_refine_keeps (k : Fin 5 → ℝ) (rs : List (Option ℝ)) (x : ℝ) (hx : realPoly k x = 0) (h : some x ∈ rs) : some x ∈ refine k rs := by
  rw [C103_refine]
  refine List.mem_map.2 ⟨some x, h, ?_⟩
  rw [Option.map_some, newtonSpec, if_pos]
  right
  rw [hx, zero_div, abs_zero]
  norm_num

/-! ### Examples -/

/-- The hypotheses of `C103_solve` and `C103_real_roots` are met by the principal branches and `x⁴ - x³ - x² + x - ...`: the
polynomial `x (x - 1) (x + 1) (x - 2)` is not refused. -/
example : IsPow principal ∧ (2⁻¹ : ℝ) ^ 52 < |(![0, 2, -1, -2, 1] : Fin 5 → ℝ) 4| ∧ realPoly ![0, 2, -1, -2, 1] 2 = 0 ∧
    ∃ rs, solve principal ![0, 2, -1, -2, 1] = some rs := by
  refine ⟨principal_pow, by simp; norm_num, by unfold realPoly; simp; norm_num, ?_⟩
  cases h : solve principal ![0, 2, -1, -2, 1] with
  | some rs => exact ⟨rs, rfl⟩
  | none =>
    exfalso
    have := C103_refused principal _ (by simp; norm_num) h 0 (-2) (by simp)
    unfold realPoly at this
    simp at this
    norm_num at this

end Verif.Quartic
