import Mathlib.Analysis.SpecialFunctions.Pow.Complex
import Mathlib.Data.Real.Basic

/-!
Model of the quartic solver: `SolveQuartic` and `RefineQuarticRoots` (/repo/opensfm/src/foundation/src/numeric.cc:21-97) with
`NewtonRaphson` of one unknown (/repo/opensfm/src/foundation/newton_raphson.h:78-93, src/newton_raphson.cc:4-13).

Simplifications: numbers are exact; a quotient by zero gives `none` (NaN or an infinity in the program, which stays so in every later
operation; it is shown that only `0 / 0` happens); `pow(z, 1/2)` and `pow(z, 1/3)` are parameters, so that any choice of branch is
covered.
-/
set_option linter.unusedSectionVars false
namespace Verif.Quartic

/-- The four roots that are written (numeric.cc:57-64). -/
abbrev Roots := List (Option ℝ)

/-- The functions `ComplexSqrt` and `ComplexCbrt` (numeric.cc:22-28). -/
structure Pow where
  sqrt : ℂ → ℂ
  cbrt : ℂ → ℂ

/-- `pow(z, 1. / 2.)` and `pow(z, 1. / 3.)`: the principal values (numeric.cc:22-28). -/
noncomputable def principal : Pow := { sqrt := fun z => z ^ ((2 : ℕ) : ℂ)⁻¹, cbrt := fun z => z ^ ((3 : ℕ) : ℂ)⁻¹ }

/-- `std::numeric_limits<double>::epsilon()` (numeric.cc:32). -/
noncomputable def eps : ℝ := 1 / 4503599627370496

/-- The leading coefficient used (numeric.cc:33-35). -/
noncomputable def leading (k : Fin 5 → ℝ) : ℝ := if |k 4| > eps then k 4 else eps

/-- `Q1` (numeric.cc:41). -/
noncomputable def q1 (b c d e : ℝ) : ℝ := c * c - 3 * b * d + 12 * e

/-- `Q2` (numeric.cc:42-43). -/
noncomputable def q2 (b c d e : ℝ) : ℝ := 2 * c * c * c - 9 * b * c * d + 27 * d * d + 27 * b * b * e - 72 * c * e

/-- `Q3` (numeric.cc:44). -/
noncomputable def q3 (b c d : ℝ) : ℝ := 8 * b * c - 16 * d - 2 * b * b * b

/-- `Q4` (numeric.cc:45). -/
noncomputable def q4 (b c : ℝ) : ℝ := 3 * b * b - 8 * c

/-- `Q5` (numeric.cc:52-53). -/
noncomputable def q5 (w : Pow) (q1 q2 : ℝ) : ℂ :=
  w.cbrt ((q2 : ℂ) / 2 + w.sqrt ((q2 : ℂ) * q2 / 4 - (q1 : ℂ) * q1 * q1))

/-- `Q6` (numeric.cc:54). -/
noncomputable def q6 (q1 : ℝ) (q5 : ℂ) : ℂ := ((q1 : ℂ) / q5 + q5) / 3

/-- `Q7` (numeric.cc:55). -/
noncomputable def q7 (w : Pow) (q4 : ℝ) (q6 : ℂ) : ℂ := 2 * w.sqrt ((q4 : ℂ) / 12 + q6)

/-- The four values before the real part is taken (numeric.cc:57-64), divided by four. -/
noncomputable def values (w : Pow) (b q3 q4 : ℝ) (q6 q7 : ℂ) : List ℂ :=
  [(-(b : ℂ) - q7 - w.sqrt (4 * (q4 : ℂ) / 6 - 4 * q6 - (q3 : ℂ) / q7)) / 4,
   (-(b : ℂ) - q7 + w.sqrt (4 * (q4 : ℂ) / 6 - 4 * q6 - (q3 : ℂ) / q7)) / 4,
   (-(b : ℂ) + q7 - w.sqrt (4 * (q4 : ℂ) / 6 - 4 * q6 + (q3 : ℂ) / q7)) / 4,
   (-(b : ℂ) + q7 + w.sqrt (4 * (q4 : ℂ) / 6 - 4 * q6 + (q3 : ℂ) / q7)) / 4]

/-- `SolveQuartic` after the division by the leading coefficient (numeric.cc:41-65); `none` is `return false`. -/
noncomputable def solveMonic (w : Pow) (b c d e : ℝ) : Option Roots :=
  if |q1 b c d e| < eps ∧ |q2 b c d e| < eps ∧ |q3 b c d| < eps ∧ |q4 b c| < eps then none
  else if q5 w (q1 b c d e) (q2 b c d e) = 0 then some [none, none, none, none]
  else if q7 w (q4 b c) (q6 (q1 b c d e) (q5 w (q1 b c d e) (q2 b c d e))) = 0 then some [none, none, none, none]
  else some ((values w b (q3 b c d) (q4 b c) (q6 (q1 b c d e) (q5 w (q1 b c d e) (q2 b c d e)))
    (q7 w (q4 b c) (q6 (q1 b c d e) (q5 w (q1 b c d e) (q2 b c d e))))).map (fun z => some z.re))

/-- `SolveQuartic` (numeric.cc:30-66). -/
noncomputable def solve (w : Pow) (k : Fin 5 → ℝ) : Option Roots :=
  solveMonic w (k 3 / leading k) (k 2 / leading k) (k 1 / leading k) (k 0 / leading k)

/-- `QuarticEval::operator()` (numeric.cc:74-81). -/
noncomputable def value (k : Fin 5 → ℝ) (x : ℝ) : ℝ := (((k 4 * x + k 3) * x + k 2) * x + k 1) * x + k 0

/-- `QuarticEval::derivative` (numeric.cc:82-87). -/
noncomputable def derivative (k : Fin 5 → ℝ) (x : ℝ) : ℝ :=
  4 * k 4 * (x * x * x) + 3 * k 3 * (x * x) + 2 * k 2 * x + k 1

/-- `SolveDecr<1, 1>` (newton_raphson.cc:4-13). -/
noncomputable def decrement (d f : ℝ) : ℝ := if d = 0 then 0 else f / d

/-- `NewtonRaphson` (newton_raphson.h:78-93) with the tolerance 1e-20 (numeric.cc:93-94). -/
noncomputable def newton (k : Fin 5 → ℝ) : ℕ → ℝ → ℝ
  | 0, x => x
  | n + 1, x =>
    if |decrement (derivative k x) (value k x)| < 1 / 100000000000000000000 then x
    else newton k n (x - decrement (derivative k x) (value k x))

/-- `RefineQuarticRoots` (numeric.cc:68-97). -/
noncomputable def refine (k : Fin 5 → ℝ) (r : Roots) : Roots := r.map (Option.map (newton k 5))

end Verif.Quartic
