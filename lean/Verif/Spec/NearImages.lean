import Mathlib.Data.Real.Basic
import Mathlib.Data.List.Nodup

/-!
What a nearest neighbour query answers, and what a least squares fit is, for the properties of the choice of images (C107).
-/
namespace Verif.NearImages

/-- `js` is an answer to the question for the `k` nearest of `n` rows below a distance, `d j` being the distance of row `j`:
indices that are not those of rows fill up missing answers. -/
structure Nearest (d : ℕ → ℝ) (n : ℕ) (below : ℝ → Prop) (k : ℕ) (js : List ℕ) : Prop where
  length : js.length = k
  nodup : (js.filter (fun j => decide (j < n))).Nodup
  within : ∀ j ∈ js, j < n → below (d j)
  complete : ∀ i, i < n → below (d i) → i ∉ js → ∀ j ∈ js, j < n ∧ d j ≤ d i

/-- The sum of the squared errors of the polynomial `a z² + b z + c`. -/
def squares (samples : List (ℝ × ℝ)) (c : ℝ × ℝ × ℝ) : ℝ :=
  (samples.map (fun s => (c.1 * s.1 ^ 2 + c.2.1 * s.1 + c.2.2 - s.2) ^ 2)).sum

/-- Polynomials of degree two with the least sum of squared errors. -/
def LeastSquares (fit : List (ℝ × ℝ) → ℝ × ℝ × ℝ) : Prop := ∀ samples c, squares samples (fit samples) ≤ squares samples c

end Verif.NearImages
