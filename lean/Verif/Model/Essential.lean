import Verif.Model.RelativePose
import Mathlib.Data.Complex.Basic
import Mathlib.LinearAlgebra.Matrix.Notation

/-!
Model of the estimation of essential matrices: `EssentialFivePoints` and `EssentialNPoints`
(/repo/opensfm/src/geometry/essential.h:42-213, src/essential.cc:1-162), `SolveAX0` (/repo/opensfm/src/foundation/numeric.h:19-43)
and the estimators of the robust relative pose (/repo/opensfm/src/robust/relative_pose_model.h:21-39).

Simplifications: exact real and complex numbers; the singular value decompositions (`Eigen::JacobiSVD`) and the eigenvectors
(`Eigen::EigenSolver`) are parameters; in one step of the elimination all rows are computed at once, as each uses only itself
and the pivot row.
-/
set_option linter.unusedSectionVars false
namespace Verif.Essential
open Verif.Depthmap Matrix
open Verif.Superimpose (Svd)
open Verif.RelativePose (RT)

/-- A polynomial: coefficients of `xxx xxy xyy yyy xxz xyz yyz xzz yzz zzz xx xy yy xz yz zz x y z 1` (essential.h:42-63). -/
abbrev Poly := Fin 20 → ℝ

/-- The row of the epipolar equation (essential.h:65-74). -/
def encode (q : V3 × V3) : Fin 9 → ℝ :=
  ![q.2 0 * q.1 0, q.2 0 * q.1 1, q.2 0 * q.1 2, q.2 1 * q.1 0, q.2 1 * q.1 1, q.2 1 * q.1 2, q.2 2 * q.1 0, q.2 2 * q.1 1, q.2 2 * q.1 2]

/-- The square matrix of the equations, zero below them (essential.h:79-81). -/
def equations (pairs : List (V3 × V3)) : Matrix (Fin 9) (Fin 9) ℝ :=
  fun i => match pairs[i.val]? with
    | some q => encode q
    | none => 0

/-- The last four columns of `V` (essential.h:82-83). -/
def nullBasis (V : Matrix (Fin 9) (Fin 9) ℝ) : Matrix (Fin 9) (Fin 4) ℝ := fun i k => V i (Fin.natAdd 5 k)

/-- `o1` (essential.cc:3-20). -/
def o1 (a b : Poly) : Poly :=
  ![0, 0, 0, 0, 0, 0, 0, 0, 0, 0,
    a 16 * b 16,
    a 16 * b 17 + a 17 * b 16,
    a 17 * b 17,
    a 16 * b 18 + a 18 * b 16,
    a 17 * b 18 + a 18 * b 17,
    a 18 * b 18,
    a 16 * b 19 + a 19 * b 16,
    a 17 * b 19 + a 19 * b 17,
    a 18 * b 19 + a 19 * b 18,
    a 19 * b 19]

/-- `o2` (essential.cc:22-54). -/
def o2 (a b : Poly) : Poly :=
  ![a 10 * b 16,
    a 10 * b 17 + a 11 * b 16,
    a 11 * b 17 + a 12 * b 16,
    a 12 * b 17,
    a 10 * b 18 + a 13 * b 16,
    a 11 * b 18 + a 14 * b 16 + a 13 * b 17,
    a 12 * b 18 + a 14 * b 17,
    a 13 * b 18 + a 15 * b 16,
    a 14 * b 18 + a 15 * b 17,
    a 15 * b 18,
    a 10 * b 19 + a 16 * b 16,
    a 11 * b 19 + a 16 * b 17 + a 17 * b 16,
    a 12 * b 19 + a 17 * b 17,
    a 13 * b 19 + a 16 * b 18 + a 18 * b 16,
    a 14 * b 19 + a 17 * b 18 + a 18 * b 17,
    a 15 * b 19 + a 18 * b 18,
    a 16 * b 19 + a 19 * b 16,
    a 17 * b 19 + a 19 * b 17,
    a 18 * b 19 + a 19 * b 18,
    a 19 * b 19]

/-- The index of an entry of a 3×3 matrix in a vector: `3 * i + j`. -/
def at9 (i j : Fin 3) : Fin 9 := ⟨3 * i.val + j.val, by omega⟩

/-- The entries of `E` as polynomials (essential.cc:58-67). -/
def polyE (B : Matrix (Fin 9) (Fin 4) ℝ) (i j : Fin 3) : Poly :=
  ![0, 0, 0, 0, 0, 0, 0, 0, 0, 0, 0, 0, 0, 0, 0, 0, B (at9 i j) 0, B (at9 i j) 1, B (at9 i j) 2, B (at9 i j) 3]

/-- `EET` (essential.cc:80-91). -/
def polyEET (E : Fin 3 → Fin 3 → Poly) (i j : Fin 3) : Poly :=
  if i ≤ j then o1 (E i 0) (E j 0) + o1 (E i 1) (E j 1) + o1 (E i 2) (E j 2)
  else o1 (E j 0) (E i 0) + o1 (E j 1) (E i 1) + o1 (E j 2) (E i 2)

/-- `L` (essential.cc:93-99). -/
noncomputable def polyL (E : Fin 3 → Fin 3 → Poly) (i j : Fin 3) : Poly :=
  if i = j then polyEET E i j - (0.5 : ℝ) • (polyEET E 0 0 + polyEET E 1 1 + polyEET E 2 2) else polyEET E i j

/-- The row of the determinant (essential.cc:73-76). -/
def rowDet (E : Fin 3 → Fin 3 → Poly) : Poly :=
  o2 (o1 (E 0 1) (E 1 2) - o1 (E 0 2) (E 1 1)) (E 2 0) + o2 (o1 (E 0 2) (E 1 0) - o1 (E 0 0) (E 1 2)) (E 2 1) +
    o2 (o1 (E 0 0) (E 1 1) - o1 (E 0 1) (E 1 0)) (E 2 2)

/-- The row of an entry of the trace constraint (essential.cc:101-108). -/
noncomputable def rowTrace (E : Fin 3 → Fin 3 → Poly) (i j : Fin 3) : Poly :=
  o2 (polyL E i 0) (E 0 j) + o2 (polyL E i 1) (E 1 j) + o2 (polyL E i 2) (E 2 j)

/-- `FivePointsPolynomialConstraints` (essential.cc:56-111). -/
noncomputable def constraints (B : Matrix (Fin 9) (Fin 4) ℝ) : Matrix (Fin 10) (Fin 20) ℝ :=
  let E := polyE B
  ![rowDet E, rowTrace E 0 0, rowTrace E 0 1, rowTrace E 0 2, rowTrace E 1 0, rowTrace E 1 1, rowTrace E 1 2, rowTrace E 2 0,
    rowTrace E 2 1, rowTrace E 2 2]

/-- The column of the diagonal. -/
def cl (c : Fin 10) : Fin 20 := Fin.castLE (by decide) c

open Classical in
/-- One step of the elimination (essential.cc:117-130); `none`: the pivot is zero. -/
noncomputable def forward (i : Fin 10) (M : Matrix (Fin 10) (Fin 20) ℝ) : Option (Matrix (Fin 10) (Fin 20) ℝ) :=
  if M i (cl i) = 0 then none
  else
    let pivot : Fin 20 → ℝ := fun c => M i c / M i (cl i)
    some (fun j => if j = i then pivot
      else if i < j then (if M j (cl i) = 0 then M j else fun c => M j c / M j (cl i) - pivot c)
      else M j)

/-- The steps of the elimination (essential.cc:117). -/
noncomputable def forwardLoop (M : Matrix (Fin 10) (Fin 20) ℝ) : (k : ℕ) → k ≤ 10 → Option (Matrix (Fin 10) (Fin 20) ℝ)
  | 0, _ => some M
  | k + 1, h => (forwardLoop M k (by omega)).bind (forward ⟨k, h⟩)

/-- One step of the substitution (essential.cc:134-137). -/
def back (i : Fin 10) (M : Matrix (Fin 10) (Fin 20) ℝ) : Matrix (Fin 10) (Fin 20) ℝ :=
  fun j => if j < i then fun c => M j c - M j (cl i) * M i c else M j

/-- The steps of the substitution, from the last row up (essential.cc:133). -/
def backLoop : (k : ℕ) → k ≤ 10 → Matrix (Fin 10) (Fin 20) ℝ → Matrix (Fin 10) (Fin 20) ℝ
  | 0, _, M => M
  | k + 1, h, M => backLoop k (by omega) (back ⟨k, h⟩ M)

/-- `FivePointsGaussJordan` (essential.cc:113-140); `none`: `false`. -/
noncomputable def gaussJordan (M : Matrix (Fin 10) (Fin 20) ℝ) : Option (Matrix (Fin 10) (Fin 20) ℝ) :=
  (forwardLoop M 10 (le_refl _)).map (backLoop 10 (le_refl _))

/-- The right half of the reduced matrix (essential.h:114). -/
def rightHalf (M : Matrix (Fin 10) (Fin 20) ℝ) : Matrix (Fin 10) (Fin 10) ℝ := fun i j => M i (Fin.natAdd 10 j)

/-- The action matrix (essential.h:115-125). -/
def action (B : Matrix (Fin 10) (Fin 10) ℝ) : Matrix (Fin 10) (Fin 10) ℝ :=
  ![-B 0, -B 1, -B 2, -B 4, -B 5, -B 7, Pi.single 0 1, Pi.single 1 1, Pi.single 3 1, Pi.single 6 1]

/-- The candidate of an eigenvector (essential.h:130-141). -/
noncomputable def candidate (B : Matrix (Fin 9) (Fin 4) ℝ) (v : Fin 10 → ℂ) : Fin 9 → ℂ :=
  fun i => (B i 0 : ℂ) * (v 6 / v 9) + (B i 1 : ℂ) * (v 7 / v 9) + (B i 2 : ℂ) * (v 8 / v 9) + (B i 3 : ℂ)

/-- `Evec.col(s).norm()` (essential.h:145). -/
noncomputable def normC (w : Fin 9 → ℂ) : ℝ := Real.sqrt (∑ i, Complex.normSq (w i))

open Classical in
/-- The essential matrix of an eigenvector when it is real (essential.h:144-163). A division by a zero last entry gives NaN, which
is not real. -/
noncomputable def realE (B : Matrix (Fin 9) (Fin 4) ℝ) (v : Fin 10 → ℂ) : Option M3 :=
  let w := candidate B v
  if v 9 ≠ 0 ∧ ∀ i, (w i / (normC w : ℂ)).im = 0 then some (fun i j => (w (at9 i j) / (normC w : ℂ)).re) else none

/-- `EssentialFivePoints` (essential.h:97-166); `svdV`: the matrix `V` of a decomposition, `eig`: the columns of the eigenvectors. -/
noncomputable def fivePoints (svdV : Matrix (Fin 9) (Fin 9) ℝ → Matrix (Fin 9) (Fin 9) ℝ)
    (eig : Matrix (Fin 10) (Fin 10) ℝ → Fin 10 → Fin 10 → ℂ) (pairs : List (V3 × V3)) : List M3 :=
  let B := nullBasis (svdV (equations pairs))
  match gaussJordan (constraints B) with
  | none => []
  | some M => (List.finRange 10).filterMap (fun s => realE B (eig (action (rightHalf M)) s))

/-- What the decomposition of a matrix with nine columns gives: `V` and the singular values. -/
structure Svd9 where
  v : Matrix (Fin 9) (Fin 9) ℝ
  s : Fin 9 → ℝ

open Classical in
/-- `SolveAX0` (numeric.h:19-43). The quotient of the last two values is infinite for a zero last one, and NaN for two zeros. -/
noncomputable def solveAX0 (svd9 : List (Fin 9 → ℝ) → Svd9) (rows : List (Fin 9 → ℝ)) : Option (Fin 9 → ℝ) :=
  if rows.length < 9 then none
  else if (svd9 rows).s 7 > 4 * (svd9 rows).s 8 then some (fun i => (svd9 rows).v i 8) else none

/-- The two first singular values replaced by their mean, the last by zero (essential.h:184-193). -/
noncomputable def enforce (d : Svd 3) : M3 :=
  d.u * diagonal ![(d.s 0 + d.s 1) / 2, (d.s 0 + d.s 1) / 2, 0] * d.vh

/-- The matrix with given entries, row by row (essential.h:181-182). -/
def unflat (w : Fin 9 → ℝ) : M3 := fun i j => w (at9 i j)

/-- `EssentialNPoints` (essential.h:168-198). -/
noncomputable def nPoints (svd9 : List (Fin 9 → ℝ) → Svd9) (svd : M3 → Svd 3) (pairs : List (V3 × V3)) : List M3 :=
  match solveAX0 svd9 (pairs.map encode) with
  | none => []
  | some e =>
    [if pairs.length > 8 then enforce (svd (unflat e)) else unflat e]

/-- `RelativePose::Estimate` (relative_pose_model.h:21-28). -/
noncomputable def estimate (svdV : Matrix (Fin 9) (Fin 9) ℝ → Matrix (Fin 9) (Fin 9) ℝ)
    (eig : Matrix (Fin 10) (Fin 10) ℝ → Fin 10 → Fin 10 → ℂ) (svd : M3 → Svd 3) (pairs : List (V3 × V3)) : List (Option RT) :=
  (fivePoints svdV eig pairs).map (fun E => RelativePose.fromEssential svd E pairs)

/-- `RelativePose::EstimateNonMinimal` (relative_pose_model.h:30-38). -/
noncomputable def estimateNonMinimal (svd9 : List (Fin 9 → ℝ) → Svd9) (svd : M3 → Svd 3) (pairs : List (V3 × V3)) : List (Option RT) :=
  (nPoints svd9 svd pairs).map (fun E => RelativePose.fromEssential svd E pairs)

end Verif.Essential
