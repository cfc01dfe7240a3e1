import Mathlib.LinearAlgebra.Matrix.NonsingularInverse
import Mathlib.LinearAlgebra.Matrix.Trace
import Mathlib.Analysis.SpecialFunctions.Pow.Real
import Verif.Base.Dict

/-!
Model of the fit of a similarity to pairs of points: `affine_matrix_from_points(shear=False)` and
`superimposition_matrix` (/repo/opensfm/transformations.py:942-1110, the SVD branch), `decompose_similarity_transform`
(/repo/opensfm/multiview.py:122-131) and the sampling loop `fit_similarity_transform` (multiview.py:203-252).

Simplifications: numbers are exact reals (a quotient by zero is 0 where NumPy gives `nan`); the dimension is `n + 1`, all
columns of the two arrays are given as a list of pairs; a homogeneous matrix with last row `0 … 0 1` is the pair of its
blocks, so `M /= M[ndims, ndims]` does nothing and the last entry of the residuals of homogeneous points is zero;
`numpy.linalg.svd` is a parameter.
-/
set_option linter.unusedSectionVars false
namespace Verif.Superimpose
open Matrix

abbrev Vec (n : ℕ) := Fin n → ℝ
abbrev Mat (n : ℕ) := Matrix (Fin n) (Fin n) ℝ

/-- What `numpy.linalg.svd` returns: `u, s, vh`. -/
structure Svd (n : ℕ) where
  u : Mat n
  s : Vec n
  vh : Mat n

/-- The upper rows of a homogeneous transform (transformations.py:1055-1057). -/
@[ext] structure Sim (n : ℕ) where
  A : Mat n
  b : Vec n

/-- A transform on a point: `np.dot(T, p1h.T)` (multiview.py:234). -/
def Sim.apply {n : ℕ} (T : Sim n) (x : Vec n) : Vec n := T.A *ᵥ x + T.b

/-- `numpy.mean(v, axis=1)` (transformations.py:999, 1003). -/
noncomputable def mean {n : ℕ} (l : List (Vec n)) : Vec n := (l.length : ℝ)⁻¹ • l.sum

/-- The two arrays with their centroids moved to the origin (transformations.py:999-1006). -/
noncomputable def centred {n : ℕ} (pairs : List (Vec n × Vec n)) : List (Vec n × Vec n) :=
  pairs.map (fun p => (p.1 - mean (pairs.map (·.1)), p.2 - mean (pairs.map (·.2))))

/-- `numpy.dot(v1, v0.T)` (transformations.py:1020). -/
def covariance {n : ℕ} (v : List (Vec n × Vec n)) : Mat n := (v.map (fun p => vecMulVec p.2 p.1)).sum

/-- The rotation of the singular bases, made right handed (transformations.py:1022-1026). -/
noncomputable def rotation {n : ℕ} (d : Svd (n + 1)) : Mat (n + 1) :=
  if (d.u * d.vh).det < 0 then
    d.u * d.vh - vecMulVec (fun i => d.u i (Fin.last n)) (fun j => d.vh (Fin.last n) j * 2)
  else d.u * d.vh

/-- `numpy.sum(v * v)` (transformations.py:1050-1052). -/
def sumSq {n : ℕ} (l : List (Vec n)) : ℝ := (l.map (fun x => x ⬝ᵥ x)).sum

/-- `math.sqrt(numpy.sum(v1) / numpy.sum(v0))` (transformations.py:1050-1052). -/
noncomputable def rmsRatio {n : ℕ} (v : List (Vec n × Vec n)) : ℝ :=
  Real.sqrt (sumSq (v.map (·.2)) / sumSq (v.map (·.1)))

/-- `affine_matrix_from_points(v0, v1, shear=False, scale=scale)` (transformations.py:990-1058); `none`: `ValueError`. -/
noncomputable def superimpose {n : ℕ} (svd : Mat (n + 1) → Svd (n + 1)) (scale : Bool)
    (pairs : List (Vec (n + 1) × Vec (n + 1))) : Option (Sim (n + 1)) :=
  if n + 1 < 2 ∨ pairs.length < n + 1 then none
  else
    let v := centred pairs
    let R := rotation (svd (covariance v))
    let A := if scale then rmsRatio v • R else R
    some ⟨A, A *ᵥ (-mean (pairs.map (·.1))) + mean (pairs.map (·.2))⟩

/-- `decompose_similarity_transform` (multiview.py:122-131), also align.py:239-241. -/
noncomputable def decompose {n : ℕ} (T : Sim n) : ℝ × Mat n × Vec n :=
  let s := T.A.det ^ (1 / (n : ℝ))
  (s, (1 / s) • T.A, T.b)

/-- The error of a pair (multiview.py:234). -/
noncomputable def residual {n : ℕ} (T : Sim n) (p : Vec n × Vec n) : ℝ :=
  Real.sqrt ((p.2 - T.apply p.1) ⬝ᵥ (p.2 - T.apply p.1))

open Classical in
/-- `np.argwhere(errors < threshold)[:, 0]` (multiview.py:235, 248). -/
noncomputable def inliersOf {n : ℕ} (T : Sim n) (threshold : ℝ) (pairs : List (Vec n × Vec n)) : List ℕ :=
  (List.range pairs.length).filter
    (fun i => match pairs[i]? with | none => false | some p => decide (residual T p < threshold))

/-- `p1[idx, :], p2[idx, :]`. -/
def select {n : ℕ} (pairs : List (Vec n × Vec n)) (idx : List ℕ) : List (Vec n × Vec n) :=
  idx.filterMap (fun i => pairs[i]?)

/-- One round of the loop (multiview.py:225-238); `perm` is what `np.random.permutation` returned. -/
noncomputable def round {n : ℕ} (svd : Mat (n + 1) → Svd (n + 1)) (threshold : ℝ) (pairs : List (Vec (n + 1) × Vec (n + 1)))
    (best : Option (Sim (n + 1)) × List ℕ) (perm : List ℕ) : Option (Option (Sim (n + 1)) × List ℕ) :=
  match superimpose svd true (select pairs (perm.take (n + 1))) with
  | none => none
  | some T =>
    if best.2.length ≤ (inliersOf T threshold pairs).length then some (some T, inliersOf T threshold pairs) else some best

/-- `fit_similarity_transform` (multiview.py:203-252); `none`: `ValueError`. Without a round the transform is the array
`[3, 4]`, here `none`. -/
noncomputable def fitSimilarity {n : ℕ} (svd : Mat (n + 1) → Svd (n + 1)) (pairs : List (Vec (n + 1) × Vec (n + 1)))
    (perms : List (List ℕ)) (threshold : ℝ) : Option (Option (Sim (n + 1)) × List ℕ) :=
  match perms.foldlM (round svd threshold pairs) (none, []) with
  | none => none
  | some best =>
    if best.2.length > n + 1 + 3 then
      match superimpose svd true (select pairs best.2) with
      | none => none
      | some T => some (some T, inliersOf T threshold pairs)
    else some best

end Verif.Superimpose
