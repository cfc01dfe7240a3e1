import Verif.Model.Align
import Mathlib.Analysis.SpecialFunctions.Trigonometric.Inverse

/-!
Model of the alignment that assumes a camera orientation: `compute_orientation_prior_similarity`,
`estimate_ground_plane` and `get_horizontal_and_vertical_directions` (/repo/opensfm/align.py:245-305, 362-440), `fit_plane`
and `plane_horizontalling_rotation` (/repo/opensfm/multiview.py:134-201), `rotation_matrix` and `angle_between_vectors`
(/repo/opensfm/transformations.py:298-347, 1791-1796).

Simplifications: numbers are exact reals; an angle with the zero vector is π/2 where NumPy gives `nan` (both are neither
below 1 nor above 3); a quotient by zero in the fit gives the scale 0 where NumPy gives `nan` (both are refused at
align.py:107); the eigenvector of the smallest eigenvalue and the singular value decomposition are parameters.
-/
set_option linter.unusedSectionVars false
namespace Verif.AlignPrior
open Matrix Verif.Superimpose Verif.Align
open Verif.Pose (Pose Recon M3 V3)
variable {Id : Type} [DecidableEq Id]

/-- Numpy's `cross` (transformations.py:1761). -/
def cross (v w : Vec 3) : Vec 3 := ![v 1 * w 2 - v 2 * w 1, v 2 * w 0 - v 0 * w 2, v 0 * w 1 - v 1 * w 0]

/-- `numpy.linalg.norm`. -/
noncomputable def norm (v : Vec 3) : ℝ := Real.sqrt (v ⬝ᵥ v)

/-- `angle_between_vectors` (transformations.py:1791-1796). -/
noncomputable def angleBetween (v w : Vec 3) : ℝ := Real.arccos (max (-1) (min 1 ((v ⬝ᵥ w) / (norm v * norm w))))

/-- The 3x3 block of `rotation_matrix` (transformations.py:327-341). -/
noncomputable def rotationMatrix (angle : ℝ) (direction : Vec 3) : Mat 3 :=
  let k : Vec 3 := (1 / norm direction) • direction
  let d : Vec 3 := Real.sin angle • k
  diagonal (fun _ => Real.cos angle) + (1 - Real.cos angle) • vecMulVec k k + !![0, -d 2, d 1; d 2, 0, -d 0; -d 1, d 0, 0]

open Classical in
/-- `plane_horizontalling_rotation` (multiview.py:176-200), on the first three entries of the plane. -/
noncomputable def horizontalling (v : Vec 3) : Option (Mat 3) :=
  let up : Vec 3 := ![0, 0, 1]
  let angle := angleBetween v up
  let axis := cross v up
  if norm axis > 0 then some (rotationMatrix angle axis)
  else if angle < 1 then some 1
  else if angle > 3 then some (diagonal ![1, -1, -1])
  else none

/-- What `estimate_ground_plane` looks at in a shot (align.py:375-384). -/
structure View where
  origin : Vec 3
  R : Mat 3
  orientation : Option ℤ

/-- The shots of a reconstruction; `orient` is `shot.metadata.orientation`. -/
noncomputable def views (a : ARec Id) (orient : Id → Option ℤ) : List View :=
  a.r.shots.filterMap (fun e => (a.r.shotPose e.1).map (fun p => ⟨p.getOrigin, p.wcR, orient e.1⟩))

/-- `get_horizontal_and_vertical_directions` (align.py:408-440). -/
def directions (R : Mat 3) (orientation : ℤ) : Vec 3 × Vec 3 × Vec 3 :=
  if orientation = 1 then (R 0, R 1, R 2)
  else if orientation = 2 then (-R 0, R 1, -R 2)
  else if orientation = 3 then (-R 0, -R 1, R 2)
  else if orientation = 4 then (R 0, -R 1, R 2)
  else if orientation = 5 then (R 1, R 0, -R 2)
  else if orientation = 6 then (-R 1, R 0, R 2)
  else if orientation = 7 then (-R 1, -R 0, -R 2)
  else if orientation = 8 then (R 1, -R 0, R 2)
  else (R 0, R 1, R 2)

/-- The vectors of one shot on the plane (align.py:378-395). -/
def onplane (kind : String) (v : View) : List (Vec 3) :=
  match v.orientation with
  | none => []
  | some o =>
    let d := directions v.R o
    if kind = "no_roll" then [d.1]
    else if kind = "horizontal" then [d.1, d.2.2]
    else if kind = "vertical" then [d.1, d.2.1]
    else []

/-- The vectors of one shot pointing up (align.py:378-395). -/
def verticals (kind : String) (v : View) : List (Vec 3) :=
  match v.orientation with
  | none => []
  | some o =>
    let d := directions v.R o
    if kind = "no_roll" then [-d.2.1]
    else if kind = "horizontal" then [-d.2.1]
    else if kind = "vertical" then [-d.2.2]
    else []

/-- All entries of an array of points. -/
def entries (points : List (Vec 3)) : List ℝ := points.flatMap (fun x => [x 0, x 1, x 2])

/-- `points.std()` (multiview.py:156). -/
noncomputable def stdAll (points : List (Vec 3)) : ℝ :=
  let l := entries points
  let m := l.sum / l.length
  Real.sqrt ((l.map (fun x => (x - m) ^ 2)).sum / l.length)

/-- `homogeneous(s * points)` and `homogeneous_vec(s * vectors)` (multiview.py:157-163). -/
noncomputable def planeRows (points vectors : List (Vec 3)) : List (Vec 4) :=
  let s := 1 / max (1 / 10 ^ 8) (stdAll points)
  points.map (fun x => ![s * x 0, s * x 1, s * x 2, 1]) ++ vectors.map (fun x => ![s * x 0, s * x 1, s * x 2, 0])

/-- `A.T.dot(A)` (multiview.py:164). -/
noncomputable def gram (rows : List (Vec 4)) : Mat 4 := (rows.map (fun r => vecMulVec r r)).sum

open Classical in
/-- `fit_plane` (multiview.py:134-179); `minVec` is the eigenvector of the smallest eigenvalue. -/
noncomputable def fitPlane (minVec : Mat 4 → Vec 4) (points vectors verts : List (Vec 3)) : Vec 4 :=
  let p := minVec (gram (planeRows points vectors))
  if |p 0| ≤ 1 / 10 ^ 8 ∧ |p 1| ≤ 1 / 10 ^ 8 ∧ |p 2| ≤ 1 / 10 ^ 8 then ![0, 0, 1, 0]
  else if verts.length > 0 then
    (SignType.sign ((verts.map (fun v => ![p 0, p 1, p 2] ⬝ᵥ v)).sum) : ℝ) • p
  else p

/-- `estimate_ground_plane` (align.py:362-405); `none` without shots (`LinAlgError` is a `ValueError`). -/
noncomputable def estimateGroundPlane (minVec : Mat 4 → Vec 4) (kind : String) (vs : List View) : Option (Vec 4) :=
  if vs = [] then none
  else
    let origins := vs.map (·.origin)
    let points := origins.map (fun x => x - mean origins)
    some (fitPlane minVec points (vs.flatMap (onplane kind)) (vs.flatMap (verticals kind)))

/-- The largest of `X.std(axis=0)` (align.py:276-277). -/
noncomputable def maxStd (l : List (Vec 3)) : ℝ := max (max (stdev l 0) (stdev l 1)) (stdev l 2)

/-- The first two coordinates (align.py:294). -/
def horiz (x : Vec 3) : Vec 2 := ![x 0, x 1]

/-- `A = np.eye(3); A[:2, :2] = R` (align.py:299-300). -/
def lift (R : Mat 2) : Mat 3 := !![R 0 0, R 0 1, 0; R 1 0, R 1 1, 0; 0, 0, 1]

open Classical in
/-- `compute_orientation_prior_similarity` after the plane (align.py:258-312). -/
noncomputable def fitWithUp (svd : Mat 2 → Svd 2) (Rplane : Mat 3) (pairs : List (Vec 3 × Vec 3)) (useScale : Bool) :
    Option (ℝ × Mat 3 × Vec 3) :=
  if pairs.length < 1 then some (1, Rplane, 0)
  else
    let X := pairs.map (fun p => Rplane *ᵥ p.1)
    let Xp := pairs.map (·.2)
    if pairs.length < 2 ∨ (maxStd X < 1 / 10 ^ 8 ∨ maxStd Xp < 1 / 100) then
      let b := mean Xp - mean X
      if pairs.length = 2 ∧ norm b > 1000 then some (1000 / norm b, Rplane, (1000 / norm b) • b)
      else some (1, Rplane, b)
    else
      match superimpose svd useScale (pairs.map (fun p => (horiz (Rplane *ᵥ p.1), horiz p.2))) with
      | none => none
      | some T =>
        let d := decompose T
        some (d.1, lift d.2.1 * Rplane, ![d.2.2 0, d.2.2 1, mean Xp 2 - d.1 * mean X 2])

/-- `compute_orientation_prior_similarity` (align.py:245-312). -/
noncomputable def prior (svd : Mat 2 → Svd 2) (minVec : Mat 4 → Vec 4) (kind : String) (vs : List View)
    (pairs : List (Vec 3 × Vec 3)) (useScale : Bool) : Option (ℝ × Mat 3 × Vec 3) :=
  match estimateGroundPlane minVec kind vs with
  | none => none
  | some p =>
    match horizontalling ![p 0, p 1, p 2] with
    | none => none
    | some Rplane => fitWithUp svd Rplane pairs useScale

end Verif.AlignPrior
