import Verif.Model.Superimpose
import Verif.Model.Pose

/-!
Model of the alignment of a reconstruction with GPS positions and ground control points, naive method
(/repo/opensfm/align.py:18-40, 77-242, 443-467). `apply_similarity` is in `Model/Pose.lean`, the fit in
`Model/Superimpose.lean`.

Simplifications: numbers are exact reals (where NumPy divides by zero and gets `nan`, and the result is then thrown away at
line 107, the quotient is 0 and the scale 0, which is thrown away by the same line); the result of triangulating a control
point and its position in the topocentric frame are inputs (C85, C43); eigenvalues are a parameter.
-/
set_option linter.unusedSectionVars false
namespace Verif.Align
open Matrix Verif.Superimpose
open Verif.Pose (Pose Recon applySimilarity M3 V3)
variable {Id : Type} [DecidableEq Id]

/-- What `triangulate_all_gcp` looks at (align.py:443-467): the triangulated point or `None`, the position in the
topocentric frame if the point has one, and `has_altitude`. -/
structure GPoint where
  triangulated : Option (Vec 3)
  measured : Option (Vec 3)
  hasAltitude : Bool

/-- The configuration keys (config.py:314-320). -/
structure Cfg where
  method : String
  useGps : Bool
  useGcp : Bool

/-- The reconstruction and `shot.metadata.gps_position`. -/
structure ARec (Id : Type) where
  r : Recon Id ℝ
  gps : Id → Option (Vec 3)

/-- Third coordinate set to zero (align.py:463-464). -/
def flat (x : Vec 3) : Vec 3 := ![x 0, x 1, 0]

/-- One control point (align.py:450-466). -/
def gcpPair (g : GPoint) : Option (Vec 3 × Vec 3) :=
  match g.triangulated, g.measured with
  | some x, some m => if g.hasAltitude then some (x, m) else some (flat x, flat m)
  | _, _ => none

/-- The GPS positions of the shots of a rig instance (align.py:132-136). -/
def instanceGps (a : ARec Id) (i : Id) : List (Vec 3) :=
  a.r.shots.filterMap (fun e => if e.2.1 = i then a.gps e.1 else none)

/-- The constraint of a rig instance (align.py:131-139). -/
noncomputable def instancePair (a : ARec Id) (e : Id × Pose ℝ) : Option (Vec 3 × Vec 3) :=
  if (instanceGps a e.1).length > 0 then some (e.2.getOrigin, mean (instanceGps a e.1)) else none

/-- `alignment_constraints` (align.py:115-140). -/
noncomputable def constraints (cfg : Cfg) (a : ARec Id) (gcp : List GPoint) (useGps : Bool) : List (Vec 3 × Vec 3) :=
  (if gcp.length > 0 ∧ cfg.useGcp then gcp.filterMap gcpPair else []) ++
  (if useGps ∧ cfg.useGps then a.r.rigInstances.filterMap (instancePair a) else [])

/-- `np.std(l, axis=0)` (align.py:213). -/
noncomputable def stdev (l : List (Vec 3)) (k : Fin 3) : ℝ :=
  Real.sqrt ((l.length : ℝ)⁻¹ * (l.map (fun x => (x k - mean l k) ^ 2)).sum)

open Classical in
/-- `detect_alignment_constraints` (align.py:143-180): `true` is "naive". `eig` gives the sorted eigenvalues. -/
noncomputable def wellConditioned (eig : Mat 3 → Vec 3) (pairs : List (Vec 3 × Vec 3)) : Bool :=
  if pairs.length < 3 then false
  else
    let X := pairs.map (fun p => p.1 - mean (pairs.map (·.1)))
    let e := eig ((X.map (fun x => vecMulVec x x)).sum)
    let small := ((if e 0 < 1 / 10 ^ 10 then 1 else 0) + (if e 1 < 1 / 10 ^ 10 then 1 else 0) + (if e 2 < 1 / 10 ^ 10 then 1 else 0) : ℕ)
    !(decide (small > 1 ∨ |e 2 / e 1| > 5000))

open Classical in
/-- `compute_naive_similarity` (align.py:194-242). -/
noncomputable def naive (svd : Mat 3 → Svd 3) (pairs : List (Vec 3 × Vec 3)) (useScale : Bool) :
    Option (ℝ × Mat 3 × Vec 3) :=
  match pairs with
  | [] => none
  | p :: rest =>
    let sd := stdev (pairs.map (·.2))
    if Real.sqrt (sd 0 ^ 2 + sd 1 ^ 2 + sd 2 ^ 2) < 1 / 10 ^ 10 ∨ pairs.length = 1 then some (1, 1, p.2 - p.1)
    else
      let all := if pairs.length = 2 then p :: rest ++ rest else pairs
      (superimpose svd useScale all).map decompose

/-- `compute_reconstruction_similarity` (align.py:77-112), for the naive method and for `auto`; `prior` is the other
method. -/
noncomputable def similarity (svd : Mat 3 → Svd 3) (eig : Mat 3 → Vec 3)
    (prior : List (Vec 3 × Vec 3) → Bool → Option (ℝ × Mat 3 × Vec 3)) (cfg : Cfg) (a : ARec Id) (gcp : List GPoint)
    (useGps useScale : Bool) : Option (ℝ × Mat 3 × Vec 3) :=
  let pairs := constraints cfg a gcp useGps
  let method := if cfg.method = "auto" then (if wellConditioned eig pairs then "naive" else "orientation_prior") else cfg.method
  let res := if method = "orientation_prior" then prior pairs useScale
    else if method = "naive" then naive svd pairs useScale else none
  match res with
  | none => none
  | some x => if x.1 = 0 then none else some x

/-- `use_scale` (align.py:26-29). -/
def useScale (a : ARec Id) : Bool :=
  !(a.r.rigInstances.any (fun e => decide ((a.r.shots.filter (fun s => decide (s.2.1 = e.1))).length > 1)))

/-- `align_reconstruction` without compensation of the GPS bias (align.py:18-40). -/
noncomputable def align (svd : Mat 3 → Svd 3) (eig : Mat 3 → Vec 3)
    (prior : List (Vec 3 × Vec 3) → Bool → Option (ℝ × Mat 3 × Vec 3)) (cfg : Cfg) (a : ARec Id) (gcp : List GPoint)
    (useGps : Bool) : Option (ℝ × Mat 3 × Vec 3) × ARec Id :=
  match similarity svd eig prior cfg a gcp useGps (useScale a) with
  | none => (none, a)
  | some (s, A, b) => (some (s, A, b), { a with r := applySimilarity a.r s A b })

end Verif.Align
