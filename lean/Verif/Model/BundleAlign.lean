import Verif.Model.Superimpose
import Verif.Base.Dict

/-!
Model of what the full bundle adjustment does with ground control points and with the alignment method:
`TriangulateGCP`, `AddGCPToBundle`, `AlignmentConstraints`, `DetectAlignmentConstraints` and the choice of the up vector in `Bundle`
(/repo/opensfm/src/sfm/src/ba_helpers.cc:313-405, 604-623, 685-691, 821-893), and the prior of a point
(/repo/opensfm/src/bundle/src/bundle_adjuster.cc:224-236, 687-710; bundle/error/prior_error.h:19-90).

Simplifications: exact reals; the measured position of a control point is already in the topocentric frame; the midpoint triangulation
(C85), the ray of an observation and the eigenvalues are parameters; hash maps are lists in the order they are iterated in. Rows of a
matrix that were never written hold `junk`.
-/
set_option linter.unusedSectionVars false
namespace Verif.BundleAlign
open Matrix Verif.Superimpose
variable {Id Px : Type} [DecidableEq Id]

/-- What is read of a shot: origin of its pose, ray of an image point in the world frame, GPS position. -/
structure MShot (Px : Type) where
  origin : Vec 3
  ray : Px → Vec 3
  gps : Option (Vec 3)

/-- A ground control point (map/ground_control_points.h:12-40). -/
structure Gcp (Id Px : Type) where
  id : Id
  lla : Option (Vec 3)
  hasAltitude : Bool
  obs : List (Id × Px)

/-- What is read of the configuration (config.py:265-269, 314-320). -/
structure Cfg where
  method : String
  orientationPrior : String
  useGps : Bool
  useGcp : Bool
  globalWeight : ℝ
  horizontalSd : ℝ
  verticalSd : ℝ

/-- The rays of the observations in shots of the map (ba_helpers.cc:325-335). -/
def rays (shots : Dict Id (MShot Px)) (g : Gcp Id Px) : List (Vec 3 × Vec 3) :=
  g.obs.filterMap (fun o => (shots.get? o.1).map (fun s => (s.origin, s.ray o.2)))

/-- `TriangulateGCP` (ba_helpers.cc:313-346). -/
def triangulate (mid : List (Vec 3 × Vec 3) → Option (Vec 3)) (shots : Dict Id (MShot Px)) (g : Gcp Id Px) : Option (Vec 3) :=
  if (rays shots g).length ≥ 2 then mid (rays shots g) else none

/-! ### Alignment -/

/-- The number of rows made (ba_helpers.cc:824-836). -/
def reserve (cfg : Cfg) (shots : Dict Id (MShot Px)) (gcp : List (Gcp Id Px)) : ℕ :=
  (if gcp ≠ [] ∧ cfg.useGcp then gcp.length else 0) +
  (if cfg.useGps then (shots.filter (fun e => e.2.gps.isSome)).length else 0)

/-- The rows written for control points (ba_helpers.cc:842-853). -/
def gcpRows (mid : List (Vec 3 × Vec 3) → Option (Vec 3)) (shots : Dict Id (MShot Px)) (gcp : List (Gcp Id Px)) : List (Vec 3 × Vec 3) :=
  gcp.filterMap (fun g => match g.lla with
    | none => none
    | some m => (triangulate mid shots g).map (fun x => (x, m)))

/-- The rows written for shots (ba_helpers.cc:855-863). -/
def gpsRows (shots : Dict Id (MShot Px)) : List (Vec 3 × Vec 3) :=
  shots.filterMap (fun e => e.2.gps.map (fun p => (e.2.origin, p)))

/-- The rows that are written (ba_helpers.cc:840-863). -/
def written (mid : List (Vec 3 × Vec 3) → Option (Vec 3)) (cfg : Cfg) (shots : Dict Id (MShot Px)) (gcp : List (Gcp Id Px)) :
    List (Vec 3 × Vec 3) :=
  (if gcp ≠ [] ∧ cfg.useGcp then gcpRows mid shots gcp else []) ++ (if cfg.useGps then gpsRows shots else [])

/-- `AlignmentConstraints` (ba_helpers.cc:821-864): the matrix `X` of reconstructed positions. Rows `written.length ..` are never
written. -/
def matrixX (junk : ℕ → Vec 3) (mid : List (Vec 3 × Vec 3) → Option (Vec 3)) (cfg : Cfg) (shots : Dict Id (MShot Px))
    (gcp : List (Gcp Id Px)) : List (Vec 3) :=
  let w := written mid cfg shots gcp
  w.map (·.1) ++ (List.range (reserve cfg shots gcp - w.length)).map (fun k => junk (w.length + k))

open Classical in
/-- `DetectAlignmentConstraints` (ba_helpers.cc:866-893) on the matrix `X`. -/
noncomputable def detect (eig : Mat 3 → Vec 3) (X : List (Vec 3)) : String :=
  if X.length < 3 then "orientation_prior"
  else
    let e := eig ((X.map (fun x => vecMulVec (x - mean X) (x - mean X))).sum)
    let small := ((if e 0 < 1 / 10 ^ 10 then 1 else 0) + (if e 1 < 1 / 10 ^ 10 then 1 else 0) + (if e 2 < 1 / 10 ^ 10 then 1 else 0) : ℕ)
    if small > 1 ∨ |e 2 / e 1| > 5000 then "orientation_prior" else "naive"

/-- `align_method` after the automatic choice (ba_helpers.cc:604-607). -/
noncomputable def methodOf (junk : ℕ → Vec 3) (mid : List (Vec 3 × Vec 3) → Option (Vec 3)) (eig : Mat 3 → Vec 3) (cfg : Cfg)
    (shots : Dict Id (MShot Px)) (gcp : List (Gcp Id Px)) : String :=
  if cfg.method = "auto" then detect eig (matrixX junk mid cfg shots gcp) else cfg.method

/-- The up vector added to every shot, if any (ba_helpers.cc:609-623). -/
noncomputable def upVector (cfg : Cfg) (method : String) : Option (Vec 3) :=
  if method = "orientation_prior" then
    if cfg.orientationPrior = "vertical" then some ![0, 0, -1]
    else if cfg.orientationPrior = "horizontal" then some ![0, -1, 0]
    else none
  else none

/-- The up vector terms of `Bundle` (ba_helpers.cc:685-691): shot, vector, standard deviation. -/
noncomputable def upTerms (junk : ℕ → Vec 3) (mid : List (Vec 3 × Vec 3) → Option (Vec 3)) (eig : Mat 3 → Vec 3) (cfg : Cfg)
    (shots : Dict Id (MShot Px)) (gcp : List (Gcp Id Px)) : List (Id × Vec 3 × ℝ) :=
  match upVector cfg (methodOf junk mid eig cfg shots gcp) with
  | none => []
  | some u => shots.map (fun e => (e.1, u, 1 / 1000))

/-! ### Terms of the control points -/

/-- `total_terms` (ba_helpers.cc:360-369), one point. -/
def countPoint (mid : List (Vec 3 × Vec 3) → Option (Vec 3)) (shots : Dict Id (MShot Px)) (g : Gcp Id Px) : ℕ :=
  (if (triangulate mid shots g).isSome || g.lla.isSome then 1 else 0) + (g.obs.filter (fun o => shots.has o.1)).length

/-- `global_weight` (ba_helpers.cc:355-372); `dominant` is the number of rig instances, projections and relative motions. -/
noncomputable def weight (mid : List (Vec 3 × Vec 3) → Option (Vec 3)) (cfg : Cfg) (shots : Dict Id (MShot Px)) (gcp : List (Gcp Id Px))
    (dominant : ℕ) : ℝ :=
  cfg.globalWeight * dominant / ((max 1 ((gcp.map (countPoint mid shots)).sum) : ℕ) : ℝ)

/-- What `AddGCPToBundle` adds: a point with its start, the prior of a point, an observation with its scale. -/
inductive Term (Id Px : Type) where
  | point (id : Id) (start : Vec 3)
  | prior (id : Id) (position : Vec 3) (sd : Vec 3) (altitude : Bool)
  | obs (shot id : Id) (px : Px) (scale : ℝ)

/-- One control point (ba_helpers.cc:374-403). -/
noncomputable def pointTerms (mid : List (Vec 3 × Vec 3) → Option (Vec 3)) (cfg : Cfg) (shots : Dict Id (MShot Px)) (w : ℝ) (g : Gcp Id Px) :
    List (Term Id Px) :=
  let rest : List (Term Id Px) :=
    (match g.lla with
      | none => []
      | some m => [.prior g.id m ((1 / w) • ![cfg.horizontalSd, cfg.horizontalSd, cfg.verticalSd]) g.hasAltitude]) ++
    (g.obs.filter (fun o => shots.has o.1)).map (fun o => .obs o.1 g.id o.2 (1 / 1000 / w))
  match triangulate mid shots g with
  | some x => .point g.id x :: rest
  | none => match g.lla with
    | some m => .point g.id m :: rest
    | none => []

/-- `AddGCPToBundle` (ba_helpers.cc:348-405). -/
noncomputable def gcpTerms (mid : List (Vec 3 × Vec 3) → Option (Vec 3)) (cfg : Cfg) (shots : Dict Id (MShot Px)) (gcp : List (Gcp Id Px))
    (dominant : ℕ) : List (Term Id Px) :=
  gcp.flatMap (pointTerms mid cfg shots (weight mid cfg shots gcp dominant))

/-- The residuals of the prior of a point (bundle_adjuster.cc:688-710, prior_error.h:26-90). -/
noncomputable def priorResidual (position sd : Vec 3) (altitude : Bool) (x : Vec 3) : List ℝ :=
  (if altitude then [0, 1, 2] else [0, 1]).map (fun k : Fin 3 => 1 / max (sd k) (1 / 2 ^ 52) * (x k - position k))

end Verif.BundleAlign
