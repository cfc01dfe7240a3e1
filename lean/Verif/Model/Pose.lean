import Mathlib.LinearAlgebra.Matrix.NonsingularInverse
import Verif.Base.Dict

/-!
Model of `geometry::Pose` (/repo/opensfm/src/geometry/pose.h), `geometry::Similarity`
(similarity.h) and of the alignment functions of /repo/opensfm/align.py.

Simplifications: numbers are an arbitrary field (no rounding); a 4x4 matrix with last row
`0 0 0 1` is the pair (3x3 block, 3x1 block) and its inverse is the block formula; the cached
minimal (axis-angle) rotations are not stored, they are recomputed from the matrices where the
code reads them.
-/
set_option linter.unusedSectionVars false
namespace Verif.Pose
open Matrix

abbrev M3 (K : Type) := Matrix (Fin 3) (Fin 3) K
abbrev V3 (K : Type) := Fin 3 → K

variable {K : Type} [Field K]

/-- `geometry::Pose` (pose.h:178-182): both directions are stored. -/
@[ext] structure Pose (K : Type) where
  /-- rotation block of `world_to_cam_` -/
  wcR : M3 K
  /-- translation block of `world_to_cam_` -/
  wcT : V3 K
  /-- rotation block of `cam_to_world_` -/
  cwR : M3 K
  /-- translation block of `cam_to_world_` -/
  cwT : V3 K

namespace Pose

/-- `SetFromWorldToCamera(R, t)` (pose.h:69-75); also the `Mat4d` overload (58-62) and the
constructors (12-26). The previous value is entirely overwritten. -/
noncomputable def ofWorldToCamera (R : M3 K) (t : V3 K) : Pose K := ⟨R, t, R⁻¹, -(R⁻¹ *ᵥ t)⟩

/-- `SetFromCameraToWorld(R, t)` (pose.h:77-83, 63-67). -/
noncomputable def ofCameraToWorld (R : M3 K) (t : V3 K) : Pose K := ⟨R⁻¹, -(R⁻¹ *ᵥ t), R, t⟩

/-- Default constructor (pose.h:12-15). -/
noncomputable def identity : Pose K := ofWorldToCamera 1 0

/-- `SetWorldToCamRotationMatrix` (pose.h:97-101); `SetWorldToCamRotation` (85-90) is the same after
converting the rotation vector. The translation of `cam_to_world_` is NOT updated. -/
def setRotationMatrix (p : Pose K) (R : M3 K) : Pose K := { p with wcR := R, cwR := Rᵀ }

/-- `SetWorldToCamTranslation` (pose.h:92-95). -/
noncomputable def setTranslation (p : Pose K) (t : V3 K) : Pose K :=
  { p with wcT := t, cwT := -(p.wcR⁻¹ *ᵥ t) }

/-- `GetOrigin` (pose.h:53). -/
def getOrigin (p : Pose K) : V3 K := p.cwT

/-- `SetOrigin` (pose.h:54-56). -/
noncomputable def setOrigin (p : Pose K) (o : V3 K) : Pose K := p.setTranslation (-p.wcR *ᵥ o)

/-- `TransformWorldToCamera` (pose.h:111-114). -/
def transform (p : Pose K) (x : V3 K) : V3 K := p.wcR *ᵥ x + p.wcT

/-- `TransformCameraToWorld` (pose.h:116-119). -/
def transformInverse (p : Pose K) (x : V3 K) : V3 K := p.cwR *ᵥ x + p.cwT

/-- `TransformWorldToCameraMany` (pose.h:121-125): rows of an n x 3 matrix; each row is
`point^T * R^T + t^T`. -/
def transformMany (p : Pose K) (xs : List (V3 K)) : List (V3 K) :=
  xs.map (fun x => x ᵥ* p.wcRᵀ + p.wcT)

/-- `TransformCameraToWorldMany` (pose.h:127-131). -/
def transformInverseMany (p : Pose K) (xs : List (V3 K)) : List (V3 K) :=
  xs.map (fun x => x ᵥ* p.cwRᵀ + p.cwT)

/-- `RelativeTo` (pose.h:133-144): block product `world_to_cam_ * base.cam_to_world_`. -/
noncomputable def relativeTo (p b : Pose K) : Pose K :=
  ofWorldToCamera (p.wcR * b.cwR) (p.wcR *ᵥ b.cwT + p.wcT)

/-- `Compose` (pose.h:146-157). -/
noncomputable def compose (p b : Pose K) : Pose K :=
  ofWorldToCamera (p.wcR * b.wcR) (p.wcR *ᵥ b.wcT + p.wcT)

/-- `Inverse` (pose.h:159-167). -/
noncomputable def inverse (p : Pose K) : Pose K := ofWorldToCamera p.cwR p.cwT

/-- The mutating part of the Python API of `Pose` (pybind.cc:321-400). -/
inductive Op (K : Type) where
  | setFromWorldToCam (R : M3 K) (t : V3 K)
  | setFromCamToWorld (R : M3 K) (t : V3 K)
  | setRotation (R : M3 K)
  | setTranslation (t : V3 K)
  | setOrigin (o : V3 K)

/-- One call on a pose object. -/
noncomputable def step (p : Pose K) : Op K → Pose K
  | .setFromWorldToCam R t => ofWorldToCamera R t
  | .setFromCamToWorld R t => ofCameraToWorld R t
  | .setRotation R => p.setRotationMatrix R
  | .setTranslation t => p.setTranslation t
  | .setOrigin o => p.setOrigin o

/-- A history of calls on a freshly constructed pose. -/
noncomputable def run (ops : List (Op K)) : Pose K := ops.foldl step identity

end Pose

/-- `geometry::Similarity` (similarity.h:7-37). -/
structure Similarity (K : Type) where
  Rt : Pose K
  scale : K

namespace Similarity

/-- Constructor from a rotation matrix (similarity.h:11). -/
noncomputable def mk' (R : M3 K) (t : V3 K) (s : K) : Similarity K := ⟨.ofWorldToCamera R t, s⟩

/-- `Transform` (similarity.h:23-25). -/
def transform (S : Similarity K) (x : V3 K) : V3 K := (S.scale • S.Rt.wcR) *ᵥ x + S.Rt.wcT

/-- `Inverse` (similarity.h:27-30). The inverse rotation goes through its axis-angle vector:
`toVec`/`toMat` are `RotationMatrixToVector` / `VectorToRotationMatrix`
(transformations_functions.h), kept as parameters. -/
noncomputable def inverse {W : Type} (toVec : M3 K → W) (toMat : W → M3 K) (S : Similarity K) :
    Similarity K :=
  mk' (toMat (toVec S.Rt.cwR)) ((1 / S.scale) • S.Rt.getOrigin) (1 / S.scale)

end Similarity

/-! ### align.py -/

/-- `apply_similarity_pose` (align.py:42-51). -/
noncomputable def applySimilarityPose (p : Pose K) (s : K) (A : M3 K) (b : V3 K) : Pose K :=
  let Rp := p.wcR * Aᵀ
  let tp := -(Rp *ᵥ b) + s • p.wcT
  (p.setRotationMatrix Rp).setTranslation tp

/-- The part of a reconstruction that `apply_similarity` touches, plus which instance and rig
camera each shot belongs to. -/
structure Recon (Id K : Type) where
  points : Dict Id (V3 K)
  rigInstances : Dict Id (Pose K)
  rigCameras : Dict Id (Pose K)
  shots : Dict Id (Id × Id)

/-- `apply_similarity` (align.py:54-74). -/
noncomputable def applySimilarity {Id : Type} (r : Recon Id K) (s : K) (A : M3 K) (b : V3 K) :
    Recon Id K :=
  { r with
    points := r.points.map (fun e => (e.1, s • (A *ᵥ e.2) + b))
    rigInstances := r.rigInstances.map (fun e => (e.1, applySimilarityPose e.2 s A b))
    rigCameras := r.rigCameras.map (fun e => (e.1, applySimilarityPose e.2 s 1 0)) }

/-- `Shot::GetPose` (shot.cc:146-159). -/
noncomputable def Recon.shotPose {Id : Type} [DecidableEq Id] (r : Recon Id K) (sh : Id) :
    Option (Pose K) :=
  match r.shots.get? sh with
  | none => none
  | some (i, c) =>
    match r.rigInstances.get? i, r.rigCameras.get? c with
    | some pi, some pc => some (pc.compose pi)
    | _, _ => none

end Verif.Pose
