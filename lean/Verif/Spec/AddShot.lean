import Verif.Spec.MapCopy

/-! Specification for C119: when images can enter a reconstruction. -/
namespace Verif.AddShot
open Verif.MapCopy

variable {Id A X C K B P D M R : Type} [DecidableEq Id]

/-- The images `L` of a rig instance can all be added: none is named twice, none is in the reconstruction, each
has an assignment and a camera, both known to the reconstruction, and no two have the same rig camera. -/
structure CanAdd (m : FMap Id A X C K B P D M R) (exifCamera : Id → Option Id)
    (asg : Dict Id (Id × Id × List Id)) (L : List Id) : Prop where
  once : L.Nodup
  fresh : ∀ t ∈ L, m.shots.get? t = none
  known : ∀ t ∈ L, ∃ a cam, asg.get? t = some a ∧ exifCamera t = some cam ∧ (m.cameras.get? cam).isSome ∧
    (m.rigCameras.get? a.2.1).isSome
  apart : ∀ t ∈ L, ∀ u ∈ L, ∀ a b, asg.get? t = some a → asg.get? u = some b → a.2.1 = b.2.1 → t = u

/-- Everything but shots and rigs is the same. -/
structure SameRest (m m' : FMap Id A X C K B P D M R) : Prop where
  cameras : m'.cameras = m.cameras
  bias : m'.bias = m.bias
  pano : m'.pano = m.pano
  landmarks : m'.landmarks = m.landmarks
  reference : m'.reference = m.reference

end Verif.AddShot
