import Verif.Model.MapCopy

/-! # What a well formed map is, and the pose of a shot -/
namespace Verif.MapCopy

variable {Id A X C K B P D M R : Type} [DecidableEq Id]

/-- A map as the library leaves it: references go to existing objects, both directions agree. -/
structure Consistent (m : FMap Id A X C K B P D M R) : Prop where
  wfCameras : m.cameras.Wf
  wfBias : m.bias.Wf
  wfShots : m.shots.Wf
  wfPano : m.pano.Wf
  wfLandmarks : m.landmarks.Wf
  biases : ∀ c, (m.bias.get? c).isSome ↔ (m.cameras.get? c).isSome
  camera : ∀ b s sh, (table m b).get? s = some sh → (m.cameras.get? sh.camera).isSome
  rigCamera : ∀ b s sh, (table m b).get? s = some sh → (m.rigCameras.get? sh.rigCamera).isSome
  inst : ∀ b s sh, (table m b).get? s = some sh → ∃ i, m.rigInstances.get? sh.inst = some i ∧
    i.members.get? s = some ⟨b, sh.rigCamera⟩
  member : ∀ i x s e, m.rigInstances.get? i = some x → x.members.get? s = some e →
    ∃ sh, (table m e.pano).get? s = some sh ∧ sh.inst = i ∧ sh.rigCamera = e.rigCamera
  wfMembers : ∀ i x, m.rigInstances.get? i = some x → x.members.Wf
  once : ∀ i x s e s' e', m.rigInstances.get? i = some x → x.members.get? s = some e →
    x.members.get? s' = some e' → e.rigCamera = e'.rigCamera → s = s'
  wfObs : ∀ s sh, m.shots.get? s = some sh → sh.lmObs.Wf
  observed : ∀ s sh l o, m.shots.get? s = some sh → sh.lmObs.get? l = some o →
    (m.landmarks.get? l).isSome
  features : ∀ s sh f l, m.shots.get? s = some sh →
    (sh.lmId.get? f = some l ↔ ∃ o, sh.lmObs.get? l = some o ∧ o.feat = f)

/-- No rig instance has both shots and pano shots. -/
def Unmixed (m : FMap Id A X C K B P D M R) : Prop :=
  ∀ i x s e s' e', m.rigInstances.get? i = some x → x.members.get? s = some e →
    x.members.get? s' = some e' → e.pano = e'.pano

/-- The pose of a shot: the pose of its rig camera after the pose of its rig instance. -/
def HasPose [Mul P] (m : FMap Id A X C K B P D M R) (sh : FShot Id A D M) (p : P) : Prop :=
  ∃ inst rp, m.rigInstances.get? sh.inst = some inst ∧ m.rigCameras.get? sh.rigCamera = some rp ∧
    p = rp * inst.pose

end Verif.MapCopy
