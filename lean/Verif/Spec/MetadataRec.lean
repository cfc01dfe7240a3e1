import Verif.Model.MetadataRec

/-!
Which rig instance and rig camera an image belongs to (C108).
-/
namespace Verif.MetadataRec

/-- The image `a` belongs to instance `i` as rig camera `c`: by the assignments, or alone, with the name of its camera, when it has none. -/
def InRig (assignments : Dict String (List (String × String))) (exif : String → Exif) (a i c : String) : Prop :=
  (∃ l, (i, l) ∈ assignments ∧ (a, c) ∈ l) ∨ ((∀ q ∈ assignments, ∀ s ∈ q.2, s.1 ≠ a) ∧ i = a ∧ c = (exif a).camera)

/-- Every image is assigned once at most. -/
def AssignedOnce (assignments : Dict String (List (String × String))) : Prop :=
  ∀ i l i' l' a c c', (i, l) ∈ assignments → (a, c) ∈ l → (i', l') ∈ assignments → (a, c') ∈ l' → i = i' ∧ c = c'

end Verif.MetadataRec
