import Mathlib.Data.List.Infix
import Mathlib.Data.Nat.Notation

/-!
# Specification: removing a text from another

From left to right, every occurrence of `old` that does not overlap a removed one goes, and nothing
else does.
-/
namespace Verif.CameraIds.Spec

/-- `t` is `s` without the occurrences of `old`. -/
inductive Removed (old : List Char) : List Char → List Char → Prop
  | nil : Removed old [] []
  | hit {rest t : List Char} : Removed old rest t → Removed old (old ++ rest) t
  | miss {c : Char} {s t : List Char} : ¬ old <+: c :: s → Removed old s t → Removed old (c :: s) (c :: t)

/-- The model name without the make: every occurrence is removed, unless the make is empty or not known. -/
def Bare (make model m : List Char) : Prop :=
  (make = [] ∨ make = "unknown".toList → m = model) ∧
  (make ≠ [] → make ≠ "unknown".toList → Removed make model m)

end Verif.CameraIds.Spec
