import Verif.Model.Superimpose
import Mathlib.Analysis.SpecialFunctions.Trigonometric.Basic

/-!
Elementary rotations, for the properties of the angles of a camera (C106).
-/
namespace Verif.Angles
open Matrix Verif.Superimpose

/-- The turn by the angle `t`, anticlockwise, about the axis `x` (0), `y` (1) or `z` (2). -/
noncomputable def turn (axis : Fin 3) (t : ℝ) : Mat 3 :=
  match axis with
  | 0 => !![1, 0, 0; 0, Real.cos t, -Real.sin t; 0, Real.sin t, Real.cos t]
  | 1 => !![Real.cos t, 0, Real.sin t; 0, 1, 0; -Real.sin t, 0, Real.cos t]
  | 2 => !![Real.cos t, -Real.sin t, 0; Real.sin t, Real.cos t, 0; 0, 0, 1]

/-- The axis that a letter stands for. -/
def axisOf (c : Char) : Fin 3 := if c = 'x' then 0 else if c = 'y' then 1 else 2

/-- What a sequence of axes stands for: after `s` the axes are fixed, so that the later turn is the left factor; after `r`
they turn with the body. -/
noncomputable def spelled (name : String) (a b c : ℝ) : Mat 3 :=
  match name.toList with
  | [f, x, y, z] =>
    if f = 's' then turn (axisOf z) c * turn (axisOf y) b * turn (axisOf x) a
    else turn (axisOf x) a * turn (axisOf y) b * turn (axisOf z) c
  | _ => 0

/-- The axes of the turns of a sequence, from the right factor to the left one. -/
def sequence (name : String) : Fin 3 × Fin 3 × Fin 3 :=
  match name.toList with
  | [f, x, y, z] => if f = 's' then (axisOf x, axisOf y, axisOf z) else (axisOf z, axisOf y, axisOf x)
  | _ => (0, 0, 0)

/-- The entry of a rotation that depends on the middle angle alone; it is 1 or -1 exactly in gimbal lock, where the outer
turns are about the same line. -/
def lockEntry (name : String) (M : Mat 3) : ℝ := M (sequence name).2.2 (sequence name).1

end Verif.Angles
