import Mathlib.Analysis.SpecialFunctions.Trigonometric.Basic

/-!
# Specification: frames of images and means around a vertex of a triangulation
-/
namespace Verif.Mesh.Spec

/-- The pixel lies in the frame of a `width` by `height` image, in coordinates normalised by the larger side. -/
def InFrame (width height : ℕ) (pixel : Option (ℝ × ℝ)) : Prop :=
  ∃ u v : ℝ, pixel = some (u, v) ∧ |u| ≤ width / (2 * max width height) ∧ |v| ≤ height / (2 * max width height)

/-- `j` is a corner of the face. -/
def On (j : ℕ) (t : ℕ × ℕ × ℕ) : Prop := j = t.1 ∨ j = t.2.1 ∨ j = t.2.2

/-- `j` is a vertex which is not one of the four corners of the frame, in a face with `i`. -/
def Adjacent (faces : List (ℕ × ℕ × ℕ)) (i j : ℕ) : Prop :=
  4 ≤ j ∧ ∃ t ∈ faces, On i t ∧ On j t

open Classical in
/-- The sum of `f` over the vertices of the face from 4 on, when it contains `i`. -/
noncomputable def inFace (i : ℕ) (f : ℕ → ℝ) (t : ℕ × ℕ × ℕ) : ℝ :=
  if On i t then
    (if 4 ≤ t.1 then f t.1 else 0) + (if 4 ≤ t.2.1 then f t.2.1 else 0) + (if 4 ≤ t.2.2 then f t.2.2 else 0)
  else 0

/-- The sum of `f` around `i`: a vertex counts once for every face. -/
noncomputable def around (faces : List (ℕ × ℕ × ℕ)) (i : ℕ) (f : ℕ → ℝ) : ℝ := (faces.map (inFace i f)).sum

end Verif.Mesh.Spec
