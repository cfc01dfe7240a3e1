import Verif.Model.ExportText
import Mathlib.Data.Fin.VecNotation

/-!
# What the formats of Bundler and NVM say

Readers written from the descriptions of the formats, and the projection of Bundler. They share only the words of the lines with the model.
-/
namespace Verif.ExportText.Spec

variable {Id : Type}

/-- The value of a word that is a number. -/
noncomputable def real : Tok Id → Option ℝ
  | .int n => some n
  | .num x => some x
  | _ => none

/-- A line of three numbers. -/
noncomputable def triple : Line Id → Option (Fin 3 → ℝ)
  | [a, b, c] =>
    match real a, real b, real c with
    | some x, some y, some z => some ![x, y, z]
    | _, _, _ => none
  | _ => none

/-- A camera of Bundler: focal length in pixels, two radial distortions, rotation, translation. -/
structure Camera where
  f : ℝ
  k1 : ℝ
  k2 : ℝ
  R : Fin 3 → Fin 3 → ℝ
  t : Fin 3 → ℝ

/-- A view of a point: index of the image, of the feature, position. -/
structure View where
  image : ℤ
  feature : ℤ
  x : ℝ
  y : ℝ

/-- A point: position, colour, views. -/
structure Pt where
  pos : Fin 3 → ℝ
  color : Fin 3 → ℤ
  views : List View

/-- Bundler: the point in the camera looks along the negative z axis, and y goes up. -/
noncomputable def Camera.project (c : Camera) (x : Fin 3 → ℝ) : ℝ × ℝ :=
  let P : Fin 3 → ℝ := fun i => c.R i 0 * x 0 + c.R i 1 * x 1 + c.R i 2 * x 2 + c.t i
  let p : ℝ × ℝ := (-P 0 / P 2, -P 1 / P 2)
  let n := p.1 ^ 2 + p.2 ^ 2
  let r := 1 + c.k1 * n + c.k2 * n ^ 2
  (c.f * r * p.1, c.f * r * p.2)

/-- `n` cameras of five lines, and the lines after them. -/
noncomputable def cameras : ℕ → List (Line Id) → Option (List Camera × List (Line Id))
  | 0, ls => some ([], ls)
  | n + 1, l0 :: l1 :: l2 :: l3 :: l4 :: ls =>
    match triple l0, triple l1, triple l2, triple l3, triple l4, cameras n ls with
    | some a, some r0, some r1, some r2, some t, some (cs, rest) => some (⟨a 0, a 1, a 2, ![r0, r1, r2], t⟩ :: cs, rest)
    | _, _, _, _, _, _ => none
  | _ + 1, _ => none

/-- Exactly `n` views of four words. -/
noncomputable def views : ℕ → Line Id → Option (List View)
  | 0, [] => some []
  | n + 1, .int i :: .int f :: a :: b :: ls =>
    match real a, real b, views n ls with
    | some x, some y, some vs => some (⟨i, f, x, y⟩ :: vs)
    | _, _, _ => none
  | _, _ => none

/-- A colour. -/
def color : Line Id → Option (Fin 3 → ℤ)
  | [.int r, .int g, .int b] => some ![r, g, b]
  | _ => none

/-- A number of views and the views. -/
noncomputable def viewLine : Line Id → Option (List View)
  | .int (.ofNat n) :: ls => views n ls
  | _ => none

/-- `n` points of three lines, and nothing after them. -/
noncomputable def points : ℕ → List (Line Id) → Option (List Pt)
  | 0, [] => some []
  | n + 1, l0 :: l1 :: l2 :: ls =>
    match triple l0, color l1, viewLine l2, points n ls with
    | some x, some c, some vs, some ps => some (⟨x, c, vs⟩ :: ps)
    | _, _, _, _ => none
  | _, _ => none

/-- A file of Bundler. -/
noncomputable def bundler : List (Line Id) → Option (List Camera × List Pt)
  | [.text s] :: [.int (.ofNat n), .int (.ofNat m)] :: ls =>
    if s = "# Bundle file v0.3" then
      match cameras n ls with
      | some (cs, rest) => (points m rest).map fun ps => (cs, ps)
      | none => none
    else none
  | _ => none

/-- A camera of an NVM file: image, focal length, quaternion, centre, radial distortion. -/
structure NvmCamera (Id : Type) where
  image : Id
  f : ℝ
  q : Fin 4 → ℝ
  c : Fin 3 → ℝ
  k : ℝ

/-- The line of a camera. -/
noncomputable def nvmCamera : Line Id → Option (NvmCamera Id)
  | [.name i, .num f, .num q0, .num q1, .num q2, .num q3, .num c0, .num c1, .num c2, k, .int 0] =>
    (real k).map fun k => ⟨i, f, ![q0, q1, q2, q3], ![c0, c1, c2], k⟩
  | _ => none

/-- The line of a point. -/
noncomputable def nvmPoint : Line Id → Option Pt
  | a :: b :: c :: d :: e :: f :: ls =>
    match triple [a, b, c], color [d, e, f], viewLine ls with
    | some x, some c, some vs => some ⟨x, c, vs⟩
    | _, _, _ => none
  | _ => none

/-- `n` lines read one by one, and the lines after them. -/
def many {α : Type} (read : Line Id → Option α) : ℕ → List (Line Id) → Option (List α × List (Line Id))
  | 0, ls => some ([], ls)
  | n + 1, l :: ls =>
    match read l, many read n ls with
    | some x, some (xs, rest) => some (x :: xs, rest)
    | _, _ => none
  | _ + 1, [] => none

/-- The lines of an NVM file that are not blank: one model, the end of the models, no PLY files. -/
noncomputable def nvmLines : List (Line Id) → Option (List (NvmCamera Id) × List Pt)
  | [.text s] :: [.int (.ofNat n)] :: ls =>
    if s = "NVM_V3" then
      match many nvmCamera n ls with
      | some (cs, [.int (.ofNat m)] :: rest) =>
        match many nvmPoint m rest with
        | some (ps, [[.int 0], [.int 0]]) => some (cs, ps)
        | _ => none
      | _ => none
    else none
  | _ => none

/-- An NVM file: blank lines do not count. -/
noncomputable def nvm (ls : List (Line Id)) : Option (List (NvmCamera Id) × List Pt) := nvmLines (ls.filter fun l => !l.isEmpty)

end Verif.ExportText.Spec
