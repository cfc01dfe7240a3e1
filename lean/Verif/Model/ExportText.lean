import Verif.Model.TracksManager
import Mathlib.Data.Real.Basic
import Mathlib.Algebra.Order.Floor.Ring
import Mathlib.Data.Matrix.Mul
import Mathlib.Algebra.Order.Archimedean.Real.Basic

/-!
# Bundler and NVM files

`/repo/opensfm/actions/export_bundler.py`, `/repo/opensfm/actions/export_visualsfm.py`. A file is a list of lines, a line is a list of words; how a number is
written is left out. An exception is `none`.
-/
namespace Verif.ExportText

/-- A word of a line. -/
inductive Tok (Id : Type) where
  | int (n : ℤ)
  | num (x : ℝ)
  | name (i : Id)
  | text (s : String)

/-- A line. -/
abbrev Line (Id : Type) := List (Tok Id)

/-- What the exporters read of a shot and of its camera: a parameter that the camera does not have raises (camera.cc:200-208). -/
structure Shot where
  brown : Bool
  focal : Option ℝ
  k1 : Option ℝ
  k2 : Option ℝ
  width : ℕ
  height : ℕ
  R : Fin 3 → Fin 3 → ℝ
  t : Fin 3 → ℝ

/-- What the exporters read of a point. -/
structure Point where
  coords : Fin 3 → ℝ
  color : Fin 3 → ℝ

/-- What the exporters read of an observation. -/
structure Obs where
  x : ℝ
  y : ℝ
  id : ℤ

variable {Id : Type} [DecidableEq Id]

/-- A reconstruction. -/
structure Rec (Id : Type) where
  shots : Dict Id Shot
  points : Dict Id Point

/-- `int(x)`: towards zero. -/
noncomputable def pyInt (x : ℝ) : ℤ := if 0 ≤ x then ⌊x⌋ else ⌈x⌉

/-- Three numbers. -/
def triple (v : Fin 3 → ℝ) : Line Id := [.num (v 0), .num (v 1), .num (v 2)]

/-- `list(map(int, point.color))` (export_bundler.py:102, export_visualsfm.py:93). -/
noncomputable def colorLine (c : Fin 3 → ℝ) : Line Id := [.int (pyInt (c 0)), .int (pyInt (c 1)), .int (pyInt (c 2))]

/-! ### Bundler -/

/-- `R[1], R[2] = -R[1], -R[2]` and the same for `t` (export_bundler.py:88-89). -/
def flip {α : Type} [Neg α] (v : Fin 3 → α) : Fin 3 → α := fun i => if i = 0 then v i else -v i

/-- The five lines of a shot (export_bundler.py:74-94); `camera.focal_x` of a brown camera does not exist. -/
noncomputable def bundlerCamera (s : Shot) : Option (List (Line Id)) :=
  if s.brown then none
  else
    match s.focal, s.k1, s.k2 with
    | some f, some k1, some k2 =>
      some [[.num (f * (max s.width s.height : ℕ)), .num k1, .num k2], triple (flip s.R 0), triple (flip s.R 1), triple (flip s.R 2), triple (flip s.t)]
    | _, _, _ => none

/-- `"0 0 0"` five times (export_bundler.py:95-97). -/
def noCamera : List (Line Id) := List.replicate 5 [.int 0, .int 0, .int 0]

/-- The lines of an image of the list (export_bundler.py:72-97). -/
noncomputable def bundlerImage (r : Rec Id) (i : Id) : Option (List (Line Id)) :=
  match r.shots.get? i with
  | none => some noCamera
  | some s => bundlerCamera s

/-- One turn of a loop that appends lines (export_bundler.py:72-97, 100-118). -/
def append {α β : Type} (f : α → Option (List β)) (acc : List β) (x : α) : Option (List β) :=
  (f x).map fun l => acc ++ l

/-- `shots_order` (export_bundler.py:69). -/
def shotsOrder (images : List Id) : Dict Id ℕ := images.zipIdx.foldl (fun a e => a.set e.1 e.2) []

/-- One observation of a point (export_bundler.py:107-115): a shot that is not in the list of images raises. -/
noncomputable def bundlerView (r : Rec Id) (order : Dict Id ℕ) (acc : List (Line Id)) (e : Id × Obs) : Option (List (Line Id)) :=
  match r.shots.get? e.1 with
  | none => some acc
  | some s =>
    match order.get? e.1 with
    | none => none
    | some i => some (acc ++ [[.int i, .int e.2.id, .num (e.2.x * (max s.width s.height : ℕ)), .num (-e.2.y * (max s.width s.height : ℕ))]])

/-- The three lines of a point (export_bundler.py:100-117). -/
noncomputable def bundlerPoint (r : Rec Id) (tm : TM Id Id Obs) (order : Dict Id ℕ) (p : Id × Point) : Option (List (Line Id)) :=
  match tm.getTrackObservations p.1 with
  | .error _ => none
  | .ok d =>
    match d.foldlM (bundlerView r order) [] with
    | none => none
    | some vs => some [triple p.2.coords, colorLine p.2.color, .int vs.length :: vs.flatten]

/-- The lines of `bundle_rXXX.out` (export_bundler.py:60-123). -/
noncomputable def bundler (images : List Id) (tm : TM Id Id Obs) (r : Rec Id) : Option (List (Line Id)) :=
  match images.foldlM (append (bundlerImage r)) [[.text "# Bundle file v0.3"], [.int images.length, .int r.points.length]] with
  | none => none
  | some ls => r.points.foldlM (append (bundlerPoint r tm (shotsOrder images))) ls

/-- The list of images of `run_dataset` (export_bundler.py:28-35): undistorted, those of the first reconstruction; no reconstruction raises. -/
def bundlerImages (undistorted : Bool) (images : List Id) (recs : List (Rec Id)) : Option (List Id) :=
  if undistorted then
    match recs with
    | [] => none
    | r :: _ => some r.shots.keys
  else some images

/-- The files of `run_dataset` (export_bundler.py:28-45, 60-127): one for every reconstruction, up to the first that raises. -/
noncomputable def bundlerFiles (undistorted : Bool) (images : List Id) (tm : TM Id Id Obs) (recs : List (Rec Id)) : Option (List (List (Line Id))) :=
  match bundlerImages undistorted images recs with
  | none => none
  | some l => recs.mapM (bundler l tm)

/-! ### NVM -/

/-- `export_only is not None and shot.id not in export_only` is false (export_visualsfm.py:44, 100). -/
def exported (only : Option (List Id)) (i : Id) : Bool :=
  match only with
  | none => true
  | some l => decide (i ∈ l)

/-- What the loop over the shots keeps: the lines, the sizes (height, width), the indices, the next index and how many shots are skipped
(export_visualsfm.py:37-41). -/
structure NvmAcc (Id : Type) where
  lines : List (Line Id)
  sizes : Dict Id (ℕ × ℕ)
  index : Dict Id ℕ
  next : ℕ
  skipped : ℕ

/-- One shot (export_visualsfm.py:43-76). `quat` is the quaternion of a rotation matrix, `origin` the centre of the camera, `size` the size (height, width) of the
undistorted image; `camera.focal_x` of a brown camera does not exist. -/
noncomputable def nvmShot (quat : (Fin 3 → Fin 3 → ℝ) → Fin 4 → ℝ) (origin : Shot → Fin 3 → ℝ) (size : Id → ℕ × ℕ) (only : Option (List Id))
    (acc : NvmAcc Id) (e : Id × Shot) : Option (NvmAcc Id) :=
  if exported only e.1 then
    if e.2.brown then none
    else
      match e.2.focal with
      | none => none
      | some f =>
        some
          { lines := acc.lines ++ [[.name e.1, .num (f * (max (size e.1).1 (size e.1).2 : ℕ)), .num (quat e.2.R 0), .num (quat e.2.R 1), .num (quat e.2.R 2),
              .num (quat e.2.R 3), .num (origin e.2 0), .num (origin e.2 1), .num (origin e.2 2), .int 0, .int 0]]
            sizes := acc.sizes.set e.1 (size e.1)
            index := acc.index.set e.1 acc.next
            next := acc.next + 1
            skipped := acc.skipped }
  else some { acc with skipped := acc.skipped + 1 }

/-- One observation of a point (export_visualsfm.py:96-109): a shot without size or index raises. -/
noncomputable def nvmView (r : Rec Id) (only : Option (List Id)) (a : NvmAcc Id) (acc : List (Line Id)) (e : Id × Obs) : Option (List (Line Id)) :=
  if exported only e.1 then
    if r.shots.has e.1 then
      match a.sizes.get? e.1, a.index.get? e.1 with
      | some s, some i => some (acc ++ [[.int i, .int e.2.id, .num ((1 / 2 + e.2.x) * s.2), .num ((1 / 2 + e.2.y) * s.1)]])
      | _, _ => none
    else some acc
  else some acc

/-- One point (export_visualsfm.py:90-123): a point with less than two views is skipped. -/
noncomputable def nvmPoint (r : Rec Id) (tm : TM Id Id Obs) (only : Option (List Id)) (a : NvmAcc Id) (acc : List (Line Id) × ℕ) (p : Id × Point) :
    Option (List (Line Id) × ℕ) :=
  match tm.getTrackObservations p.1 with
  | .error _ => none
  | .ok d =>
    match d.foldlM (nvmView r only a) [] with
    | none => none
    | some vs =>
      if 1 < vs.length then some (acc.1 ++ [triple p.2.coords ++ (colorLine p.2.color ++ (.int vs.length :: vs.flatten))], acc.2)
      else some (acc.1, acc.2 + 1)

/-- The end of the file (export_visualsfm.py:84-131), after the lines of the shots. -/
noncomputable def nvmPoints (r : Rec Id) (tm : TM Id Id Obs) (withPoints : Bool) (only : Option (List Id)) (a : NvmAcc Id) : Option (List (Line Id)) :=
  if withPoints then
    (r.points.foldlM (nvmPoint r tm only a) ([], 0)).map fun x => [[], [.int ((r.points.length : ℤ) - x.2)]] ++ x.1
  else some [[.int 0], []]

/-- The lines of `reconstruction.nvm` (export_visualsfm.py:30-134). -/
noncomputable def nvm (quat : (Fin 3 → Fin 3 → ℝ) → Fin 4 → ℝ) (origin : Shot → Fin 3 → ℝ) (size : Id → ℕ × ℕ) (tm : TM Id Id Obs) (withPoints : Bool)
    (only : Option (List Id)) (r : Rec Id) : Option (List (Line Id)) :=
  match r.shots.foldlM (nvmShot quat origin size only) ⟨[], [], [], 0, 0⟩ with
  | none => none
  | some a =>
    (nvmPoints r tm withPoints only a).map fun ps =>
      [[.text "NVM_V3"], [], [.int ((r.shots.length : ℤ) - a.skipped)]] ++ a.lines ++ ps ++ [[.int 0], [], [.int 0]]

end Verif.ExportText
