import Verif.Model.AlignCost
import Verif.Model.SubmodelAlign
import Mathlib.Data.String.Basic

/-!
# Model of the problem set up to align submodels

`opensfm/large/tools.py` 120-205, 217-257, 278-307 and `ReconstructionAlignment` of
`opensfm/src/bundle/reconstruction_alignment.h`: which shots, reconstructions and constraints the problem of C133 is given.

Simplifications: the five lists of constraints are one list (the cost is a sum); loading the reconstructions, matching their
points (C91) and the similarity between them are parameters `resect` and `coord`; a reconstruction is added with its name
only, as it always starts at the identity and is never constant.
-/
namespace Verif.AlignSetup
open Matrix Verif.Superimpose Verif.GpsBias Verif.AlignCost Verif.SubmodelAlign

/-- Names of shots and reconstructions (reconstruction_alignment.h:31, 50). -/
abbrev Name := List Char

/-- A shot of a submodel: its pose, the position and accuracy of its metadata (tools.py:134-144). -/
structure ShotData where
  pose : Shot
  gps : Vec 3
  sd : ℝ

/-- The shots of the partial reconstructions (tools.py:279). -/
abbrev Subs := Dict (Key Name) (Dict Name ShotData)

/-- A constraint as it is stored: a position in a reconstruction and a common camera point to shots that are looked up when
the problem is run (reconstruction_alignment.h:110-138, 425-468). -/
inductive Item
  | plain (c : Constraint Name Name)
  | relAbs (rec shot : Name) (c : Vec 3) (sd : ℝ)
  | camera (recA shotA recB shotB : Name) (sdCenter sdRotation : ℝ)

/-- The state of `ReconstructionAlignment` (reconstruction_alignment.h:570-577). -/
structure Ra where
  recs : List Name
  shots : Dict Name (Shot × Bool)
  items : List Item

/-- A problem with nothing in it (reconstruction_alignment.h:371, tools.py:284). -/
def empty : Ra := ⟨[], [], []⟩

/-- `AddReconstruction` (reconstruction_alignment.h:394-409). -/
def addReconstruction (n : Name) (ra : Ra) : Ra := if n ∈ ra.recs then ra else { ra with recs := ra.recs ++ [n] }

/-- `AddShot` (reconstruction_alignment.h:380-392): a shot of the same name is replaced. -/
def addShot (n : Name) (p : Shot) (constant : Bool) (ra : Ra) : Ra := { ra with shots := ra.shots.set n (p, constant) }

/-- Add constraints at the end (reconstruction_alignment.h:411-468). -/
def addItems (l : List Item) (ra : Ra) : Ra := { ra with items := ra.items ++ l }

/-- One shot of `add_camera_constraints_soft` (tools.py:130-159). -/
noncomputable def addSoftShot (k : Key Name) (st : List Name × Ra) (q : Name × ShotData) : List Name × Ra :=
  if q.1 ∈ st.1 then
    (st.1, addItems ((softConstraints q.2.pose q.2.gps q.2.sd (recName k) q.1 false).map .plain) st.2)
  else
    (st.1 ++ [q.1], addItems ((softConstraints q.2.pose q.2.gps q.2.sd (recName k) q.1 true).map .plain)
      (addShot q.1 q.2.pose false st.2))

/-- One reconstruction of `add_camera_constraints_soft` (tools.py:126-159). -/
noncomputable def addSoftRec (st : List Name × Ra) (e : Key Name × Dict Name ShotData) : List Name × Ra :=
  e.2.foldl (addSoftShot e.1) (st.1, addReconstruction (recName e.1) st.2)

/-- `add_camera_constraints_soft` (tools.py:120-159). -/
noncomputable def addSoft (subs : Subs) : Ra := (subs.foldl addSoftRec ([], empty)).2

/-- One shot of `add_camera_constraints_hard` (tools.py:172-183). -/
def addHardShot (k : Key Name) (ra : Ra) (q : Name × ShotData) : Ra :=
  addItems [.relAbs (recName k) (hardShotName k q.1) q.2.gps q.2.sd] (addShot (hardShotName k q.1) q.2.pose true ra)

/-- One reconstruction of `add_camera_constraints_hard` (tools.py:168-183). -/
def addHardRec (ra : Ra) (e : Key Name × Dict Name ShotData) : Ra :=
  e.2.foldl (addHardShot e.1) (addReconstruction (recName e.1) ra)

/-- The names of the shots of each reconstruction (tools.py:81-84). -/
def shotNames (subs : Subs) : Dict (Key Name) (List Name) := subs.map (fun e => (e.1, e.2.keys))

/-- The images of both reconstructions (tools.py:194). -/
def commonImages (subs : Subs) (a b : Key Name) : List Name :=
  ((subs.get? a).getD []).keys.filter (fun s => decide (s ∈ ((subs.get? b).getD []).keys))

/-- The common cameras of two reconstructions (tools.py:188-203). -/
noncomputable def pairCameras (subs : Subs) (c : Key Name × Key Name) : List Item :=
  (commonImages subs c.1 c.2).map (fun s =>
    .camera (recName c.1) (hardShotName c.1 s) (recName c.2) (hardShotName c.2 s) 1 (1 / 10))

/-- `add_camera_constraints_hard` with common cameras (tools.py:162-203). -/
noncomputable def addHard (subs : Subs) : Ra :=
  addItems ((connected (shotNames subs)).flatMap (pairCameras subs)) (subs.foldl addHardRec empty)

/-- The common points of two reconstructions (tools.py:230-257): `resect` gives whether a similarity was found, its scale
and the pairs of tracks that agree with it. -/
noncomputable def pairPoints {T : Type} (resect : Key Name → Key Name → Bool × ℝ × List (T × T))
    (coord : Key Name → T → Vec 3) (c : Key Name × Key Name) : List Item :=
  if (resect c.1 c.2).1 = false then []
  else if (resect c.1 c.2).2.1 > 13 / 10 ∨ (resect c.1 c.2).2.1 < 1 / (13 / 10) ∨ (resect c.1 c.2).2.2.length < 20 then []
  else (resect c.1 c.2).2.2.map (fun t =>
    .plain (.point (coord c.1 t.1) (coord c.2 t.2) (1 / 10) (recName c.1) (recName c.2)))

/-- `add_point_constraints` (tools.py:217-257). -/
noncomputable def addPoints {T : Type} (resect : Key Name → Key Name → Bool × ℝ × List (T × T))
    (coord : Key Name → T → Vec 3) (subs : Subs) (ra : Ra) : Ra :=
  addItems ((connected (shotNames subs)).flatMap (pairPoints resect coord)) ra

/-- The parameters of a shot when the problem is run (reconstruction_alignment.h:391, 429, 462-464): those it was added with
last. -/
def poseOf (shots : Dict Name (Shot × Bool)) (n : Name) : Shot := ((shots.get? n).map Prod.fst).getD ⟨0, 0⟩

/-- A constraint when the problem is run (reconstruction_alignment.h:521-543). -/
def resolve (shots : Dict Name (Shot × Bool)) : Item → Constraint Name Name
  | .plain c => c
  | .relAbs r s c sd => .relativeAbsolute c (poseOf shots s) sd r
  | .camera ra sa rb sb sc sr => .camera (poseOf shots sa) (poseOf shots sb) sc sr ra rb

/-- The constraints of the problem when it is run (reconstruction_alignment.h:497-554). -/
def constraints (ra : Ra) : List (Constraint Name Name) := ra.items.map (resolve ra.shots)

/-- The problem of `align_reconstructions` (tools.py:278-293): with soft or hard cameras, and with or without points. -/
noncomputable def problem {T : Type} (soft points : Bool) (resect : Key Name → Key Name → Bool × ℝ × List (T × T))
    (coord : Key Name → T → Vec 3) (subs : Subs) : Ra :=
  let ra := if soft then addSoft subs else addHard subs
  if points then addPoints resect coord subs ra else ra

end Verif.AlignSetup
