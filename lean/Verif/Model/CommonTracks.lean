import Verif.Model.Superimpose
import Verif.Model.TracksManager

/-!
Model of finding the tracks two reconstructions have in common and of what is computed from them: `corresponding_tracks`,
`compute_common_tracks`, `resect_reconstruction` (/repo/opensfm/reconstruction.py:765-829), `align_two_reconstruction`,
`merge_two_reconstructions`, `merge_reconstructions` (reconstruction.py:1305-1395) and `add_point_constraints`
(/repo/opensfm/large/tools.py:217-262).

Simplifications: exact reals; a reconstruction is the list of its shot ids and its points; sets are lists without
repetition, `order` is the order in which Python lists them; the random permutations of the sampling are inputs.
-/
set_option linter.unusedSectionVars false
namespace Verif.CommonTracks
open Matrix Verif.Superimpose
variable {S T F O : Type} [DecidableEq S] [DecidableEq T] [DecidableEq F]

/-- What is read of a reconstruction. -/
structure Rec (S T : Type) where
  shots : List S
  points : Dict T (Vec 3)

/-- One entry of the dict comprehension (reconstruction.py:768). -/
def addFeature (fid : O → F) (d : Dict F T) (e : T × O) : Dict F T := d.set (fid e.2) e.1

/-- `features1` (reconstruction.py:768). -/
def features (fid : O → F) (tracks1 : Dict T O) : Dict F T := tracks1.foldl (addFeature fid) []

/-- `corresponding_tracks` (reconstruction.py:765-774). -/
def corresponding (fid : O → F) (tracks1 tracks2 : Dict T O) : List (T × T) :=
  tracks2.filterMap (fun e => ((features fid tracks1).get? (fid e.2)).map (fun t1 => (t1, e.1)))

/-- The common tracks in one image (reconstruction.py:790-798). -/
def inImage (fid : O → F) (r1 r2 : Rec S T) (m1 m2 : TM S T O) (image : S) : List (T × T) :=
  match m1.perShot.get? image, m2.perShot.get? image with
  | some d1, some d2 => (corresponding fid d1 d2).filter (fun p => r1.points.has p.1 && r2.points.has p.2)
  | _, _ => []

/-- `compute_common_tracks` (reconstruction.py:777-798). -/
def commonTracks (fid : O → F) (r1 r2 : Rec S T) (m1 m2 : TM S T O) : List (T × T) :=
  ((r1.shots.filter (fun s => decide (s ∈ r2.shots))).flatMap (inImage fid r1 r2 m1 m2)).dedup

/-- `p1`, `p2` (reconstruction.py:1316-1317); `none`: `KeyError`. -/
def pointPairs (r1 r2 : Rec S T) (common : List (T × T)) : Option (List (Vec 3 × Vec 3)) :=
  common.mapM (fun t => match r1.points.get? t.1, r2.points.get? t.2 with
    | some x, some y => some (x, y)
    | _, _ => none)

/-- `align_two_reconstruction` (reconstruction.py:1305-1328); the outer `none` is an exception. -/
noncomputable def alignTwo (svd : Mat 3 → Svd 3) (r1 r2 : Rec S T) (common : List (T × T)) (perms : List (List ℕ))
    (threshold : ℝ) : Option (Bool × Option (Sim 3) × List ℕ) :=
  if common.length > 6 then
    match pointPairs r1 r2 common with
    | none => none
    | some pairs =>
      match fitSimilarity svd pairs perms threshold with
      | none => none
      | some (t, inl) => if inl.length > 0 then some (true, t, inl) else some (false, none, [])
  else some (false, none, [])

/-- `resect_reconstruction` (reconstruction.py:801-829). -/
noncomputable def resect (svd : Mat 3 → Svd 3) (fid : O → F) (order : List (T × T) → List (T × T)) (r1 r2 : Rec S T)
    (m1 m2 : TM S T O) (perms : List (List ℕ)) (threshold : ℝ) (_minInliers : ℕ) :
    Option (Bool × Option (Sim 3) × List (T × T)) :=
  let common := order (commonTracks fid r1 r2 m1 m2)
  match alignTwo svd r1 r2 common perms threshold with
  | none => none
  | some (worked, t, inl) =>
    if worked = false ∨ t = none then some (false, none, [])
    else some (true, t, inl.filterMap (fun i => common[i]?))

open Classical in
/-- One connection in `add_point_constraints` (tools.py:224-262): the pairs of points that are constrained to be the same. -/
noncomputable def pointConstraints (svd : Mat 3 → Svd 3) (fid : O → F) (order : List (T × T) → List (T × T)) (r1 r2 : Rec S T)
    (m1 m2 : TM S T O) (perms : List (List ℕ)) : Option (List (Vec 3 × Vec 3)) :=
  match resect svd fid order r1 r2 m1 m2 perms (3 / 10) 20 with
  | none => none
  | some (status, t, inl) =>
    match status, t with
    | true, some T =>
      let s := (decompose T).1
      if s > 13 / 10 ∨ s < 1 / (13 / 10) ∨ inl.length < 20 then some []
      else pointPairs r1 r2 inl
    | _, _ => some []

/-! ### Merging -/

/-- How a call ends. -/
inductive Merged where
  | both | merged | raised
  deriving DecidableEq

/-- `bool(T)`: `None` is false, a 4x4 array raises `ValueError` (reconstruction.py:1343). -/
def truth : Option (Sim 3) → Option Bool
  | none => some false
  | some _ => none

/-- `t[0]`, `t[1]` of a track id, which is a string and not a pair; `none`: `IndexError`. -/
def chars (t : List Char) : Option (List Char × List Char) :=
  match t with
  | a :: b :: _ => some ([a], [b])
  | _ => none

/-- `merge_two_reconstructions` (reconstruction.py:1331-1355). -/
noncomputable def mergeTwo (svd : Mat 3 → Svd 3) (r1 r2 : Rec S (List Char)) (perms : List (List ℕ)) (threshold : ℝ) : Merged :=
  let common := r1.points.keys.filter (fun t => r2.points.has t)
  let res := if common.length > 6 then
      match common.mapM chars with
      | none => none
      | some l => alignTwo svd r1 r2 l perms threshold
    else some (false, none, [])
  match res with
  | none => .raised
  | some (worked, t, inl) =>
    match truth t with
    | none => .raised
    | some b => if b ∧ worked ∧ inl.length ≥ 10 then .merged else .both

end Verif.CommonTracks
