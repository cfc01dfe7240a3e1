import Verif.Base.Group
import Verif.Base.PyText

/-!
# Model of rig assignments

`opensfm/rig.py` and the rig files of `opensfm/dataset.py` 536-579.

Simplifications: `re.sub(pattern, "", image)` is an arbitrary function `sub`; the `groups_per_camera`
bookkeeping of `create_instances_with_patterns` only chooses warnings and is left out; the nearest
neighbour graph, the random generator and the reconstruction of a subset are parameters.
-/
namespace Verif.Rig

/-- `TRigInstance`: images with their rig cameras. -/
abbrev Instance := List (String × String)

/-- rig.py:27 -/
def incompleteGroup : String := "INCOMPLETE_INSTANCE_GROUP"
/-- rig.py:28 -/
def incompleteId : String := "INCOMPLETE_INSTANCE_ID"

/-- `find_image_rig` (rig.py:55-67): the rig camera and the instance. -/
def findImageRig (sub : String → String → String) (image : String) :
    Dict String String → Option (String × String)
  | [] => none
  | (camera, pattern) :: rest =>
    if sub pattern image = "" then findImageRig sub image rest
    else if sub pattern image ≠ image then some (camera, sub pattern image)
    else findImageRig sub image rest

/-- The instance and rig camera that an image is listed under (rig.py:82-84). -/
def label (sub : String → String → String) (patterns : Dict String String) (image : String) :
    String × String :=
  match findImageRig sub image patterns with
  | none => (incompleteGroup, incompleteId)
  | some (c, m) => if c = "" ∨ m = "" then (incompleteGroup, incompleteId) else (m, c)

/-- The first loop (rig.py:80-88). -/
def perInstance (sub : String → String → String) (patterns : Dict String String) (images : List String) :
    Dict String Instance :=
  images.foldl (fun m im => Dict.push m (label sub patterns im).1 (im, (label sub patterns im).2)) []

/-- One round of the second loop (rig.py:94-113). -/
def collect (r : Dict String Instance × List String) (q : String × Instance) :
    Dict String Instance × List String :=
  if q.1 = incompleteGroup then (r.1, r.2 ++ q.2.map Prod.fst) else (r.1.set q.1 q.2, r.2)

/-- `create_instances_with_patterns` (rig.py:70-115). -/
def createInstances (sub : String → String → String) (images : List String)
    (patterns : Dict String String) : Dict String Instance × List String :=
  (perInstance sub patterns images).foldl collect ([], [])

/-- The entry of an image in `rig_assignments_per_image`. -/
abbrev Entry := String × String × List String

/-- One instance of `rig_assignments_per_image` (rig.py:44-51). -/
def addInstance (m : Dict String Entry) (q : String × Instance) : Dict String Entry :=
  q.2.foldl (fun m p => Dict.set m p.1 (q.1, p.2, q.2.map Prod.fst)) m

/-- `rig_assignments_per_image` (rig.py:39-52). -/
def perImage (assignments : Dict String Instance) : Dict String Entry :=
  assignments.foldl addInstance []

/-- The content of `rig_assignments.json`. -/
inductive AssignFile
  | dict (d : Dict String Instance)
  | list (l : List Instance)

/-- `str(i)`. -/
def pyStr (i : Nat) : String := String.ofList (Text.fmtNat i)

/-- `load_rig_assignments` (dataset.py:560-572). -/
def loadAssignments : Option AssignFile → Dict String Instance
  | none => []
  | some (.dict d) => d
  | some (.list l) => l.zipIdx.foldl (fun m q => Dict.set m (pyStr q.2) q.1) []

/-- `load_rig_cameras` (dataset.py:540-549) with `default_rig_cameras` (rig.py:31-36): `dflt k` is the
identity rig camera named `k`. -/
def loadRigCameras {R : Type} (dflt : String → R) (cameras : List String) (file : Option (Dict String R)) :
    Dict String R :=
  let all := cameras.foldl (fun m k => Dict.set m k (dflt k)) []
  match file with
  | none => all
  | some f => f.foldl (fun m q => Dict.set m q.1 q.2) all

/-- The window of instances that a round of calibration uses (rig.py:194-200): `r` is the random index and
`size` is `rig_calibration_subset_size`. -/
def window {α : Type} (sorted : List α) (r size : Nat) : List α :=
  let lo := r - size / 2
  let hi := min (r + size / 2) (sorted.length - 1)
  (sorted.take hi).drop lo

/-- The first loop of `count_reconstructed_instances` (rig.py:393-398). -/
def countInit (instances : List Instance) : Dict String Nat × Dict Nat Int :=
  instances.zipIdx.foldl (fun r q =>
    (q.1.foldl (fun m p => Dict.set m p.1 q.2) r.1, r.2.set q.2 (q.1.length : Int))) ([], [])

/-- The second loop (rig.py:399-400); `none` is `KeyError`. -/
def countDown (map : Dict String Nat) : Dict Nat Int → List String → Option (Dict Nat Int)
  | c, [] => some c
  | c, s :: l =>
    match map.get? s with
    | none => none
    | some i =>
      match c.get? i with
      | none => none
      | some v => countDown map (c.set i (v - 1)) l

/-- `count_reconstructed_instances` (rig.py:390-401). -/
def countReconstructed (instances : List Instance) (shots : List String) : Option Int :=
  let r := countInit instances
  (countDown r.1 r.2 shots).map (fun c =>
    (instances.length : Int) - ((c.vals.filter (fun v => v > 0)).length : Int))

/-- The computation of rig cameras from groups of instances (rig.py:264-295): `groups` is sorted by
decreasing size, `rel` is `compute_relative_pose` on the fully reconstructed instances of a group. -/
def rigCamerasFrom {R : Type} (rel : List Instance → Dict String R) (inRec : String → Bool)
    (groups : List (List Instance)) : Dict String R :=
  groups.foldl (fun m g =>
    (rel (g.filter (fun i => i.all (fun p => inRec p.1)))).foldl
      (fun m q => Dict.insertNew m q.1 q.2) m) []

end Verif.Rig
