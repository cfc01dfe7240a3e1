import Verif.Base.Group
import Verif.Base.Text
import Mathlib.Data.String.Basic
import Mathlib.Data.List.Dedup
import Mathlib.Algebra.Order.Floor.Defs
import Mathlib.Data.Rat.Floor
import Mathlib.Data.NNRat.Defs

/-!
# Model of the split of a dataset into submodels

`opensfm/actions/create_submodels.py`, `opensfm/large/metadataset.py` and `add_cluster_neighbors` of
`opensfm/large/tools.py`.

Simplifications: the ball query of the KD-tree is a function `query i` that lists indices in any order, the
k-means clustering is a list of labels; `none` stands for an exception. Images are identified by their
position in `image_list_with_gps.tsv` while clusters are built, as in the code. Of a submodel directory only
`image_list.txt` and the links in the images folder are kept.
-/
namespace Verif.Submodels

/-- The `gps` entry of the metadata of an image: latitude and longitude, each possibly missing. -/
abbrev Gps (F : Type) := Option (Option F × Option F)

/-- `_create_image_list` (create_submodels.py:37-53): the images with a position. -/
def imageList {F : Type} (images : List (String × Gps F)) : List (String × F × F) :=
  images.filterMap (fun q => match q.2 with
    | some (some lat, some lon) => some (q.1, lat, lon)
    | _ => none)

/-- `create_image_list` (metadataset.py:124-127): the file, for an arbitrary formatting of numbers. -/
def writeList {F : Type} (fmt : F → List Char) (l : List (List Char × F × F)) : List Char :=
  Text.unlines '\n' (l.map (fun q => Text.joinSep '\t' [q.1, fmt q.2.1, fmt q.2.2]))

/-- One line in `images_with_gps` (metadataset.py:131-133): exactly three fields, the last two numbers. -/
def readLine {F : Type} (parse : List Char → Option F) (line : List Char) : Option (List Char × F × F) :=
  match Text.splitAll '\t' line with
  | [im, a, b] => (parse a).bind (fun x => (parse b).map (fun y => (im, x, y)))
  | _ => none

/-- `images_with_gps` (metadataset.py:129-133); the final newline of a line is left out, `float` ignores it. -/
def readList {F : Type} (parse : List Char → Option F) (text : List Char) :
    Option (List (List Char × F × F)) :=
  (Text.segs '\n' text).mapM (readLine parse)

/-- `load_image_groups` and the unpacking in `_read_image_groups` (metadataset.py:116-119,
create_submodels.py:59): every line must have exactly two words. -/
def readGroupLine : List String → Option (String × String)
  | [image, group] => some (image, group)
  | _ => none

/-- `image_cluster` (create_submodels.py:60). -/
def imageCluster (l : List (String × String)) : Dict String String :=
  l.foldl (fun m q => m.set q.1 q.2) []

/-- `sorted(cluster_images.keys())` (create_submodels.py:61-63). -/
def groupNames (l : List (String × String)) : List String :=
  (Dict.groupBy Prod.snd l).keys.mergeSort (fun a b => decide (a ≤ b))

/-- The label of an image (create_submodels.py:73-75); `none` is `KeyError`. -/
def groupLabel (l : List (String × String)) (image : String) : Option Nat :=
  ((imageCluster l).get? image).map (fun g => (groupNames l).idxOf g)

/-- `_read_image_groups` (create_submodels.py:56-85): labels of the images and number of clusters. -/
def readGroups (lines : List (List String)) (images : List String) : Option (List Nat × Nat) :=
  (lines.mapM readGroupLine).bind (fun l =>
    (images.mapM (groupLabel l)).map (fun labels => (labels, (groupNames l).length)))

/-- The number of clusters asked of k-means (create_submodels.py:98-99): `ceil(n / cluster_size)`. -/
def clusterCount (n : Nat) (size : ℚ) : ℤ := ⌈(n : ℚ) / size⌉

/-- `np.where(labels == label)[0]` (tools.py:65). -/
def ownIndices (labels : List Nat) (label : Nat) : List Nat :=
  (List.range labels.length).filter (fun i => labels[i]? = some label)

/-- `np.union1d`: sorted, without duplicates. -/
def union1d (a b : List Nat) : List Nat := ((a ++ b).mergeSort (fun x y => decide (x ≤ y))).dedup

/-- One round of the loop of `add_cluster_neighbors` (tools.py:64-72). -/
def clusterWithNeighbors (query : Nat → List Nat) (labels : List Nat) (label : Nat) : List Nat :=
  union1d (ownIndices labels label) ((ownIndices labels label).flatMap query)

/-- `add_cluster_neighbors` (tools.py:49-74). -/
def addClusterNeighbors (query : Nat → List Nat) (labels : List Nat) (K : Nat) : List (List Nat) :=
  (List.range K).map (clusterWithNeighbors query labels)

/-- `np.take(images, np.array(cluster))` (create_submodels.py:117): an empty cluster is an array of floats,
which `take` refuses; an index out of range is an exception too. -/
def takeImages (images : List String) (cluster : List Nat) : Option (List String) :=
  if cluster = [] then none else cluster.mapM (fun i => images[i]?)

/-- `_add_cluster_neighbors` (create_submodels.py:111-119). -/
def imageClusters (query : Nat → List Nat) (images : List String) (labels : List Nat) (K : Nat) :
    Option (List (List String)) :=
  (addClusterNeighbors query labels K).mapM (takeImages images)

/-- What is kept of a submodel directory: the image list and the links in the images folder. -/
structure Submodel where
  imageList : List String
  links : List String
  deriving DecidableEq

/-- The directories that exist, by path. -/
abbrev Fs (P : Type) := Dict P Submodel

variable {P : Type} [DecidableEq P]

/-- `remove_submodels` (metadataset.py:167-175): every directory below the submodels folder. -/
def removeSubmodels (inside : P → Bool) (fs : Fs P) : Fs P := fs.filterKV (fun p _ => !inside p)

/-- One round of `create_submodels` (metadataset.py:179-199): the image list is written, links that exist
are kept. -/
def createOne (path : Nat → P) (fs : Fs P) (q : List String × Nat) : Fs P :=
  fs.set (path q.2) ⟨q.1, q.1.foldl (fun l im => if im ∈ l then l else l ++ [im])
    (((fs.get? (path q.2)).map Submodel.links).getD [])⟩

/-- `create_submodels` (metadataset.py:177-225). -/
def createSubmodels (path : Nat → P) (fs : Fs P) (clusters : List (List String)) : Fs P :=
  clusters.zipIdx.foldl (createOne path) fs

/-- A run of the command (create_submodels.py:16-33) that stops after creating `done` submodels, starting from any state:
`remove_submodels` comes first. A complete run has `done` at least the number of clusters. -/
def run (inside : P → Bool) (path : Nat → P) (fs : Fs P) (r : List (List String) × Nat) : Fs P :=
  createSubmodels path (removeSubmodels inside fs) (r.1.take r.2)

/-- `get_submodel_paths` (metadataset.py:227-235): the numbers of the submodels. -/
def submodelIndices (path : Nat → P) (fs : Fs P) : List Nat :=
  (List.range 999999).takeWhile (fun i => fs.has (path i))

/-- `"%04d" % i`. -/
def pad4 (i : Nat) : List Char := List.replicate (4 - (Text.fmtNat i).length) '0' ++ Text.fmtNat i

/-- The default `submodel_relpath_template` (config.py:390). -/
def defaultPath (i : Nat) : List Char := "submodels/submodel_".toList ++ pad4 i

/-- Is the path below the default `submodels_relpath` (config.py:388)? -/
def defaultInside (p : List Char) : Bool := "submodels/".toList.isPrefixOf p

end Verif.Submodels
