import Verif.Base.Dict
import Verif.Base.Text
import Verif.Base.PyText

/-!
# Model of the image and mask lists of a dataset folder

`opensfm/dataset.py` 70-87, 120-143, 212-250 and `subset` 658-708.

Simplifications: `str.splitlines` is applied before the model starts; names are lists of characters; a link is
its target path; of the other files only whether they are linked is kept; the folder itself is not a link;
`none` stands for an exception.
-/
namespace Verif.DatasetFiles
open Verif.PyText

abbrev Name := List Char

/-- A dataset folder. `images` and `masks` are the listings of the folders, `none` if there is no folder. -/
structure Folder where
  imageList : Option (List (List Char))
  images : Option (Dict Name Name)
  maskList : Option (List (List Char))
  masks : Option (Dict Name Name)
  segmentations : Option (Dict Name Name)
  others : Dict Name Name

/-- What a `DataSet` object knows about its files. -/
structure Data where
  images : List Name
  imageFiles : Dict Name Name
  maskFiles : Dict Name Name

/-- `os.path.join(a, b)` on POSIX, for a non-empty `a`. -/
def join (a b : Name) : Name :=
  if b.head? = some '/' then b
  else if a.getLast? = some '/' then a ++ b
  else a ++ '/' :: b

/-- `os.path.basename`. -/
def basename (p : Name) : Name := (Text.splitAll '/' p).getLastD []

/-- The extensions of `_is_image_file` (dataset.py:213). -/
def extensions : List Name :=
  [['j','p','g'], ['j','p','e','g'], ['p','n','g'], ['t','i','f'], ['t','i','f','f'], ['p','g','m'],
    ['p','n','m'], ['g','i','f']]

/-- `_is_image_file` (dataset.py:212-214). -/
def isImageFile (name : Name) : Bool :=
  decide (((Text.splitAll '.' name).getLastD []).map Char.toLower ∈ extensions)

/-- One line of `_set_image_list` (dataset.py:229-233). -/
def addLine (dataPath : Name) (r : List Name × Dict Name Name) (line : Name) : List Name × Dict Name Name :=
  (r.1 ++ [basename (join dataPath line)], r.2.set (basename (join dataPath line)) (join dataPath line))

/-- `_set_image_list` (dataset.py:226-233). -/
def setImageList (dataPath : Name) (lines : List Name) : List Name × Dict Name Name :=
  lines.foldl (addLine dataPath) ([], [])

/-- One file of `_set_image_path` (dataset.py:222-224). -/
def addFile (path : Name) (r : List Name × Dict Name Name) (name : Name) : List Name × Dict Name Name :=
  if isImageFile name then (r.1 ++ [name], r.2.set name (join path name)) else r

/-- `_set_image_path` (dataset.py:216-224). -/
def setImagePath (path : Name) (listing : Option (List Name)) : List Name × Dict Name Name :=
  match listing with
  | none => ([], [])
  | some names => names.foldl (addFile path) ([], [])

/-- `load_image_list` (dataset.py:70-83). -/
def loadImageList (dataPath : Name) (f : Folder) : Option (List Name × Dict Name Name) :=
  let r := match f.imageList with
    | some lines => setImageList dataPath lines
    | none => setImagePath (join dataPath "images".toList) (f.images.map Dict.keys)
  if dataPath ≠ [] ∧ r.1 = [] then none else some r

/-- `line.split(None, 1)`: the first word and the rest without leading white space. -/
def splitOnce (line : List Char) : List (List Char) :=
  let l := lstrip line
  if l = [] then []
  else
    let w := l.takeWhile (fun c => !pySpace c)
    let rest := lstrip (l.dropWhile (fun c => !pySpace c))
    if rest = [] then [w] else [w, rest]

/-- One line of `_set_mask_list` (dataset.py:248-250). -/
def addMaskLine (dataPath : Name) (m : Dict Name Name) (line : List Char) : Option (Dict Name Name) :=
  match splitOnce line with
  | [image, rel] => some (m.set (strip image) (join dataPath (strip rel)))
  | _ => none

/-- `_set_mask_list` (dataset.py:245-250). -/
def setMaskList (dataPath : Name) (lines : List (List Char)) : Option (Dict Name Name) :=
  lines.foldlM (addMaskLine dataPath) []

/-- One image of `_set_mask_path` (dataset.py:240-243). -/
def addMask (path : Name) (files : List Name) (m : Dict Name Name) (image : Name) : Dict Name Name :=
  if image ++ ".png".toList ∈ files then m.set image (join path (image ++ ".png".toList)) else m

/-- `_set_mask_path` (dataset.py:235-243). -/
def setMaskPath (path : Name) (images : List Name) (listing : Option (List Name)) : Dict Name Name :=
  match listing with
  | none => []
  | some files => images.foldl (addMask path files) []

/-- `load_mask_list` (dataset.py:120-128). -/
def loadMaskList (dataPath : Name) (images : List Name) (f : Folder) : Option (Dict Name Name) :=
  match f.maskList with
  | some lines => setMaskList dataPath lines
  | none => some (setMaskPath (join dataPath "masks".toList) images (f.masks.map Dict.keys))

/-- `DataSet.__init__` (dataset.py:47-54), except for the configuration. -/
def openDataset (dataPath : Name) (f : Folder) : Option Data :=
  (loadImageList dataPath f).bind (fun r =>
    (loadMaskList dataPath r.1 f).map (fun m => ⟨r.1, r.2, m⟩))

/-- The path of the mask `load_mask` reads (dataset.py:130-143); `none`: no mask. -/
def maskOf (d : Data) (image : Name) : Option Name := d.maskFiles.get? image

/-- `mkdir_p` of the three folders (dataset.py:661-665). -/
def mkdirs (f : Folder) : Folder :=
  { f with images := some (f.images.getD []), masks := some (f.masks.getD []),
           segmentations := some (f.segmentations.getD []) }

/-- Replace a link (dataset.py:702-706), if the source exists. -/
def relink (ex : Name → Bool) (l : Option (Dict Name Name)) (dst src : Name) : Option (Dict Name Name) :=
  if ex src then some ((l.getD []).set dst src) else l

/-- The links of one image (dataset.py:681-700): image, segmentation and mask. -/
def linkImage (ex : Name → Bool) (d : Data) (segFile : Name → Name) (f : Folder) (image : Name) :
    Option Folder :=
  (d.imageFiles.get? image).map (fun src =>
    let f1 := { f with images := relink ex f.images image src }
    let f2 := { f1 with segmentations := relink ex f1.segmentations (image ++ ".png".toList) (segFile image) }
    match d.maskFiles.get? image with
    | none => f2
    | some m => { f2 with masks := relink ex f2.masks (image ++ ".png".toList) m })

/-- `subset` (dataset.py:658-708) with `sub` the folder before the call. The data set object of the
subset is built once before the links, to get at its file names. -/
def subset (ex : Name → Bool) (d : Data) (segFile : Name → Name) (subPath : Name) (sub : Folder)
    (others : Dict Name Name) (images : List Name) : Option (Folder × Data) :=
  let f := mkdirs sub
  (openDataset subPath f).bind (fun _ =>
    (images.foldlM (linkImage ex d segFile) { f with others := others.filterKV (fun _ s => ex s) }).bind
      (fun f' => (openDataset subPath f').map (fun r => (f', r))))

/-- A folder that does not exist or is empty. -/
def emptyFolder : Folder := ⟨none, none, none, none, none, []⟩

/-- A round of rig calibration removes the folder of the subset and makes it again (rig.py:206-207). -/
def calibrationRound (ex : Name → Bool) (d : Data) (segFile : Name → Name) (subPath : Name)
    (others : Dict Name Name) (images : List Name) : Option (Folder × Data) :=
  subset ex d segFile subPath emptyFolder others images

end Verif.DatasetFiles
