import Verif.Base.Dict
import Mathlib.Data.Rat.Defs

/-!
# Model of the configuration

`opensfm/config.py` and the accessors of `opensfm/dataset.py` that give defaults of their own. `yaml.safe_load`
is a parameter: the model starts from the value it returns. Numbers are rationals.
-/
namespace Verif.Config

/-- A YAML value. -/
inductive Val
  | null
  | bool (b : Bool)
  | num (q : ℚ)
  | str (s : String)
  | seq (l : List Val)
  | map (m : List (String × Val))

/-- Python truth of a loaded value (`if new_config`, config.py:407). -/
def truthy : Val → Bool
  | .null => false
  | .bool b => b
  | .num q => q ≠ 0
  | .str s => s ≠ ""
  | .seq l => l.length ≠ 0
  | .map m => m.length ≠ 0

/-- `load_config_from_fileobject` (config.py:400-411), on the value of `yaml.safe_load`; `none` is the
`AttributeError` for a document that is neither empty nor a mapping. -/
def loadConfig (dflt : Dict String Val) (doc : Val) : Option (Dict String Val) :=
  if truthy doc then
    match doc with
    | .map m => some (m.foldl (fun c q => Dict.set c q.1 q.2) dflt)
    | _ => none
  else some dflt

/-- `DataSet.load_config` (dataset.py:59-65): without a file the defaults are used. -/
def datasetConfig (dflt : Dict String Val) : Option Val → Option (Dict String Val)
  | none => some dflt
  | some doc => loadConfig dflt doc

/-- `segmentation_ignore_values` (dataset.py:193-199). -/
def segmentationIgnore (c : Dict String Val) : Val :=
  (c.get? "segmentation_ignore_values").getD (.seq [])

/-- `undistorted_segmentation_ignore_values` (dataset.py:201-210). -/
def undistortedIgnore (c : Dict String Val) : Val :=
  (c.get? "undistorted_segmentation_ignore_values").getD (segmentationIgnore c)

end Verif.Config
