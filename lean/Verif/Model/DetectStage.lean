import Verif.Base.Dict

/-!
# Model of the files of the `detect_features` command

`opensfm/features_processing.py` 257-346 (`detect`), `opensfm/actions/detect_features.py` and the files of
`opensfm/dataset.py` 302-338, for histories of runs that may be interrupted anywhere.

Simplifications: a file is written by two steps, one that creates it with part of its content and one that
completes it (`open_wb` truncates the file in place, io.py:1470-1485). The result of the feature detector
may differ from run to run. Files of different images are independent, so a run is described by how many
steps it does for each image: every schedule of the detection threads and every moment of interruption is
such a choice.
-/
namespace Verif.DetectStage

/-- A file. -/
inductive FileS (α : Type)
  | absent
  | torn
  | whole (v : α)
  deriving DecidableEq

/-- `isfile`. -/
def FileS.exist {α : Type} : FileS α → Bool
  | .absent => false
  | _ => true

/-- The files of one image: features, the legacy feature file, words, report. -/
structure Files (V W : Type) where
  feats : FileS V := .absent
  legacy : FileS V := .absent
  words : FileS W := .absent
  report : FileS Unit := .absent
  deriving DecidableEq

variable {V W : Type}

/-- `features_exist` (dataset.py:308-311). -/
def Files.hasFeats (f : Files V W) : Bool := f.feats.exist || f.legacy.exist

/-- The test of `detect` (features_processing.py:267-281); `force` is false in the command. -/
def skips (needWords : Bool) (f : Files V W) : Bool := f.hasFeats && (!needWords || f.words.exist)

/-- The states of the files while `detect` writes them (features_processing.py:324-346): features, words if
they are needed, report. -/
def writes (bow : V → W) (needWords : Bool) (v : V) (f : Files V W) : List (Files V W) :=
  let f1 := { f with feats := .torn }
  let f2 := { f with feats := .whole v }
  let f3 := { f2 with words := .torn }
  let f4 := { f2 with words := .whole (bow v) }
  let g := if needWords then f4 else f2
  [f1, f2] ++ (if needWords then [f3, f4] else []) ++ [{ g with report := .torn }, { g with report := .whole () }]

/-- The files of an image after `k` steps of `detect`. -/
def detect (bow : V → W) (needWords : Bool) (v : V) (k : Nat) (f : Files V W) : Files V W :=
  if skips needWords f then f
  else ((f :: writes bow needWords v f)[k]?).getD (((writes bow needWords v f).getLast?).getD f)

/-- A run of the command: whether words are needed (features_processing.py:267-270), what the detector finds
in each image and how many steps are done for each image. -/
structure Run (I V : Type) where
  needWords : Bool
  found : I → V
  steps : I → Nat

/-- One run, for all images of the data set. -/
def run {I : Type} (bow : V → W) (r : Run I V) (s : I → Files V W) : I → Files V W :=
  fun i => detect bow r.needWords (r.found i) (r.steps i) (s i)

/-- Runs one after the other. -/
def runs {I : Type} (bow : V → W) (rs : List (Run I V)) (s : I → Files V W) : I → Files V W :=
  rs.foldl (fun s r => run bow r s) s

/-- `write_report` at the end of a run that was not interrupted (actions/detect_features.py:22-33): an
unreadable report is not an `IOError`, so it ends the command; a missing one is skipped. -/
def reportsOk {I : Type} (images : List I) (s : I → Files V W) : Bool :=
  images.all (fun i => decide ((s i).report ≠ .torn))

/-- `load_features` (dataset.py:313-320). -/
def loadFeats (f : Files V W) : Option V :=
  match f.legacy, f.feats with
  | .whole v, _ => some v
  | .torn, _ => none
  | .absent, .whole v => some v
  | .absent, _ => none

/-- `load_words` (dataset.py:328-331). -/
def loadWords (f : Files V W) : Option W :=
  match f.words with
  | .whole w => some w
  | _ => none

end Verif.DetectStage
