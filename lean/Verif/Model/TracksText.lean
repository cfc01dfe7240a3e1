import Verif.Base.Text
import Verif.Model.TracksManager

/-!
# Text format of the tracks file

`/repo/opensfm/src/map/src/tracks_manager.cc:10-177,419-449`.
Text is a list of characters. `R` is the type of doubles; printing (`ostream << double`) and
`std::stod` are the parameters `fmtD`, `parseD`. Integers are unbounded: the range error of
`std::stoi` on a 32-bit overflow is not modelled. Reading a file and reading a string run the
same template, so only the string version is modelled.
-/
namespace Verif.TracksText
open Text

/-- `map::Observation` (observation.h:20-56). -/
structure Obs (R D : Type) where
  x : R
  y : R
  scale : R
  red : Int
  green : Int
  blue : Int
  featureId : Int
  segmentationId : Int
  instanceId : Int
  depthPrior : Option D
  deriving DecidableEq, Repr

/-- The exceptions raised while reading (tracks_manager.cc:80-84,174; `std::stoi`, `std::stod`
and `std::string::substr`). -/
inductive Err where
  | badColumnCount
  | badNumber
  | headerTooShort
  | unknownVersion
  deriving DecidableEq, Repr

/-- `TRACKS_HEADER` (tracks_manager.cc:448). -/
def header : List Char := "OPENSFM_TRACKS_VERSION".toList
/-- `TRACKS_VERSION` (tracks_manager.cc:449). -/
def currentVersion : Int := 2

variable {R D : Type}

/-- The eleven columns of one line (tracks_manager.cc:36-41). -/
def fields (fmtD : R → List Char) (s t : List Char) (o : Obs R D) : List (List Char) :=
  [s, t, fmtInt o.featureId, fmtD o.x, fmtD o.y, fmtD o.scale, fmtInt o.red, fmtInt o.green,
   fmtInt o.blue, fmtInt o.segmentationId, fmtInt o.instanceId]

/-- Header line and one line per observation (tracks_manager.cc:31-42). -/
def outLines (fmtD : R → List Char) (m : TM (List Char) (List Char) (Obs R D)) :
    List (List Char) :=
  (header ++ "_v".toList ++ fmtInt currentVersion) ::
    (m.getShotIds.flatMap fun s =>
      match m.getShotObservations s with
      | .ok d => d.map fun p => joinSep '\t' (fields fmtD s p.1 p.2)
      | .error _ => [])

/-- `AsString` / `WriteToStreamCurrentVersion` (tracks_manager.cc:27-43,442-446). -/
def asString (fmtD : R → List Char) (m : TM (List Char) (List Char) (Obs R D)) : List Char :=
  unlines '\n' (outLines fmtD m)

/-- `GetTracksFileVersion` (tracks_manager.cc:10-25) on the list of lines: the version and the
lines still to be read (`seekg` gives the first line back when it is not a header). -/
def fileVersion (lines : List (List Char)) : Except Err (Int × List (List Char)) :=
  match lines with
  | [] => .ok (0, [])
  | l :: ls =>
    if header.isPrefixOf l then
      if header.length + 2 ≤ l.length then .ok (atoi (l.drop (header.length + 2)), ls)
      else .error .headerTooShort
    else .ok (0, l :: ls)

/-- Turns a missing number into the exception of `std::stoi` / `std::stod`. -/
def num {A : Type} : Option A → Except Err A
  | some a => .ok a
  | none => .error .badNumber

/-- `NO_SEMANTIC_VALUE` (observation.h:55). -/
def noSemantic : Int := -1

/-- One line of the 8-column format (tracks_manager.cc:78-95); `zero` is `0.0`. -/
def lineV0 (parseD : List Char → Option R) (zero : R) (line : List Char) :
    Except Err (List Char × List Char × Obs R D) :=
  match segs '\t' line with
  | [s, t, f, x, y, r, g, b] => do
    let f ← num (stoi f)
    let x ← num (parseD x)
    let y ← num (parseD y)
    let r ← num (stoi r)
    let g ← num (stoi g)
    let b ← num (stoi b)
    return (s, t, ⟨x, y, zero, r, g, b, f, noSemantic, noSemantic, none⟩)
  | _ => .error .badColumnCount

/-- One line of the 9-column format (tracks_manager.cc:108-125). -/
def lineV1 (parseD : List Char → Option R) (line : List Char) :
    Except Err (List Char × List Char × Obs R D) :=
  match segs '\t' line with
  | [s, t, f, x, y, sc, r, g, b] => do
    let f ← num (stoi f)
    let x ← num (parseD x)
    let y ← num (parseD y)
    let sc ← num (parseD sc)
    let r ← num (stoi r)
    let g ← num (stoi g)
    let b ← num (stoi b)
    return (s, t, ⟨x, y, sc, r, g, b, f, noSemantic, noSemantic, none⟩)
  | _ => .error .badColumnCount

/-- One line of the 11-column format (tracks_manager.cc:138-158). -/
def lineV2 (parseD : List Char → Option R) (line : List Char) :
    Except Err (List Char × List Char × Obs R D) :=
  match segs '\t' line with
  | [s, t, f, x, y, sc, r, g, b, sg, ins] => do
    let f ← num (stoi f)
    let x ← num (parseD x)
    let y ← num (parseD y)
    let sc ← num (parseD sc)
    let r ← num (stoi r)
    let g ← num (stoi g)
    let b ← num (stoi b)
    let sg ← num (stoi sg)
    let ins ← num (stoi ins)
    return (s, t, ⟨x, y, sc, r, g, b, f, sg, ins, none⟩)
  | _ => .error .badColumnCount

/-- The `while (std::getline(...))` loop shared by the three readers
(tracks_manager.cc:77-97,107-127,137-160). An exception abandons the manager. -/
def readLines (line : List Char → Except Err (List Char × List Char × Obs R D)) :
    TM (List Char) (List Char) (Obs R D) → List (List Char) →
    Except Err (TM (List Char) (List Char) (Obs R D))
  | m, [] => .ok m
  | m, l :: ls =>
    match line l with
    | .error e => .error e
    | .ok r => readLines line (m.addObservation r.1 r.2.1 r.2.2) ls

/-- `InstanciateFromString` / `InstanciateFromStreamT` (tracks_manager.cc:162-176,437-440). -/
def fromString (parseD : List Char → Option R) (zero : R) (text : List Char) :
    Except Err (TM (List Char) (List Char) (Obs R D)) :=
  match fileVersion (segs '\n' text) with
  | .error e => .error e
  | .ok (v, ls) =>
    if v = 0 then readLines (lineV0 parseD zero) TM.empty ls
    else if v = 1 then readLines (lineV1 parseD) TM.empty ls
    else if v = 2 then readLines (lineV2 parseD) TM.empty ls
    else .error .unknownVersion

end Verif.TracksText
