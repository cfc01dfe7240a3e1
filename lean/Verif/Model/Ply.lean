import Verif.Base.PyText
import Verif.Model.Calibration
import Verif.Model.Depthmap
import Verif.Model.TracksManager

/-!
Model of the PLY files (/repo/opensfm/io.py:1093-1247).

Simplifications: numbers are exact: rationals for the point cloud that is written and read, reals for the reconstruction
that is only written; so no NaN and no negative zero. `splitlines` splits at line feeds only (the files written contain
no other line separator).
-/
namespace Verif.Ply
open Verif.Text Verif.PyText Verif.Depthmap

/-! ### Point clouds -/

/-- One point of the cloud with normal, colour and label (dtypes float32 and uint8). -/
structure Pt where
  x : ℚ
  y : ℚ
  z : ℚ
  nx : ℚ
  ny : ℚ
  nz : ℚ
  r : ℕ
  g : ℕ
  b : ℕ
  label : ℕ
  deriving DecidableEq

/-- The last `k` decimal digits of `n`, padded with zeros. -/
def padNat : ℕ → ℕ → List Char
  | 0, _ => []
  | k + 1, n => padNat k (n / 10) ++ [digitChar (n % 10)]

/-- `'{:.kf}'.format(x)`: rounded half to even at the `k`-th decimal. -/
def fmtFixed (k : ℕ) (x : ℚ) : List Char :=
  let n := (Calibration.pyRound (|x| * 10 ^ k)).toNat
  (if x < 0 then ['-'] else []) ++ (fmtNat (n / 10 ^ k) ++ '.' :: padNat k n)

/-- `float(word)` of a word `digits` or `digits.digits` with optional sign. Simplification: other notations (exponents,
infinities) are not read; the writer does not write them. -/
def pyUnsigned (cs : List Char) : Option ℚ :=
  match splitAll '.' cs with
  | [a] => (pyNat a).map (fun n : ℕ => (n : ℚ))
  | [a, b] =>
    if a ≠ [] ∧ a.all isDigit ∧ b.all isDigit then some ((natOf a : ℚ) + (natOf b : ℚ) / 10 ^ b.length) else none
  | _ => none

/-- `float(word)`, see `pyUnsigned`. -/
def pyFloat (cs : List Char) : Option ℚ :=
  match cs with
  | '-' :: ds => (pyUnsigned ds).map (fun q => -q)
  | ds => pyUnsigned ds

/-- Assignment of an integer to an element of an array of `uint8`: an error if it does not fit. -/
def toUInt8 (i : ℤ) : Option ℕ := if 0 ≤ i ∧ i < 256 then some i.toNat else none

/-- The ten words of a point (io.py:1232-1246). -/
def ptWords (p : Pt) : List (List Char) :=
  [fmtFixed 4 p.x, fmtFixed 4 p.y, fmtFixed 4 p.z, fmtFixed 3 p.nx, fmtFixed 3 p.ny, fmtFixed 3 p.nz,
    fmtNat p.r, fmtNat p.g, fmtNat p.b, fmtNat p.label]

/-- The line that ends the header. -/
def endHeader : List Char := "end_header".toList

/-- The header (io.py:1216-1229). -/
def cloudHeader (n : ℕ) : List (List Char) :=
  ["ply".toList, "format ascii 1.0".toList, "element vertex ".toList ++ fmtNat n, "property float x".toList,
    "property float y".toList, "property float z".toList, "property float nx".toList, "property float ny".toList,
    "property float nz".toList, "property uchar red".toList, "property uchar green".toList, "property uchar blue".toList,
    "property uchar class".toList, endHeader]

/-- `point_cloud_to_ply` (io.py:1209-1247). -/
def toPly (ps : List Pt) : List Char := unlines '\n' (cloudHeader ps.length ++ ps.map (fun p => joinSep ' ' (ptWords p)))

/-- One row (io.py:1198-1204). `none`: an exception. Words after the tenth are ignored. -/
def parseRow (row : List Char) : Option Pt :=
  match words row with
  | a :: b :: c :: d :: e :: f :: g :: h :: i :: j :: _ =>
    match (pyInt j).bind toUInt8, pyFloat a, pyFloat b, pyFloat c, pyFloat d, pyFloat e, pyFloat f, (pyInt g).bind toUInt8,
        (pyInt h).bind toUInt8, (pyInt i).bind toUInt8 with
    | some l, some x, some y, some z, some nx, some ny, some nz, some r, some gg, some bb =>
      some ⟨x, y, z, nx, ny, nz, r, gg, bb, l⟩
    | _, _, _, _, _, _, _, _, _, _ => none
  | _ => none

/-- The lines after the first `end_header` (io.py:1189-1190); `none`: `ValueError`. -/
def afterHeader : List (List Char) → Option (List (List Char))
  | [] => none
  | l :: ls => if l = endHeader then some ls else afterHeader ls

/-- `point_cloud_from_ply` (io.py:1184-1206), before the conversion to float32. `none`: an exception. -/
def fromPly (cs : List Char) : Option (List Pt) := (afterHeader (segs '\n' cs)).bind (fun ls => ls.mapM parseRow)

/-! ### Reconstructions -/

/-- What is used of a point of a reconstruction. -/
structure RPoint (T : Type) where
  id : T
  coordinates : V3
  color : ℤ × ℤ × ℤ
  /-- `number_of_observations()` -/
  observations : ℕ

/-- What is used of a shot: `get_origin()` and `get_rotation_matrix()`. -/
structure RShot where
  origin : V3
  R : M3

/-- `ply_header` (io.py:1093-1129) without normals. -/
def plyHeader (n : ℕ) (pointNumViews : Bool) : List (List Char) :=
  ["ply".toList, "format ascii 1.0".toList, "element vertex ".toList ++ fmtNat n, "property float x".toList,
    "property float y".toList, "property float z".toList, "property uchar red".toList, "property uchar green".toList,
    "property uchar blue".toList] ++ (if pointNumViews then ["property uchar views".toList] else []) ++ [endHeader]

section
variable {S T O : Type} [DecidableEq S] [DecidableEq T]

/-- The number of views of a point (io.py:1156-1158). `none`: the track is not in the tracks manager. -/
def viewCount (m : TM S T O) (p : RPoint T) : Option ℕ :=
  if p.observations = 0 then
    match m.getTrackObservations p.id with
    | .ok obs => some obs.length
    | .error _ => none
  else some p.observations

/-- The words of a point (io.py:1149-1161); `fmt` is `'{}'.format` of a number. -/
def pointWords (fmt : ℝ → List Char) (tracks : Option (TM S T O)) (pointNumViews : Bool) (p : RPoint T) :
    Option (List (List Char)) :=
  let s := [fmt (p.coordinates 0), fmt (p.coordinates 1), fmt (p.coordinates 2), fmtInt p.color.1, fmtInt p.color.2.1,
    fmtInt p.color.2.2]
  match pointNumViews, tracks with
  | true, some m => (viewCount m p).map (fun n => s ++ [fmtNat n])
  | _, _ => some s

/-- The `j`-th position along an axis of a camera (io.py:1169-1170): `np.linspace(0, 2, 10)[j]` along a row of the
rotation matrix. -/
noncomputable def axisPoint (shot : RShot) (axis : Fin 3) (j : ℕ) : V3 :=
  shot.origin + (2 * (j : ℝ) / 9) • (shot.R axis)

/-- The words of a vertex of a camera (io.py:1168-1180). -/
noncomputable def axisWords (fmt : ℝ → List Char) (pointNumViews : Bool) (shot : RShot) (axis : Fin 3) (j : ℕ) :
    List (List Char) :=
  let p := axisPoint shot axis j
  [fmt (p 0), fmt (p 1), fmt (p 2), fmtInt (if axis = 0 then 255 else 0), fmtInt (if axis = 1 then 255 else 0),
    fmtInt (if axis = 2 then 255 else 0)] ++ (if pointNumViews then ["0".toList] else [])

/-- The vertices of a shot (io.py:1164-1180). -/
noncomputable def shotVertices (fmt : ℝ → List Char) (pointNumViews : Bool) (shot : RShot) : List (List (List Char)) :=
  [0, 1, 2].flatMap (fun axis : Fin 3 => (List.range 10).map (fun j : ℕ => axisWords fmt pointNumViews shot axis j))

/-- The vertices, each as its words (io.py:1145-1180). `none`: an exception. -/
noncomputable def vertices (fmt : ℝ → List Char) (points : List (RPoint T)) (shots : List RShot) (tracks : Option (TM S T O))
    (noCameras noPoints pointNumViews : Bool) : Option (List (List (List Char))) :=
  (if noPoints then some [] else points.mapM (pointWords fmt tracks pointNumViews)).map
    (fun vs => vs ++ (if noCameras then [] else shots.flatMap (shotVertices fmt pointNumViews)))

/-- `reconstruction_to_ply` (io.py:1132-1181). -/
noncomputable def recToPly (fmt : ℝ → List Char) (points : List (RPoint T)) (shots : List RShot) (tracks : Option (TM S T O))
    (noCameras noPoints pointNumViews : Bool) : Option (List Char) :=
  (vertices fmt points shots tracks noCameras noPoints pointNumViews).map (fun vs =>
    joinSep '\n' (plyHeader vs.length pointNumViews ++ vs.map (joinSep ' ') ++ [[]]))

end

end Verif.Ply
