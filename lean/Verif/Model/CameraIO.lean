import Verif.Base.Json
import Mathlib.Tactic.NormNum

/-!
# Model of camera construction, parameter access and serialisation

`opensfm/src/geometry/camera.h`, `opensfm/src/geometry/src/camera.cc`,
`opensfm/src/geometry/python/pybind.cc` (properties) and the camera functions of `opensfm/io.py`.
Numbers are exact rationals. An exception is `none`.
-/
namespace Verif.CameraIO

/-- `ProjectionType` (the ten supported ones). -/
inductive PType where
  | perspective | brown | fisheye | fisheyeOpencv | fisheye62 | fisheye624 | dual | spherical
  | radial | simpleRadial
  deriving DecidableEq, Repr

/-- `Camera::Parameters` (camera.h:9-28), in enum order. -/
inductive Param where
  | transition | k1 | k2 | k3 | k4 | k5 | k6 | p1 | p2 | focal | aspectRatio | cx | cy
  | s0 | s1 | s2 | s3 | none
  deriving DecidableEq, Repr

/-- `static_cast<int>(parameter)` (camera.h:9-28). -/
def Param.toInt : Param → ℕ
  | .transition => 0 | .k1 => 1 | .k2 => 2 | .k3 => 3 | .k4 => 4 | .k5 => 5 | .k6 => 6
  | .p1 => 7 | .p2 => 8 | .focal => 9 | .aspectRatio => 10 | .cx => 11 | .cy => 12
  | .s0 => 13 | .s1 => 14 | .s2 => 15 | .s3 => 16 | .none => 17

/-- `Camera` (camera.h:7, 84-86, 117-120). -/
structure Cam where
  ptype : PType
  types : List Param
  values : List ℚ
  width : ℤ
  height : ℤ
  id : String
  deriving DecidableEq, Repr

/-- `CreatePerspectiveCamera` (camera.cc:9-17). -/
def createPerspective (focal k1 k2 : ℚ) : Cam :=
  ⟨.perspective, [.k1, .k2, .focal], [k1, k2, focal], 1, 1, ""⟩

/-- `CreateBrownCamera` (camera.cc:19-37); `none` when the distortion has another size. -/
def createBrown (focal ar : ℚ) (pp : ℚ × ℚ) : List ℚ → Option Cam
  | [d0, d1, d2, d3, d4] => some ⟨.brown, [.k1, .k2, .k3, .p1, .p2, .focal, .aspectRatio, .cx, .cy],
      [d0, d1, d2, d3, d4, focal, ar, pp.1, pp.2], 1, 1, ""⟩
  | _ => none

/-- `CreateFisheyeCamera` (camera.cc:39-47). -/
def createFisheye (focal k1 k2 : ℚ) : Cam :=
  ⟨.fisheye, [.k1, .k2, .focal], [k1, k2, focal], 1, 1, ""⟩

/-- `CreateFisheyeOpencvCamera` (camera.cc:49-65). -/
def createFisheyeOpencv (focal ar : ℚ) (pp : ℚ × ℚ) : List ℚ → Option Cam
  | [d0, d1, d2, d3] => some ⟨.fisheyeOpencv, [.k1, .k2, .k3, .k4, .focal, .aspectRatio, .cx, .cy],
      [d0, d1, d2, d3, focal, ar, pp.1, pp.2], 1, 1, ""⟩
  | _ => none

/-- `CreateFisheye62Camera` (camera.cc:73-92). -/
def createFisheye62 (focal ar : ℚ) (pp : ℚ × ℚ) : List ℚ → Option Cam
  | [d0, d1, d2, d3, d4, d5, d6, d7] =>
    some ⟨.fisheye62,
      [.k1, .k2, .k3, .k4, .k5, .k6, .p1, .p2, .focal, .aspectRatio, .cx, .cy],
      [d0, d1, d2, d3, d4, d5, d6, d7, focal, ar, pp.1, pp.2], 1, 1, ""⟩
  | _ => none

/-- `CreateFisheye624Camera` (camera.cc:100-122). -/
def createFisheye624 (focal ar : ℚ) (pp : ℚ × ℚ) : List ℚ → Option Cam
  | [d0, d1, d2, d3, d4, d5, d6, d7, d8, d9, d10, d11] =>
    some ⟨.fisheye624,
      [.k1, .k2, .k3, .k4, .k5, .k6, .p1, .p2, .s0, .s1, .s2, .s3, .focal, .aspectRatio, .cx, .cy],
      [d0, d1, d2, d3, d4, d5, d6, d7, d8, d9, d10, d11, focal, ar, pp.1, pp.2], 1, 1, ""⟩
  | _ => none

/-- `CreateDualCamera` (camera.cc:124-133). -/
def createDual (transition focal k1 k2 : ℚ) : Cam :=
  ⟨.dual, [.transition, .k1, .k2, .focal], [transition, k1, k2, focal], 1, 1, ""⟩

/-- `CreateSphericalCamera` (camera.cc:135-142). -/
def createSpherical : Cam := ⟨.spherical, [.none], [0], 1, 1, ""⟩

/-- `CreateRadialCamera` (camera.cc:144-156). -/
def createRadial (focal ar : ℚ) (pp : ℚ × ℚ) (d : ℚ × ℚ) : Cam :=
  ⟨.radial, [.k1, .k2, .focal, .aspectRatio, .cx, .cy], [d.1, d.2, focal, ar, pp.1, pp.2], 1, 1, ""⟩

/-- `CreateSimpleRadialCamera` (camera.cc:158-170). -/
def createSimpleRadial (focal ar : ℚ) (pp : ℚ × ℚ) (k1 : ℚ) : Cam :=
  ⟨.simpleRadial, [.k1, .focal, .aspectRatio, .cx, .cy], [k1, focal, ar, pp.1, pp.2], 1, 1, ""⟩

/-- Loop of `GetParameterValue` (camera.cc:200-208); `none` is the exception. -/
def getValue : List Param → List ℚ → Param → Option ℚ
  | t :: ts, v :: vs, p => if t = p then some v else getValue ts vs p
  | _, _, _ => none

/-- `GetParameterValue` (camera.cc:200-208). -/
def Cam.get (c : Cam) (p : Param) : Option ℚ := getValue c.types c.values p

/-- Loop of `SetParameterValue` (camera.cc:189-198). -/
def setValue : List Param → List ℚ → Param → ℚ → Option (List ℚ)
  | t :: ts, v :: vs, p, x =>
    if t = p then some (x :: vs) else (setValue ts vs p x).map (v :: ·)
  | _, _, _, _ => none

/-- `SetParameterValue` (camera.cc:189-198). -/
def Cam.set (c : Cam) (p : Param) (x : ℚ) : Option Cam :=
  (setValue c.types c.values p x).map fun vs => { c with values := vs }

/-- `GetParametersMap` (camera.cc:180-187): a later entry overwrites an earlier one. -/
def paramsMap : List Param → List ℚ → Dict Param ℚ → Dict Param ℚ
  | t :: ts, v :: vs, m => paramsMap ts vs (Dict.set m t v)
  | _, _, m => m

/-- The types listed by the `distortion` getter (pybind.cc:145-156). -/
def distoTypes : List Param :=
  [.k1, .k2, .k3, .k4, .k5, .k6, .p1, .p2, .s0, .s1, .s2, .s3]

/-- `distortion` getter (pybind.cc:140-170). -/
def Cam.distortion (c : Cam) : List ℚ :=
  distoTypes.filterMap fun t => Dict.get? (paramsMap c.types c.values []) t

/-- Loop of the `distortion` setter (pybind.cc:171-183): every parameter whose enum value lies
between `K1` and `S3` takes the next entry. `none` is the read past the end of the given vector. -/
def setDistLoop : List Param → ℕ → List ℚ → Cam → Option Cam
  | [], _, _, c => some c
  | t :: ts, count, d, c =>
    if Param.k1.toInt ≤ t.toInt ∧ t.toInt ≤ Param.s3.toInt then
      match d[count]? with
      | none => none
      | some x =>
        match c.set t x with
        | none => none
        | some c' => setDistLoop ts (count + 1) d c'
    else setDistLoop ts count d c

/-- `distortion` setter (pybind.cc:171-183). -/
def Cam.setDistortion (c : Cam) (d : List ℚ) : Option Cam := setDistLoop c.types 0 d c

/-- `principal_point` getter (pybind.cc:184-190): `std::map::at` raises when absent. -/
def Cam.principalPoint (c : Cam) : Option (ℚ × ℚ) :=
  match Dict.get? (paramsMap c.types c.values []) .cx,
    Dict.get? (paramsMap c.types c.values []) .cy with
  | some x, some y => some (x, y)
  | _, _ => none

/-- `GetProjectionString` (camera.cc:212-241). -/
def PType.toString : PType → String
  | .perspective => "perspective"
  | .brown => "brown"
  | .fisheye => "fisheye"
  | .fisheyeOpencv => "fisheye_opencv"
  | .fisheye62 => "fisheye62"
  | .fisheye624 => "fisheye624"
  | .dual => "dual"
  | .spherical => "spherical"
  | .radial => "radial"
  | .simpleRadial => "simple_radial"

/-- `is_panorama` (pybind.cc:200-204). -/
def isPanorama (s : String) : Bool := s == "spherical" || s == "equirectangular"

/-- Float division: `ZeroDivisionError` for a Python float divisor 0. -/
def pyDiv (a b : ℚ) : Option ℚ := if b = 0 then none else some (a / b)

/-- `GetProjectionMatrix` (camera.cc:243-275) as `(fx, fy, cx, cy)`, the non-constant entries of
`[[fx, 0, cx], [0, fy, cy], [0, 0, 1]]`. -/
def Cam.projectionMatrix (c : Cam) : ℚ × ℚ × ℚ × ℚ :=
  let m := paramsMap c.types c.values []
  let f := (Dict.get? m .focal).getD 1
  let ar := (Dict.get? m .aspectRatio).getD 1
  (f, f * ar, (Dict.get? m .cx).getD 0, (Dict.get? m .cy).getD 0)

/-- `GetProjectionMatrixScaled` (camera.cc:277-288), same entries. -/
def Cam.projectionMatrixScaled (c : Cam) (w h : ℕ) : ℚ × ℚ × ℚ × ℚ :=
  let s : ℚ := ((max w h : ℕ) : ℚ)
  let k := c.projectionMatrix
  (s * k.1, s * k.2.1, k.2.2.1 * s + 1 / 2 * w, k.2.2.2 * s + 1 / 2 * h)

/-! ### JSON -/

/-- The common first three keys written by `camera_to_json`. -/
def head (c : Cam) : List (String × J) :=
  [("projection_type", .str c.ptype.toString), ("width", .num c.width), ("height", .num c.height)]

/-- `{"name": camera.attr, ...}`: all listed attributes are read, any may raise. -/
def fields (c : Cam) : List (String × Param) → Option (List (String × J))
  | [] => some []
  | (s, p) :: l =>
    match c.get p, fields c l with
    | some v, some r => some ((s, .num v) :: r)
    | _, _ => none

/-- The four keys `focal_x, focal_y, c_x, c_y`. -/
def affineFields (c : Cam) : Option (List (String × J)) :=
  match c.get .focal, c.get .aspectRatio, c.principalPoint with
  | some f, some a, some pp =>
    some [("focal_x", .num f), ("focal_y", .num (f * a)), ("c_x", .num pp.1), ("c_y", .num pp.2)]
  | _, _, _ => none

/-- Concatenates the parts of a dictionary literal. -/
def build (c : Cam) (parts : List (Option (List (String × J)))) : Option J :=
  (parts.mapM id).map fun l => J.obj (head c ++ l.flatten)

/-- `camera_to_json` (io.py:364-495). The string comparisons on `projection_type` are a match on
the type (`PType.toString` is injective); `equirectangular` is never a camera's own type. -/
def cameraToJson (c : Cam) : Option J :=
  match c.ptype with
  | .perspective => build c [fields c [("focal", .focal), ("k1", .k1), ("k2", .k2)]]
  | .brown => build c [affineFields c,
      fields c [("k1", .k1), ("k2", .k2), ("p1", .p1), ("p2", .p2), ("k3", .k3)]]
  | .fisheye => build c [fields c [("focal", .focal), ("k1", .k1), ("k2", .k2)]]
  | .fisheyeOpencv => build c [affineFields c,
      fields c [("k1", .k1), ("k2", .k2), ("k3", .k3), ("k4", .k4)]]
  | .fisheye62 => build c [affineFields c,
      fields c [("k1", .k1), ("k2", .k2), ("k3", .k3), ("k4", .k4), ("k5", .k5), ("k6", .k6),
        ("p1", .p1), ("p2", .p2)]]
  | .fisheye624 => build c [affineFields c,
      fields c [("k1", .k1), ("k2", .k2), ("k3", .k3), ("k4", .k4), ("k5", .k5), ("k6", .k6),
        ("p1", .p1), ("p2", .p2), ("s0", .s0), ("s1", .s1), ("s2", .s2), ("s3", .s3)]]
  | .simpleRadial => build c [affineFields c, fields c [("k1", .k1)]]
  | .radial => build c [affineFields c, fields c [("k1", .k1), ("k2", .k2)]]
  | .dual => build c [fields c [("focal", .focal), ("k1", .k1), ("k2", .k2),
      ("transition", .transition)]]
  | .spherical => build c []

/-- `np.array([obj.get(k, 0.0), ...])`. -/
def readDist (o : J) (keys : List String) : Option (List ℚ) := keys.mapM fun k => o.optNum k 0

/-- Focal, aspect ratio and principal point of the affine camera types:
`obj["focal_x"], obj["focal_y"] / obj["focal_x"], [obj.get("c_x", 0.0), obj.get("c_y", 0.0)]`. -/
def readAffine (o : J) : Option (ℚ × ℚ × (ℚ × ℚ)) :=
  match o.reqNum "focal_x", o.reqNum "focal_y", o.optNum "c_x" 0, o.optNum "c_y" 0 with
  | some fx, some fy, some x, some y => (pyDiv fy fx).map fun a => (fx, a, (x, y))
  | _, _, _, _ => none

/-- Reading of the affine cameras: both argument groups may raise. -/
def withAffine (o : J) (keys : List String) (f : ℚ → ℚ → ℚ × ℚ → List ℚ → Option Cam) :
    Option Cam :=
  match readAffine o, readDist o keys with
  | some (fx, a, pp), some d => f fx a pp d
  | _, _ => none

/-- The branch on `projection_type` (io.py:37-156). -/
def cameraOfType (o : J) (pt : String) : Option Cam :=
  if pt = "perspective" then
    match o.reqNum "focal", o.optNum "k1" 0, o.optNum "k2" 0 with
    | some f, some k1, some k2 => some (createPerspective f k1 k2)
    | _, _, _ => none
  else if pt = "brown" then withAffine o ["k1", "k2", "k3", "p1", "p2"] createBrown
  else if pt = "fisheye" then
    match o.reqNum "focal", o.optNum "k1" 0, o.optNum "k2" 0 with
    | some f, some k1, some k2 => some (createFisheye f k1 k2)
    | _, _, _ => none
  else if pt = "fisheye_opencv" then
    withAffine o ["k1", "k2", "k3", "k4"] createFisheyeOpencv
  else if pt = "fisheye62" then
    withAffine o ["k1", "k2", "k3", "k4", "k5", "k6", "p1", "p2"] createFisheye62
  else if pt = "fisheye624" then
    withAffine o ["k1", "k2", "k3", "k4", "k5", "k6", "p1", "p2", "s0", "s1", "s2", "s3"]
      createFisheye624
  else if pt = "radial" then
    withAffine o ["k1", "k2"] fun f a pp d =>
      match d with
      | [x, y] => some (createRadial f a pp (x, y))
      | _ => none
  else if pt = "simple_radial" then
    withAffine o ["k1"] fun f a pp d =>
      match d with
      | [x] => some (createSimpleRadial f a pp x)
      | _ => none
  else if pt = "dual" then
    match o.optNum "transition" (1 / 2), o.reqNum "focal", o.optNum "k1" 0, o.optNum "k2" 0 with
    | some t, some f, some k1, some k2 => some (createDual t f k1 k2)
    | _, _, _, _ => none
  else if isPanorama pt then some createSpherical
  else none

/-- `int(x)` of a number: truncation towards zero. -/
def pyInt (q : ℚ) : ℤ := q.num.tdiv q.den

/-- `camera_from_json(key, obj)` (io.py:33-160). -/
def cameraFromJson (key : String) (o : J) : Option Cam :=
  let pt := match o.get? "projection_type" with
    | some v => v.str?
    | none => some "perspective"
  match pt with
  | none => none
  | some pt =>
    match cameraOfType o pt, o.optNum "width" 0, o.optNum "height" 0 with
    | some c, some w, some h => some { c with id := key, width := pyInt w, height := pyInt h }
    | _, _, _ => none

/-- One iteration of `cameras_to_json` (io.py:677-678). -/
def toJsonStep (acc : Option (Dict String J)) (c : Cam) : Option (Dict String J) :=
  match acc, cameraToJson c with
  | some o, some j => some (o.set c.id j)
  | _, _ => none

/-- `cameras_to_json` (io.py:672-679). -/
def camerasToJson (cams : Dict String Cam) : Option (Dict String J) :=
  cams.vals.foldl toJsonStep (some [])

/-- One iteration of `cameras_from_json` (io.py:359-360). -/
def fromJsonStep (acc : Option (Dict String Cam)) (kv : String × J) : Option (Dict String Cam) :=
  match acc, cameraFromJson kv.1 kv.2 with
  | some m, some c => some (m.set kv.1 c)
  | _, _ => none

/-- `cameras_from_json` (io.py:354-361). -/
def camerasFromJson (o : Dict String J) : Option (Dict String Cam) :=
  o.foldl fromJsonStep (some [])

/-! ### Vectors -/

/-- All listed attributes. -/
def gets (c : Cam) : List Param → Option (List ℚ)
  | [] => some []
  | p :: l =>
    match c.get p, gets c l with
    | some v, some r => some (v :: r)
    | _, _ => none

/-- `[focal, focal * aspect_ratio, principal_point[0], principal_point[1], ...]`. -/
def affineVector (c : Cam) (ps : List Param) : Option (List ℚ) :=
  match c.get .focal, c.get .aspectRatio, c.principalPoint, gets c ps with
  | some f, some a, some pp, some r => some (f :: f * a :: pp.1 :: pp.2 :: r)
  | _, _, _, _ => none

/-- `camera_to_vector` (io.py:793-885). -/
def cameraToVector (c : Cam) : Option (List ℚ) :=
  match c.ptype with
  | .perspective => gets c [.focal, .k1, .k2]
  | .brown => affineVector c [.k1, .k2, .p1, .p2, .k3]
  | .fisheye => gets c [.focal, .k1, .k2]
  | .fisheyeOpencv => affineVector c [.k1, .k2, .k3, .k4]
  | .fisheye62 => affineVector c [.k1, .k2, .k3, .k4, .k5, .k6, .p1, .p2]
  | .fisheye624 => affineVector c [.k1, .k2, .k3, .k4, .k5, .k6, .p1, .p2, .s0, .s1, .s2, .s3]
  | .radial => affineVector c [.k1, .k2]
  | .simpleRadial => affineVector c [.k1]
  | .dual => gets c [.focal, .k1, .k2, .transition]
  | .spherical => some []

/-- The branch of `camera_from_vector` (io.py:710-786); unpacking a vector of another length
raises `ValueError`. -/
def vectorOfType (pt : String) (v : List ℚ) : Option Cam :=
  if pt = "perspective" then
    match v with
    | [focal, k1, k2] => some (createPerspective focal k1 k2)
    | _ => none
  else if pt = "brown" then
    match v with
    | [fx, fy, cx, cy, k1, k2, p1, p2, k3] =>
      match pyDiv fy fx with
      | some a => createBrown fx a (cx, cy) [k1, k2, k3, p1, p2]
      | none => none
    | _ => none
  else if pt = "fisheye" then
    match v with
    | [focal, k1, k2] => some (createFisheye focal k1 k2)
    | _ => none
  else if pt = "fisheye_opencv" then
    match v with
    | [fx, fy, cx, cy, k1, k2, k3, k4] =>
      match pyDiv fy fx with
      | some a => createFisheyeOpencv fx a (cx, cy) [k1, k2, k3, k4]
      | none => none
    | _ => none
  else if pt = "fisheye62" then
    match v with
    | [fx, fy, cx, cy, k1, k2, k3, k4, k5, k6, p1, p2] =>
      match pyDiv fy fx with
      | some a => createFisheye62 fx a (cx, cy) [k1, k2, k3, k4, k5, k6, p1, p2]
      | none => none
    | _ => none
  else if pt = "fisheye624" then
    match v with
    | [fx, fy, cx, cy, k1, k2, k3, k4, k5, k6, p1, p2, s0, s1, s2, s3] =>
      match pyDiv fy fx with
      | some a => createFisheye624 fx a (cx, cy) [k1, k2, k3, k4, k5, k6, p1, p2, s0, s1, s2, s3]
      | none => none
    | _ => none
  else if pt = "radial" then
    match v with
    | [fx, fy, cx, cy, k1, k2] =>
      match pyDiv fy fx with
      | some a => some (createRadial fx a (cx, cy) (k1, k2))
      | none => none
    | _ => none
  else if pt = "simple_radial" then
    match v with
    | [fx, fy, cx, cy, k1] =>
      match pyDiv fy fx with
      | some a => some (createSimpleRadial fx a (cx, cy) k1)
      | none => none
    | _ => none
  else if pt = "dual" then
    match v with
    | [focal, k1, k2, transition] => some (createDual transition focal k1 k2)
    | _ => none
  else if isPanorama pt then some createSpherical
  else none

/-- `camera_from_vector` (io.py:702-790). -/
def cameraFromVector (id : String) (w h : ℤ) (pt : String) (v : List ℚ) : Option Cam :=
  (vectorOfType pt v).map fun c => { c with id := id, width := w, height := h }

end Verif.CameraIO
