import Verif.Model.Pose
import Verif.Model.CameraIO
import Mathlib.Analysis.SpecialFunctions.Trigonometric.Basic

/-!
# Model of the meshes of the shots

`/repo/opensfm/mesh.py`. Numbers are reals, the pose is the one of `Model/Pose.lean`, the camera matrix
is given by its entries (`GetProjectionMatrix`, modelled in `Model/CameraIO.lean`). The triangulations
of scipy (`Delaunay`, `ConvexHull`) and the projection of the points are parameters; `none` is an
exception. The tracks of a shot are those which are points of the reconstruction, in the order of
`get_shot_observations`.
-/
namespace Verif.Mesh
open Verif.Pose Matrix

/-- A face (mesh.py:92, 147, 189): the three indices of a simplex. -/
abbrev Face := ℕ × ℕ × ℕ

/-- The entries of `camera.get_K()` (mesh.py:102). -/
structure Kmat where
  fx : ℝ
  fy : ℝ
  cx : ℝ
  cy : ℝ

/-- `dx` and `dy` (mesh.py:55-56); a camera without size raises. -/
noncomputable def halfSize (width height : ℕ) : ℝ × ℝ :=
  ((width : ℝ) / 2 / (max width height : ℕ), (height : ℝ) / 2 / (max width height : ℕ))

/-- The four corners (mesh.py:57). -/
noncomputable def corners (width height : ℕ) : List (ℝ × ℝ) :=
  let d := halfSize width height
  [(-d.1, -d.2), (-d.1, d.2), (d.1, d.2), (d.1, -d.2)]

open Classical in
/-- The pixel of a point when it is in the frame (mesh.py:63-65); `none` for a projection which is not a number. -/
noncomputable def inFrame (width height : ℕ) : Option (ℝ × ℝ) → Option (ℝ × ℝ)
  | none => none
  | some p =>
    let d := halfSize width height
    if -d.1 ≤ p.1 ∧ p.1 ≤ d.1 ∧ -d.2 ≤ p.2 ∧ p.2 ≤ d.2 then some p else none

/-- The points which become vertices, with their pixels (mesh.py:58-68). -/
noncomputable def keep (width height : ℕ) (seen : List (V3 ℝ × Option (ℝ × ℝ))) : List (V3 ℝ × (ℝ × ℝ)) :=
  seen.filterMap fun x => (inFrame width height x.2).map fun p => (x.1, p)

/-- `t` as a list (mesh.py:80-81). -/
def Face.list (t : Face) : List ℕ := [t.1, t.2.1, t.2.2]

/-- The depths added for corner `i` (mesh.py:76-84): `points` are the vertices from the fifth on. -/
noncomputable def cornerDepths (pose : Pose ℝ) (points : List (V3 ℝ)) (tri : List Face) (i : ℕ) : List ℝ :=
  tri.flatMap fun t =>
    if i ∈ t.list then (t.list.filter (fun j => decide (4 ≤ j))).map
      (fun j => pose.transform (points.getD (j - 4) 0) 2)
    else []

/-- `d` (mesh.py:86-89). -/
noncomputable def cornerDepth (depths : List ℝ) : ℝ :=
  if depths.length > 0 then depths.sum / depths.length else 50

/-- `back_project_no_distortion` (mesh.py:96-106): the inverse of a singular matrix raises. -/
noncomputable def backProject (k : Kmat) (pose : Pose ℝ) (pixel : ℝ × ℝ) (depth : ℝ) : Option (V3 ℝ) :=
  open Classical in
  if k.fx = 0 ∨ k.fy = 0 then none
  else some (pose.transformInverse ((depth / 1) • ![(pixel.1 - k.cx) / k.fx, (pixel.2 - k.cy) / k.fy, 1]))

/-- The vertex of a corner (mesh.py:85-90). -/
noncomputable def cornerVertex (k : Kmat) (pose : Pose ℝ) (points : List (V3 ℝ)) (tri : List Face)
    (c : (ℝ × ℝ) × ℕ) : Option (V3 ℝ) :=
  backProject k pose c.1 (cornerDepth (cornerDepths pose points tri c.2))

/-- `triangle_mesh_perspective` (mesh.py:49-93). -/
noncomputable def perspective (delaunay : List (ℝ × ℝ) → Option (List Face)) (k : Kmat) (width height : ℕ)
    (pose : Pose ℝ) (seen : List (V3 ℝ × Option (ℝ × ℝ))) : Option (List (V3 ℝ) × List Face) :=
  let kept := keep width height seen
  match delaunay (corners width height ++ kept.map Prod.snd) with
  | none => none
  | some tri =>
    match ((corners width height).zipIdx).mapM (cornerVertex k pose (kept.map Prod.fst) tri) with
    | none => none
    | some cs => some (cs ++ kept.map Prod.fst, tri)

/-- `np.linalg.norm` (mesh.py:122, 129, 140, 173, 183). -/
noncomputable def norm3 (v : V3 ℝ) : ℝ := Real.sqrt (v ⬝ᵥ v)

/-- A point of the boundary circle before it is transformed (mesh.py:119-121). -/
noncomputable def circlePoint (i : ℕ) : V3 ℝ :=
  (30 : ℝ) • ![Real.cos (2 * Real.pi * i / 20), Real.sin (2 * Real.pi * i / 20), 0]

/-- Vertex and bearing of a boundary point (mesh.py:119-125). -/
noncomputable def circleVertex (pose : Pose ℝ) (i : ℕ) : V3 ℝ × V3 ℝ :=
  (pose.transformInverse (circlePoint i), (1 / norm3 (circlePoint i)) • circlePoint i)

/-- The point in front of the camera before it is transformed (mesh.py:128). -/
noncomputable def frontPoint : V3 ℝ := (30 : ℝ) • ![0, 0, 1]

/-- Vertex and bearing in front of the camera (mesh.py:127-132). -/
noncomputable def frontVertex (pose : Pose ℝ) : V3 ℝ × V3 ℝ :=
  (pose.transformInverse frontPoint, (3 / 10 / norm3 frontPoint) • frontPoint)

open Classical in
/-- Vertex and bearing of a reconstructed point (mesh.py:134-143, 178-186): not a number at the camera centre. -/
noncomputable def pointVertex (pose : Pose ℝ) (x : V3 ℝ) : Option (V3 ℝ × V3 ℝ) :=
  let d := pose.transform x
  if d = 0 then none else some (x, (1 / norm3 d) • d)

/-- Vertices with bearings of the fisheye mesh (mesh.py:114-143). -/
noncomputable def fisheyeInput (pose : Pose ℝ) (points : List (V3 ℝ)) : List (V3 ℝ × V3 ℝ) :=
  (List.range 20).map (circleVertex pose) ++ frontVertex pose :: points.filterMap (pointVertex pose)

/-- `good_face` (mesh.py:150-155). -/
def goodFace (f : Face) : Bool := decide (20 ≤ f.1 ∨ 20 ≤ f.2.1 ∨ 20 ≤ f.2.2)

/-- `triangle_mesh_fisheye` (mesh.py:109-159). -/
noncomputable def fisheye (hull : List (V3 ℝ) → Option (List Face)) (pose : Pose ℝ) (points : List (V3 ℝ)) :
    Option (List (V3 ℝ) × List Face) :=
  let l := fisheyeInput pose points
  (hull (l.map Prod.snd)).map fun faces => (l.map Prod.fst, faces.filter goodFace)

/-- `itertools.product([-1, 1], repeat=3)` (mesh.py:172). -/
noncomputable def cube : List (V3 ℝ) :=
  [![-1, -1, -1], ![-1, -1, 1], ![-1, 1, -1], ![-1, 1, 1], ![1, -1, -1], ![1, -1, 1], ![1, 1, -1], ![1, 1, 1]]

/-- Vertex and bearing of a corner of the cube (mesh.py:173-176). -/
noncomputable def cubeVertex (pose : Pose ℝ) (c : V3 ℝ) : V3 ℝ × V3 ℝ :=
  let b := (3 / 10 / norm3 c) • c
  (pose.transformInverse b, b)

/-- Vertices with bearings of the spherical mesh (mesh.py:167-186). -/
noncomputable def sphericalInput (pose : Pose ℝ) (points : List (V3 ℝ)) : List (V3 ℝ × V3 ℝ) :=
  cube.map (cubeVertex pose) ++ points.filterMap (pointVertex pose)

/-- `triangle_mesh_spherical` (mesh.py:162-191). -/
noncomputable def spherical (hull : List (V3 ℝ) → Option (List Face)) (pose : Pose ℝ) (points : List (V3 ℝ)) :
    Option (List (V3 ℝ) × List Face) :=
  let l := sphericalInput pose points
  (hull (l.map Prod.snd)).map fun faces => (l.map Prod.fst, faces)

/-- Which mesh (mesh.py:26-46). -/
inductive Kind
  | perspective
  | fisheye
  | spherical
  deriving DecidableEq

/-- The choice by projection type (mesh.py:26-46); `none` is `NotImplementedError`. -/
def kindOf (projection : String) : Option Kind :=
  if projection ∈ ["perspective", "brown", "radial", "simple_radial"] then some .perspective
  else if projection ∈ ["fisheye", "fisheye_opencv", "fisheye62", "fisheye624", "dual"] then some .fisheye
  else if Verif.CameraIO.isPanorama projection then some .spherical
  else none

/-- What `triangle_mesh` reads of the shot (mesh.py:15-46). -/
structure Shot where
  projection : String
  k : Kmat
  width : ℕ
  height : ℕ
  pose : Pose ℝ

/-- `triangle_mesh` (mesh.py:15-46): the shot when it is in the reconstruction, whether it is in the tracks manager,
its tracks which are points with their projections. -/
noncomputable def triangleMesh (delaunay : List (ℝ × ℝ) → Option (List Face))
    (hull : List (V3 ℝ) → Option (List Face)) (shot : Option Shot) (inTracks : Bool)
    (seen : List (V3 ℝ × Option (ℝ × ℝ))) : Option (List (V3 ℝ) × List Face) :=
  match shot, inTracks with
  | some s, true =>
    match kindOf s.projection with
    | some .perspective => perspective delaunay s.k s.width s.height s.pose seen
    | some .fisheye => fisheye hull s.pose (seen.map Prod.fst)
    | some .spherical => spherical hull s.pose (seen.map Prod.fst)
    | none => none
  | _, _ => some ([], [])

end Verif.Mesh
