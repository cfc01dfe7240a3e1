import Verif.Model.Depthmap

/-!
Model of `DepthmapCleaner` and `DepthmapPruner` (/repo/opensfm/src/dense/src/depthmap.cc:492-633).

Simplifications: numbers are exact reals, so there is no NaN; a matrix is a function of row and column with its size.
-/
namespace Verif.DepthmapMerge
open Matrix Verif.Depthmap

/-- `z_epsilon` (depthmap.cc:8). -/
noncomputable def zEps : ℝ := 1 / 100000000

/-! ### Cleaner -/

/-- A view given to the cleaner (depthmap.cc:503-510). -/
structure CView where
  view : View
  depth : Img

/-- The 3D point of a pixel (depthmap.cc:517-518, 574-581). -/
noncomputable def CView.point (c : CView) (i j : ℤ) : V3 := backproject j i (c.depth.at' i j) c.view

/-- Whether another view counts as consistent with a point (depthmap.cc:521-536). -/
noncomputable def consistent (threshold : ℝ) (x : V3) (o : CView) : Prop :=
  let p := project o.view x
  ¬(p 2 < zEps) ∧ |interpolate o.depth (p 1 / p 2) (p 0 / p 2) - p 2| < p 2 * threshold

open Classical in
/-- `consistent_views` (depthmap.cc:519-537). -/
noncomputable def consistentViews (threshold : ℝ) (first : CView) (others : List CView) (i j : ℤ) : ℕ :=
  others.foldl (fun n o => if consistent threshold (first.point i j) o then n + 1 else n) 1

/-- A pixel of the result of `Clean` (depthmap.cc:512-543), for the views `first :: others`. -/
noncomputable def clean (threshold : ℝ) (minViews : ℤ) (first : CView) (others : List CView) (i j : ℤ) : ℝ :=
  if (consistentViews threshold first others i j : ℤ) ≥ minViews then first.depth.at' i j else 0

/-! ### Pruner -/

/-- A view given to the pruner (depthmap.cc:551-563). -/
structure PView where
  view : View
  depth : Img
  plane : ℤ → ℤ → V3
  color : ℤ → ℤ → ℕ × ℕ × ℕ
  label : ℤ → ℤ → ℕ

/-- `cv::normalize` of a vector. -/
noncomputable def normalize (v : V3) : V3 :=
  let n := Real.sqrt (v 0 ^ 2 + v 1 ^ 2 + v 2 ^ 2)
  if n = 0 then 0 else (1 / n) • v

/-- `static_cast<std::int64_t>` of a number: towards zero. Simplification: the number fits in 64 bits. -/
noncomputable def toInt64 (x : ℝ) : ℤ := if x < 0 then ⌈x⌉ else ⌊x⌋

/-- Conversion of a 64-bit to a 32-bit integer, as the parameters of `IsInsideImage` (depthmap.cc:10) and of
`cv::Mat::at` require. -/
def narrow (x : ℤ) : ℤ := (x + 2 ^ 31) % 2 ^ 32 - 2 ^ 31

/-- `iu` and `iv` (depthmap.cc:589-592) as used to read the image. -/
noncomputable def pixelOf (u : ℝ) : ℤ := narrow (toInt64 (u + 1 / 2))

/-- `-normal(2) / depth * K(0, 0)` (depthmap.cc:580, 603-605). -/
noncomputable def PView.area (v : PView) (i j : ℤ) : ℝ :=
  -(normalize (v.plane i j)) 2 / v.depth.at' i j * v.view.K 0 0

/-- The 3D point of a pixel (depthmap.cc:581). -/
noncomputable def PView.point (v : PView) (i j : ℤ) : V3 := backproject j i (v.depth.at' i j) v.view

/-- The column and row in which a view sees a point. -/
noncomputable def PView.col (o : PView) (x : V3) : ℤ := pixelOf (project o.view x 0 / project o.view x 2)
noncomputable def PView.row (o : PView) (x : V3) : ℤ := pixelOf (project o.view x 1 / project o.view x 2)

/-- Whether another view drops a point with the given area (depthmap.cc:583-612). -/
noncomputable def drops (threshold : ℝ) (area : ℝ) (x : V3) (o : PView) : Prop :=
  ¬(project o.view x 2 < zEps) ∧ o.depth.inside (o.row x) (o.col x) ∧
  o.depth.at' (o.row x) (o.col x) > (1 - threshold) * project o.view x 2 ∧
  (o.depth.at' (o.row x) (o.col x) = 0 ∨ o.area (o.row x) (o.col x) > area)

/-- The condition under which a pixel is kept (depthmap.cc:575-577, 582-613). -/
noncomputable def keeps (threshold : ℝ) (first : PView) (others : List PView) (i j : ℤ) : Prop :=
  ¬(first.depth.at' i j ≤ 0) ∧ ∀ o ∈ others, ¬drops threshold (first.area i j) (first.point i j) o

/-- The four vectors of the result (depthmap.cc:565-568). -/
structure Cloud where
  points : List ℝ := []
  normals : List ℝ := []
  colors : List ℕ := []
  labels : List ℕ := []

open Classical in
/-- One pixel of `Prune` (depthmap.cc:572-629). -/
noncomputable def pruneStep (threshold : ℝ) (first : PView) (others : List PView) (c : Cloud) (p : ℤ × ℤ) : Cloud :=
  if keeps threshold first others p.1 p.2 then
    let x := first.point p.1 p.2
    let n := first.view.Rᵀ *ᵥ normalize (first.plane p.1 p.2)
    let k := first.color p.1 p.2
    ⟨c.points ++ [x 0, x 1, x 2], c.normals ++ [n 0, n 1, n 2], c.colors ++ [k.1, k.2.1, k.2.2],
      c.labels ++ [first.label p.1 p.2]⟩
  else c

/-- The pixels row by row. -/
def allPixels (im : Img) : List (ℤ × ℤ) :=
  (List.range im.rows.toNat).flatMap (fun i : ℕ => (List.range im.cols.toNat).map (fun j : ℕ => ((i : ℤ), (j : ℤ))))

/-- `Prune` (depthmap.cc:565-631), for the views `first :: others`. -/
noncomputable def prune (threshold : ℝ) (first : PView) (others : List PView) : Cloud :=
  (allPixels first.depth).foldl (pruneStep threshold first others) {}

end Verif.DepthmapMerge
