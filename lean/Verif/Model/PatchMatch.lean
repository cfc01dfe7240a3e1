import Verif.Model.Depthmap

/-!
Model of `DepthmapEstimator` (/repo/opensfm/src/dense/src/depthmap.cc:134-490).

Simplifications: numbers are exact reals; the outcomes of random draws are arbitrary functions given as arguments; a
matrix is a function of row and column and has its initial value outside the image.
-/
namespace Verif.PatchMatch
open Verif.Depthmap

/-- One pixel of the four matrices of `DepthmapEstimatorResult` (depthmap.h:51-56). -/
@[ext] structure Px where
  depth : ℝ
  plane : V3
  score : ℝ
  nghbr : ℕ

/-- Result: the value of each pixel in row `i` and column `j`. -/
abbrev Res := ℤ → ℤ → Px

/-- The members of `DepthmapEstimator` (depthmap.h:94-112). -/
structure Est where
  views : ℕ → View
  images : ℕ → Img
  /-- `images_.size()` -/
  count : ℕ
  /-- `masks_[0]` -/
  mask : ℤ → ℤ → ℕ
  patch : ℕ
  minVariance : ℝ
  minDepth : ℝ
  maxDepth : ℝ
  numPlanes : ℕ
  iterations : ℕ

/-- `(patch_size_ - 1) / 2`. -/
def Est.hpz (e : Est) : ℕ := (e.patch - 1) / 2

/-- Integers from `a` up to but not including `b`. -/
def intRange (a b : ℤ) : List ℤ := (List.range (b - a).toNat).map (fun k : ℕ => a + k)

/-- The loop `for i = hpz .. rows - hpz - 1, for j = hpz .. cols - hpz - 1` (depthmap.cc:189-190, 244-245, 264-265, 292-293). -/
def Est.pixels (e : Est) : List (ℤ × ℤ) :=
  (intRange e.hpz ((e.images 0).rows - e.hpz)).flatMap (fun i : ℤ =>
    (intRange e.hpz ((e.images 0).cols - e.hpz)).map (fun j : ℤ => (i, j)))

/-- A pixel set by `AssignMatrices` (depthmap.cc:233-239). -/
def emptyPx : Px := ⟨0, fun _ => 0, 0, 0⟩

/-- `AssignMatrices` (depthmap.cc:233-239). -/
def empty : Res := fun _ _ => emptyPx

open Classical in
/-- `AssignPixel` (depthmap.cc:403-411). -/
noncomputable def assign (r : Res) (i j : ℤ) (p : Px) : Res := fun a b => if a = i ∧ b = j then p else r a b

/-- `ComputePlaneImageScore` (depthmap.cc:426-465). -/
noncomputable def Est.imageScore (e : Est) (i j : ℤ) (plane : V3) (other : ℕ) : ℝ :=
  patchScore (e.images 0) (e.images other)
    (homographyBaked (e.views 0).K⁻¹ (bakedQ (e.views 0) (e.views other)) (bakedA (e.views 0) (e.views other))
      (e.views other).K plane) e.hpz i j

/-- One round of the loop of `ComputePlaneScore` (depthmap.cc:417-423), for the images 1, 2, ... -/
noncomputable def Est.scoreStep (e : Est) (i j : ℤ) (plane : V3) (acc : ℝ × ℕ) (k : ℕ) : ℝ × ℕ :=
  if e.imageScore i j plane (k + 1) > acc.1 then (e.imageScore i j plane (k + 1), k + 1) else acc

/-- `ComputePlaneScore` (depthmap.cc:413-424): score and neighbor. -/
noncomputable def Est.planeScore (e : Est) (i j : ℤ) (plane : V3) : ℝ × ℕ :=
  (List.range (e.count - 1)).foldl (e.scoreStep i j plane) (-1, 0)

/-- `CheckPlaneCandidate` (depthmap.cc:381-391). -/
noncomputable def Est.checkAll (e : Est) (r : Res) (i j : ℤ) (plane : V3) : Res :=
  if (e.planeScore i j plane).1 > (r i j).score then
    assign r i j ⟨depthOfPlane j i (e.views 0).K plane, plane, (e.planeScore i j plane).1, (e.planeScore i j plane).2⟩
  else r

/-- `CheckPlaneImageCandidate` (depthmap.cc:393-401). -/
noncomputable def Est.checkOne (e : Est) (r : Res) (i j : ℤ) (plane : V3) (nghbr : ℕ) : Res :=
  if e.imageScore i j plane nghbr > (r i j).score then
    assign r i j ⟨depthOfPlane j i (e.views 0).K plane, plane, e.imageScore i j plane nghbr, nghbr⟩
  else r

/-- The choice by `sample` between both (depthmap.cc:330-335, 357-361). -/
noncomputable def Est.check (e : Est) (sample : Bool) (r : Res) (i j : ℤ) (plane : V3) (nghbr : ℕ) : Res :=
  if sample then e.checkOne r i j plane nghbr else e.checkAll r i j plane

/-! ### Brute force -/

/-- The depth of the `d`-th plane (depthmap.cc:192-198). -/
noncomputable def Est.sweepDepth (e : Est) (d : ℕ) : ℝ :=
  if e.numPlanes ≤ 1 then e.minDepth
  else 1 / (1 / e.minDepth + d * (1 / e.maxDepth - 1 / e.minDepth) / (e.numPlanes - 1))

/-- The `d`-th plane tried at a pixel (depthmap.cc:188, 199). -/
noncomputable def Est.sweepPlane (e : Est) (i j : ℤ) (d : ℕ) : V3 :=
  planeFrom j i (e.views 0).K (e.sweepDepth d) ![0, 0, -1]

/-- The `d`-th round at a pixel (depthmap.cc:191-201). -/
noncomputable def Est.bruteStep (e : Est) (i j : ℤ) (r : Res) (d : ℕ) : Res := e.checkAll r i j (e.sweepPlane i j d)

/-- All rounds at a pixel. -/
noncomputable def Est.brutePixel (e : Est) (r : Res) (p : ℤ × ℤ) : Res :=
  (List.range e.numPlanes).foldl (e.bruteStep p.1 p.2) r

/-- `ComputeBruteForce` (depthmap.cc:184-204). -/
noncomputable def Est.bruteForce (e : Est) : Res := e.pixels.foldl e.brutePixel empty

/-! ### Patch match -/

/-- The random outcomes at one pixel of `RandomInitialization` (depthmap.cc:246-252): depth, normal, neighbor. -/
structure InitDraw where
  depth : ℝ
  nx : ℝ
  ny : ℝ
  nghbr : ℕ

/-- The first plane of a pixel (depthmap.cc:247-248). -/
noncomputable def Est.initPlane (e : Est) (w : ℤ → ℤ → InitDraw) (i j : ℤ) : V3 :=
  planeFrom j i (e.views 0).K (w i j).depth ![(w i j).nx, (w i j).ny, -1]

/-- The first value of a pixel (depthmap.cc:246-257). -/
noncomputable def Est.initPx (e : Est) (sample : Bool) (w : ℤ → ℤ → InitDraw) (i j : ℤ) : Px :=
  if sample then
    ⟨(w i j).depth, e.initPlane w i j, e.imageScore i j (e.initPlane w i j) (w i j).nghbr, (w i j).nghbr⟩
  else
    ⟨(w i j).depth, e.initPlane w i j, (e.planeScore i j (e.initPlane w i j)).1, (e.planeScore i j (e.initPlane w i j)).2⟩

/-- One pixel of `RandomInitialization`. -/
noncomputable def Est.initStep (e : Est) (sample : Bool) (w : ℤ → ℤ → InitDraw) (r : Res) (p : ℤ × ℤ) : Res :=
  assign r p.1 p.2 (e.initPx sample w p.1 p.2)

/-- `RandomInitialization` (depthmap.cc:241-260). -/
noncomputable def Est.initialize (e : Est) (sample : Bool) (w : ℤ → ℤ → InitDraw) (r : Res) : Res :=
  e.pixels.foldl (e.initStep sample w) r

/-- `Variance` (depthmap.cc:32-44). -/
noncomputable def variance (l : List ℝ) : ℝ :=
  (l.map (fun x => (x - l.sum / l.length) * (x - l.sum / l.length))).sum / l.length

/-- The content of the buffer of `PatchVariance` (depthmap.cc:275-286): the patch, then zeros up to `patch_size_²`
values, because `resize` fills with zeros and only the patch is ever written. Simplification: the patch size is not
changed between two computations. -/
def Est.buffer (e : Est) (i j : ℤ) : List ℝ :=
  (offsets e.hpz).flatMap (fun u : ℤ => (offsets e.hpz).map (fun v : ℤ => (e.images 0).at' (i + u) (j + v))) ++
    List.replicate (e.patch * e.patch - (2 * e.hpz + 1) * (2 * e.hpz + 1)) 0

/-- The condition of `ComputeIgnoreMask` (depthmap.cc:266-268). -/
def Est.ignored (e : Est) (i j : ℤ) : Prop := e.mask i j = 0 ∨ variance (e.buffer i j) < e.minVariance

open Classical in
/-- One pixel of `ComputeIgnoreMask`. -/
noncomputable def Est.ignoreStep (e : Est) (r : Res) (p : ℤ × ℤ) : Res :=
  if e.ignored p.1 p.2 then assign r p.1 p.2 emptyPx else r

/-- `ComputeIgnoreMask` (depthmap.cc:262-273). -/
noncomputable def Est.ignore (e : Est) (r : Res) : Res := e.pixels.foldl e.ignoreStep r

/-- The random outcomes at one pixel of one pass (depthmap.cc:344-354, 372-375): for each of six rounds three normal
variates; and the outcome of the loop that draws another neighbor than the given one. -/
structure Draw where
  g : ℕ → ℝ × ℝ × ℝ
  other : ℕ → ℕ

/-- One round of the loop over adjacent pixels (depthmap.cc:319-336). -/
noncomputable def Est.propagate (e : Est) (sample : Bool) (i j : ℤ) (r : Res) (a : ℤ × ℤ) : Res :=
  if (r (i + a.1) (j + a.2)).depth = 0 then r
  else e.check sample r i j (r (i + a.1) (j + a.2)).plane (r (i + a.1) (j + a.2)).nghbr

/-- The random plane of round `k` for the pixel `p` (depthmap.cc:339-356, 363-364). -/
noncomputable def Est.perturbed (e : Est) (d : Draw) (i j : ℤ) (p : Px) (k : ℕ) : V3 :=
  planeFrom j i (e.views 0).K (p.depth * Real.exp ((2 / 100) * (3 / 10) ^ k * (d.g k).1))
    ![-p.plane 0 / p.plane 2 + (5 / 10) * (8 / 10) ^ k * (d.g k).2.1,
      -p.plane 1 / p.plane 2 + (5 / 10) * (8 / 10) ^ k * (d.g k).2.2, -1]

/-- One round of the loop over random planes (depthmap.cc:342-365). -/
noncomputable def Est.perturb (e : Est) (sample : Bool) (d : Draw) (i j : ℤ) (nghbr : ℕ) (r : Res) (k : ℕ) : Res :=
  if (r i j).plane 2 = 0 then r else e.check sample r i j (e.perturbed d i j (r i j) k) nghbr

/-- The last part of `PatchMatchUpdatePixel` (depthmap.cc:367-378). -/
noncomputable def Est.tryOther (e : Est) (sample : Bool) (d : Draw) (i j : ℤ) (nghbr : ℕ) (r : Res) : Res :=
  if sample = false ∨ e.count ≤ 2 then r else e.checkOne r i j (r i j).plane (d.other nghbr)

/-- `PatchMatchUpdatePixel` (depthmap.cc:310-379). -/
noncomputable def Est.update (e : Est) (sample : Bool) (adjacent : List (ℤ × ℤ)) (d : ℤ → ℤ → Draw) (r : Res)
    (p : ℤ × ℤ) : Res :=
  if (r p.1 p.2).depth = 0 then r
  else
    let r1 := adjacent.foldl (e.propagate sample p.1 p.2) r
    let nghbr := (r1 p.1 p.2).nghbr
    let r2 := (List.range 6).foldl (e.perturb sample (d p.1 p.2) p.1 p.2 nghbr) r1
    e.tryOther sample (d p.1 p.2) p.1 p.2 nghbr r2

/-- `PatchMatchForwardPass` (depthmap.cc:288-297). -/
noncomputable def Est.forward (e : Est) (sample : Bool) (d : ℤ → ℤ → Draw) (r : Res) : Res :=
  e.pixels.foldl (e.update sample [(-1, 0), (0, -1)] d) r

/-- `PatchMatchBackwardPass` (depthmap.cc:299-308): the pixels in the opposite order. -/
noncomputable def Est.backward (e : Est) (sample : Bool) (d : ℤ → ℤ → Draw) (r : Res) : Res :=
  e.pixels.reverse.foldl (e.update sample [(0, 1), (1, 0)] d) r

/-- The loop of `ComputePatchMatch` (depthmap.cc:211-214, 225-228) after `k` rounds, with the outcomes `d k` of the
forward pass and `d' k` of the backward pass. -/
noncomputable def Est.rounds (e : Est) (sample : Bool) (d d' : ℕ → ℤ → ℤ → Draw) (r : Res) : ℕ → Res
  | 0 => r
  | k + 1 => e.backward sample (d' k) (e.forward sample (d k) (e.rounds sample d d' r k))

/-- The state before the rounds (depthmap.cc:207-209, 221-223). -/
noncomputable def Est.start (e : Est) (sample : Bool) (w : ℤ → ℤ → InitDraw) : Res :=
  e.ignore (e.initialize sample w empty)

/-! ### Post-processing -/

/-- An index moved into `0 .. n - 1` (the border of `cv::medianBlur` replicates the image). -/
def clampTo (n i : ℤ) : ℤ := max 0 (min (n - 1) i)

/-- The 25 values around a pixel. -/
noncomputable def Est.window (e : Est) (r : Res) (i j : ℤ) : List ℝ :=
  (offsets 2).flatMap (fun u : ℤ => (offsets 2).map (fun v : ℤ =>
    (r (clampTo (e.images 0).rows (i + u)) (clampTo (e.images 0).cols (j + v))).depth))

open Classical in
/-- The median of an odd number of values. -/
noncomputable def median (l : List ℝ) : ℝ := (l.mergeSort (fun a b => decide (a ≤ b))).getD (l.length / 2) 0

/-- `PostProcess` (depthmap.cc:477-490), with `cv::medianBlur(..., 5)` as the median of the 25 values. -/
noncomputable def Est.postProcess (e : Est) (r : Res) : Res := fun i j =>
  if (r i j).depth = 0 ∨ |(r i j).depth - median (e.window r i j)| / (r i j).depth > 5 / 100 then
    { r i j with depth := 0 }
  else r i j

/-- `ComputePatchMatch` and `ComputePatchMatchSample` (depthmap.cc:206-231). -/
noncomputable def Est.patchMatch (e : Est) (sample : Bool) (w : ℤ → ℤ → InitDraw) (d d' : ℕ → ℤ → ℤ → Draw) : Res :=
  e.postProcess (e.rounds sample d d' (e.start sample w) e.iterations)

/-- The depth saved by `compute_depthmap` (dense.py:133-134). -/
noncomputable def Est.savedDepth (e : Est) (minScore : ℝ) (p : Px) : ℝ :=
  p.depth * (if p.depth < e.maxDepth then 1 else 0) * (if p.score > minScore then 1 else 0)

end Verif.PatchMatch
