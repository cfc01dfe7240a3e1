import Mathlib.Data.Rat.Cast.Order
import Mathlib.Algebra.Order.Field.Rat

/-!
Model of the order of the steps of `grow_reconstruction` (/repo/opensfm/reconstruction.py:1457-1597) and of
`ShouldBundle` and `ShouldRetriangulate` (reconstruction.py:1410-1454).

The reconstruction, with everything else that may change, is a value of an arbitrary type `W`; every step is an
arbitrary function of it, and every run leaves a journal of the steps with the reconstruction before and after.

Simplifications: exact rational ratios; `interval` is a natural number; reports, memory usage, timers and log
messages are left out; a step that raises ends the program and is not modelled.
-/
namespace Verif.GrowSteps

variable {W Img : Type}

/-- The steps. -/
inductive Act (Img : Type) where
  /-- `paint_reconstruction` -/
  | paint
  /-- `data.save_reconstruction` of a partial reconstruction -/
  | save
  /-- `align_reconstruction`, with `bias_override` -/
  | align (bias : Bool)
  /-- `bundle` of everything: with the ground control points, with `bundle_compensate_gps_bias` -/
  | bundle (gcp compensate : Bool)
  /-- `remove_outliers` of all points -/
  | outliers
  /-- `remove_outliers` of the points of the local bundle -/
  | outliersLocal
  /-- `resect` of an image -/
  | resect (image : Img)
  /-- `bundle_shot_poses` -/
  | shotPoses (new : List Img)
  /-- `triangulate_shot_features` -/
  | triangulate (new : List Img)
  /-- `retriangulate` -/
  | retriangulate
  /-- `bundle_local` around an image -/
  | bundleLocal (image : Img)
  /-- `filter_badly_conditioned_points` -/
  | filterAngles
  /-- `remove_isolated_points` -/
  | filterIsolated
  deriving DecidableEq

/-- A step of the journal. -/
structure Entry (W Img : Type) where
  before : W
  act : Act Img
  after : W

/-- What the steps do, and what is read of a reconstruction. -/
structure Ops (W Img : Type) where
  /-- the effect of a step -/
  exec : Act Img → W → W
  /-- the answer of `align_reconstruction` with `bias_override` (reconstruction.py:1581) -/
  aligned : W → Bool
  /-- `resect`: the new shots when it succeeds -/
  resected : W → Img → Option (List Img)
  /-- `reconstructed_points_for_images` of the remaining images -/
  candidates : W → List Img → List Img
  /-- `images -= new_shots` -/
  minus : List Img → List Img → List Img
  /-- `len(reconstruction.points)` -/
  points : W → ℕ
  /-- `len(reconstruction.shots)` -/
  shots : W → ℕ

/-- The options that are read. -/
structure Config where
  interval : ℕ
  newPointsRatio : ℚ
  retriangulation : Bool
  retriangulationRatio : ℚ
  savePartial : Bool
  localRadius : ℕ
  compensateBias : Bool
  filterFinal : Bool

/-- The reconstruction and the journal. -/
structure Run (W Img : Type) where
  world : W
  journal : List (Entry W Img)

/-- A step. -/
def Run.step (ops : Ops W Img) (r : Run W Img) (a : Act Img) : Run W Img :=
  ⟨ops.exec a r.world, r.journal ++ [⟨r.world, a, ops.exec a r.world⟩]⟩

/-- Steps in order. -/
def Run.steps (ops : Ops W Img) (r : Run W Img) (l : List (Act Img)) : Run W Img := l.foldl (Run.step ops) r

/-- What the two helpers remember: `num_points_last`, `num_shots_last` of `ShouldBundle` and `num_points_last` of
`ShouldRetriangulate` (reconstruction.py:1432-1434, 1453-1454). -/
structure Memory where
  bundlePoints : ℕ
  bundleShots : ℕ
  retriPoints : ℕ

/-- `ShouldBundle.should` (reconstruction.py:1423-1430). -/
def shouldBundle (ops : Ops W Img) (c : Config) (m : Memory) (w : W) : Bool :=
  decide ((m.bundlePoints : ℚ) * c.newPointsRatio ≤ (ops.points w : ℚ)) ||
    decide (m.bundleShots + c.interval ≤ ops.shots w)

/-- `ShouldRetriangulate.should` (reconstruction.py:1449-1451). -/
def shouldRetriangulate (ops : Ops W Img) (c : Config) (m : Memory) (w : W) : Bool :=
  c.retriangulation && decide ((m.retriPoints : ℚ) * c.retriangulationRatio < (ops.points w : ℚ))

/-- `should_bundle.done()` (reconstruction.py:1432-1434). -/
def bundleDone (ops : Ops W Img) (m : Memory) (w : W) : Memory :=
  { m with bundlePoints := ops.points w, bundleShots := ops.shots w }

/-- `should_retriangulate.done()` (reconstruction.py:1453-1454). -/
def retriDone (ops : Ops W Img) (m : Memory) (w : W) : Memory := { m with retriPoints := ops.points w }

/-- What is done after an image is added (reconstruction.py:1510-1571). -/
def settle (ops : Ops W Img) (c : Config) (r : Run W Img) (m : Memory) (image : Img) (new : List Img) :
    Run W Img × Memory :=
  let r := r.steps ops [.shotPoses new, .triangulate new]
  if shouldRetriangulate ops c m r.world then
    let r := r.steps ops [.align false, .bundle false c.compensateBias, .retriangulate, .bundle false c.compensateBias,
      .outliers]
    (r, bundleDone ops (retriDone ops m r.world) r.world)
  else if shouldBundle ops c m r.world then
    let r := r.steps ops [.align false, .bundle false c.compensateBias, .outliers]
    (r, bundleDone ops m r.world)
  else if 0 < c.localRadius then (r.steps ops [.bundleLocal image, .outliersLocal], m)
  else (r, m)

/-- The loop over the candidates until one can be resected (reconstruction.py:1497-1509). -/
def tryCandidates (ops : Ops W Img) (r : Run W Img) : List Img → Run W Img × Option (Img × List Img)
  | [] => (r, none)
  | im :: rest =>
    match ops.resected r.world im with
    | some new => (r.step ops (.resect im), some (im, new))
    | none => tryCandidates ops (r.step ops (.resect im)) rest

/-- Saving a partial reconstruction (reconstruction.py:1482-1489). -/
def savePartial (ops : Ops W Img) (c : Config) (r : Run W Img) : Run W Img :=
  if c.savePartial then r.steps ops [.paint, .save] else r

/-- The loop (reconstruction.py:1481-1577), interrupted after a number of rounds. -/
def loop (ops : Ops W Img) (c : Config) : ℕ → Run W Img → Memory → List Img → Run W Img
  | 0, r, _, _ => r
  | fuel + 1, r, m, images =>
    let r := savePartial ops c r
    match tryCandidates ops r (ops.candidates r.world images) with
    | (r, none) => r
    | (r, some (im, new)) =>
      let s := settle ops c r m im new
      loop ops c fuel s.1 s.2 (ops.minus images new)

/-- The steps before the loop (reconstruction.py:1472-1477). -/
def start (ops : Ops W Img) (c : Config) (w : W) : Run W Img :=
  Run.steps ops ⟨w, []⟩ [.paint, .align false, .bundle false c.compensateBias, .outliers, .paint]

/-- The new helpers (reconstruction.py:1479-1480). -/
def newMemory (ops : Ops W Img) (w : W) : Memory := ⟨ops.points w, ops.shots w, ops.points w⟩

/-- The steps after the loop (reconstruction.py:1580-1596). -/
def finish (ops : Ops W Img) (c : Config) (r : Run W Img) : Run W Img :=
  let ok := ops.aligned r.world
  let r := r.step ops (.align true)
  let compensate := if !ok && c.compensateBias then false else c.compensateBias
  let r := r.steps ops [.bundle true compensate, .outliers]
  let r := if c.filterFinal then r.steps ops [.filterAngles, .filterIsolated] else r
  r.step ops .paint

/-- `grow_reconstruction` (reconstruction.py:1457-1597). -/
def grow (ops : Ops W Img) (c : Config) (fuel : ℕ) (w : W) (images : List Img) : Run W Img :=
  let r := start ops c w
  finish ops c (loop ops c fuel r (newMemory ops r.world) images)

end Verif.GrowSteps
