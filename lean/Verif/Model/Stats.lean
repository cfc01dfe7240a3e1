import Verif.Model.MapCopy
import Mathlib.Data.Real.Sqrt
import Mathlib.Data.Rat.Floor
import Mathlib.Data.List.Sort
import Mathlib.Algebra.Order.Field.Rat
import Mathlib.Algebra.BigOperators.Group.List.Basic

/-!
# The statistics of the report

`/repo/opensfm/stats.py`. A reconstruction is the map of `MapCopy`: landmarks with the shots that see
them, shots, cameras, biases. Numbers that Python gets by dividing integers are rationals; errors are
reals. The histograms of numpy, the drawings, and the date are left out.
-/
namespace Verif.Stats
open Verif.MapCopy

variable {Id A X C K B P D M R : Type} [DecidableEq Id]

/-- `hist[k] += n` of a `defaultdict(int)` (stats.py:30, 35, 230). -/
def bump {J : Type} [DecidableEq J] (h : Dict J ℕ) (k : J) (n : ℕ) : Dict J ℕ := h.set k ((h.get? k).getD 0 + n)

/-- The length of the track of a point (stats.py:32-34): a point without observations asks the tracks
manager, which raises for an unknown track. -/
def trackLength (tm : TM Id Id (Ob A)) (e : Id × FLm Id X C) : Option ℕ :=
  if e.2.obs.length = 0 then
    match tm.getTrackObservations e.1 with
    | .error _ => none
    | .ok d => some d.length
  else some e.2.obs.length

/-- One point of `_length_histogram` (stats.py:31-35). -/
def lengthStep (tm : TM Id Id (Ob A)) (h : Dict ℕ ℕ) (e : Id × FLm Id X C) : Option (Dict ℕ ℕ) :=
  (trackLength tm e).map fun n => bump h n 1

/-- `_length_histogram` (stats.py:27-37). -/
def lengthHistogram (tm : TM Id Id (Ob A)) (points : Dict Id (FLm Id X C)) : Option (Dict ℕ ℕ) :=
  points.foldlM (lengthStep tm) []

/-- Adding a histogram to another (stats.py:228-230). -/
def addHistogram (agg h : Dict ℕ ℕ) : Dict ℕ ℕ := h.foldl (fun a e => bump a e.1 e.2) agg

/-- One reconstruction of the loop (stats.py:219-230). -/
def aggregateStep (tm : TM Id Id (Ob A)) (agg : Dict ℕ ℕ) (r : FMap Id A X C K B P D M R) : Option (Dict ℕ ℕ) :=
  (lengthHistogram tm r.landmarks).map (addHistogram agg)

/-- The histogram of all the reconstructions (stats.py:216-230). -/
def aggregate (tm : TM Id Id (Ob A)) (recs : List (FMap Id A X C K B P D M R)) : Option (Dict ℕ ℕ) :=
  recs.foldlM (aggregateStep tm) []

/-- The counts of `reconstruction_statistics` (stats.py:201-253). -/
structure Report where
  components : ℕ
  hasGps : Bool
  hasGcp : Bool
  initialPoints : ℕ
  initialShots : ℕ
  points : ℕ
  shots : ℕ
  observations : ℕ
  averageLength : ℚ
  averageOverTwo : ℚ
  histogram : Dict ℕ ℕ
  deriving DecidableEq, Repr

/-- `sum(lengths * counts)`. -/
def weighted (h : Dict ℕ ℕ) : ℕ := (h.map fun e => e.1 * e.2).sum

/-- `reconstruction_statistics` without the errors (stats.py:196-253). `hasPosition` says whether a shot has a GPS position,
`gcps` and `images` are how many ground control points and images the dataset has. -/
def reconstructionStatistics (hasPosition : FShot Id A D M → Bool) (gcps images : ℕ) (tm : TM Id Id (Ob A))
    (recs : List (FMap Id A X C K B P D M R)) : Option Report :=
  (aggregate tm recs).map fun agg =>
    let gpsCount := (recs.map fun r => (r.shots.vals.map fun s => if hasPosition s then 1 else 0).sum).sum
    let hist := agg.insertionSort (fun a b => a.1 ≤ b.1)
    let points := (recs.map fun r => r.landmarks.length).sum
    let overTwo : ℕ := ((hist.drop 1).map Prod.snd).sum
    { components := recs.length
      hasGps := decide (2 < gpsCount)
      hasGcp := decide (gcps ≠ 0)
      initialPoints := tm.numTracks
      initialShots := images
      points := points
      shots := (recs.map fun r => r.shots.length).sum
      observations := weighted hist
      averageLength := if 0 < points then (weighted hist : ℚ) / points else -1
      averageOverTwo := if 0 < overTwo then (weighted (hist.drop 1) : ℚ) / overTwo else -1
      histogram := hist }

/-! ### Reprojection errors -/

/-- `_norm2d` (stats.py:23-24). -/
noncomputable def norm2d (p : ℝ × ℝ) : ℝ := Real.sqrt (p.1 * p.1 + p.2 * p.2)

/-- `RESIDUAL_PIXEL_CUTOFF` (stats.py:20). -/
def cutoff : ℝ := 4

/-- The three sums and the three lists (stats.py:146-147). -/
structure Acc where
  sumNormalized : ℝ := 0
  sumPixels : ℝ := 0
  sumAngular : ℝ := 0
  normalized : List ℝ := []
  pixels : List ℝ := []
  angular : List ℝ := []

/-- One observation (stats.py:168-179); an angular error that is not a number is `none`. -/
noncomputable def projectionStep (normalizer : ℝ) (acc : Acc) (e : (ℝ × ℝ) × (ℝ × ℝ) × Option ℝ) : Acc :=
  let p := norm2d (e.2.1.1 * normalizer, e.2.1.2 * normalizer)
  let n := norm2d e.1
  match e.2.2 with
  | none => acc
  | some a =>
    if cutoff < p then acc
    else
      { sumNormalized := acc.sumNormalized + n
        sumPixels := acc.sumPixels + p
        sumAngular := acc.sumAngular + a
        normalized := acc.normalized ++ [n]
        pixels := acc.pixels ++ [p]
        angular := acc.angular ++ [a] }

/-- The three kinds of errors of an observation of a landmark by a shot of the reconstruction (C110), and the size of an image. -/
structure Errors (Id A X C K B P D M R : Type) where
  normalized : FMap Id A X C K B P D M R → FShot Id A D M → FLm Id X C → Ob A → ℝ × ℝ
  pixel : FMap Id A X C K B P D M R → FShot Id A D M → FLm Id X C → Ob A → ℝ × ℝ
  angular : FMap Id A X C K B P D M R → FShot Id A D M → FLm Id X C → Ob A → Option ℝ
  width : K → ℝ
  height : K → ℝ

/-- One shot (stats.py:159-179): a shot, a camera or a dictionary that is not there raises. -/
noncomputable def projectionShot (es : Errors Id A X C K B P D M R) (r : FMap Id A X C K B P D M R)
    (pixels : Dict Id (Dict Id (ℝ × ℝ))) (angulars : Dict Id (Dict Id (Option ℝ))) (acc : Acc)
    (e : Id × Dict Id (ℝ × ℝ)) : Option Acc :=
  match r.shots.get? e.1, pixels.get? e.1, angulars.get? e.1 with
  | some sh, some dp, some da =>
    match r.cameras.get? sh.camera with
    | none => none
    | some k => some ((e.2.vals.zip (dp.vals.zip da.vals)).foldl (projectionStep (max (es.width k) (es.height k))) acc)
  | _, _, _ => none

/-- One reconstruction (stats.py:148-179). -/
noncomputable def projectionRec (es : Errors Id A X C K B P D M R) (tm : TM Id Id (Ob A)) (acc : Acc)
    (r : FMap Id A X C K B P D M R) : Option Acc :=
  (reprojectionErrors (es.normalized r) r tm).foldlM
    (projectionShot es r (reprojectionErrors (es.pixel r) r tm) (reprojectionErrors (es.angular r) r tm)) acc

/-- `_projection_error` (stats.py:143-193) without the histograms: the averages of the normalised, pixel and angular errors. -/
noncomputable def projectionError (es : Errors Id A X C K B P D M R) (tm : TM Id Id (Ob A))
    (recs : List (FMap Id A X C K B P D M R)) : Option (ℝ × ℝ × ℝ) :=
  (recs.foldlM (projectionRec es tm) ({} : Acc)).map fun acc =>
    if acc.normalized.length = 0 then (-1, -1, -1)
    else (acc.sumNormalized / acc.normalized.length, acc.sumPixels / acc.normalized.length,
      acc.sumAngular / acc.normalized.length)

/-! ### Times and area -/

/-- The content of a report of a step that `processing_statistics` reads (stats.py:299-311). -/
structure StepReport where
  wallTime : Option ℚ
  wallTimes : Option (Dict String ℚ)

/-- The time of a step (stats.py:300-311); `none` is a missing file. -/
def stepTime : Option StepReport → ℚ
  | none => -1
  | some r =>
    match r.wallTime, r.wallTimes with
    | some t, _ => t
    | none, some d => d.vals.sum
    | none, none => -1

/-- `steps_times["Total Time"]` (stats.py:315-317). -/
def totalTime (steps : List (Option StepReport)) : ℚ := ((steps.map stepTime).filter fun x => decide (0 ≤ x)).sum

/-- `default_max` (stats.py:328). -/
def defaultMax : ℚ := 10 ^ 30

/-- One shot of the loop over the origins (stats.py:330-336): min x, min y, max x, max y. -/
def boxStep (b : ℚ × ℚ × ℚ × ℚ) (o : ℚ × ℚ) : ℚ × ℚ × ℚ × ℚ :=
  (min b.1 o.1, min b.2.1 o.2, max b.2.2.1 o.1, max b.2.2.2 o.2)

/-- `stats["area"]` (stats.py:328-338). -/
def area (origins : List (ℚ × ℚ)) : ℚ :=
  let b := origins.foldl boxStep (defaultMax, defaultMax, 0, 0)
  if b.1 ≠ defaultMax then (b.2.2.1 - b.1) * (b.2.2.2 - b.2.1) else -1

/-! ### Features -/

/-- The middle of a sorted list as `int(np.median(...))`. -/
def median (l : List ℕ) : ℕ :=
  let s := l.insertionSort (· ≤ ·)
  if l.length % 2 = 1 then s.getD (l.length / 2) 0
  else (s.getD (l.length / 2 - 1) 0 + s.getD (l.length / 2) 0) / 2

/-- `min`, `max`, `mean`, `median`. -/
structure Summary where
  min : ℤ
  max : ℤ
  mean : ℤ
  median : ℤ
  deriving DecidableEq, Repr

/-- The summary of a list of counts (stats.py:353-363, 377-382). -/
def summary (l : List ℕ) : Summary :=
  match l with
  | [] => ⟨-1, -1, -1, -1⟩
  | x :: t => ⟨(t.foldl Nat.min x : ℕ), (t.foldl Nat.max x : ℕ), (l.sum / l.length : ℕ), (Stats.median l : ℕ)⟩

/-- One shot of a reconstruction (stats.py:369-374). -/
def featureShot (tm : TM Id Id (Ob A)) (r : FMap Id A X C K B P D M R) (acc : Dict Id ℕ) (s : Id) : Dict Id ℕ :=
  match tm.getShotObservations s with
  | .error _ => acc
  | .ok d => d.keys.foldl (fun a l => if r.landmarks.has l then bump a s 1 else a) acc

/-- `per_shots` (stats.py:365-375). -/
def perShots (tm : TM Id Id (Ob A)) (recs : List (FMap Id A X C K B P D M R)) : Dict Id ℕ :=
  recs.foldl (fun acc r => r.shots.keys.foldl (featureShot tm r) acc) []

/-- `stats["reconstructed_features"]` (stats.py:365-382). -/
def reconstructedFeatures (tm : TM Id Id (Ob A)) (recs : List (FMap Id A X C K B P D M R)) : Summary :=
  summary (perShots tm recs).vals

end Verif.Stats
