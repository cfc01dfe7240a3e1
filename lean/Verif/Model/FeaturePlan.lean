import Mathlib.Analysis.SpecialFunctions.Log.Base
import Mathlib.Algebra.BigOperators.Group.List.Basic

/-!
# The memory plan of feature extraction

The beginning of `run_features_processing`, `average_image_size` and `average_processing_size`
(`/repo/opensfm/features_processing.py` 47-77, 112-131). Numbers are reals (doubles in the code); what the
queue and the processes do is `Model/FeatureQueue.lean`.
-/
noncomputable section
namespace Verif.FeaturePlan

/-- What a camera adds (114-115): 4 bytes a pixel, in MB. -/
def cameraSize (c : ℕ × ℕ) : ℝ := c.1 * c.2 * 4 / 1024 / 1024

/-- `average_image_size` (112-116), for the (width, height) of the camera models. -/
def averageImageSize (cams : List (ℕ × ℕ)) : ℝ :=
  cams.foldl (fun acc c => acc + cameraSize c) 0 / max 1 cams.length

/-- One octave (128-130): the total and the size of the octave. -/
def octaveStep (a : ℝ × ℝ) : ℝ × ℝ := (a.1 + a.2 * 3, a.2 / 2)

/-- The loop over the octaves (127-131). -/
def octaves : ℕ → ℝ × ℝ → ℝ × ℝ
  | 0, a => a
  | n + 1, a => octaves n (octaveStep a)

/-- `average_processing_size` (119-131) of `feature_process_size`; `none`: `math.log2` raises for 0 and below. -/
def averageProcessingSize (p : ℤ) : Option ℝ :=
  if p ≤ 0 then none
  else
    let last := ⌊Real.logb 2 ((p : ℝ) / 16)⌋
    some (octaves (last + 1).toNat (0, (p : ℝ) * p * 4 / 1024 / 1024)).1

/-- `int(x)`: towards zero. -/
def pyInt (x : ℝ) : ℤ := if 0 ≤ x then ⌊x⌋ else ⌈x⌉

/-- A division that raises for 0. -/
def pyDiv (x y : ℝ) : Option ℝ := if y = 0 then none else some (x / y)

/-- `data.config.get(k) or v`: a missing (`None`) or zero value gives the other. -/
def orElse (x : Option ℝ) (v : ℝ) : ℝ :=
  match x with
  | some y => if y = 0 then v else y
  | none => v

/-- `mem_ceiling` (52): the memory in MB, or 0 if it is unknown. -/
def memory (ceiling available : Option ℝ) : ℝ := orElse ceiling (orElse available 0)

/-- The size of the queue and the number of processes (49-73); `none`: an exception. -/
def plan (ceiling ratio available : Option ℝ) (processes : ℤ) (cams : List (ℕ × ℕ)) (processSize : ℤ) : Option (ℤ × ℤ) :=
  let mem := memory ceiling available
  if mem = 0 then some (10, processes)
  else
    let expected := mem * orElse ratio 0.9 / 2
    match pyDiv expected (averageImageSize cams) with
    | none => none
    | some q =>
      match averageProcessingSize processSize with
      | none => none
      | some s =>
        match pyDiv expected s with
        | none => none
        | some n => some (min 200 (pyInt q), min (max 1 (pyInt n)) processes)

/-- `queue.Queue(size)` with n items in it: `put` waits exactly when this is true (a size of 0 or less is no limit). -/
def queueFull (size : ℤ) (n : ℕ) : Bool := decide (0 < size ∧ size ≤ n)

end Verif.FeaturePlan
