import Mathlib.Algebra.Order.Field.Basic
import Mathlib.Data.List.Sort

/-!
# Robust estimation

`/repo/opensfm/src/robust/robust_estimator.h` (`ShouldStop` 20-35, `Estimate` 37-119),
`scorer.h` (`RansacScoring`, `MSacScoring`, `LMedSScoring`) and `random_sampler.h`
(`GetRandomSamples`, `GenerateOneSample`).

Models and data are arbitrary types, the minimal and non minimal estimators arbitrary functions from
the drawn data to a list of models, `err` the norm of the error of a datum. Numbers are in an
arbitrary ordered field (the code uses doubles). `ShouldStop`'s use of `log`/`pow` is an arbitrary
Boolean function of the number of inliers, of samples and of the iteration.
-/
namespace Verif.Robust

/-- The random generator with `uniform_int_distribution(0, m)`. -/
structure Rng (ρ : Type) where
  next : ρ → Nat → Nat × ρ
  inRange : ∀ r m, (next r m).1 ≤ m

variable {ρ M D F : Type}

/-- The `do ... while` loop of `GenerateOneSample` (random_sampler.h 33-36); `none`: still looping
after `fuel` draws. -/
def genIndex (g : Rng ρ) (m : Nat) (prev : List Nat) : Nat → ρ → Option (Nat × ρ)
  | 0, _ => none
  | fuel + 1, r =>
    if (g.next r m).1 ∈ prev then genIndex g m prev fuel (g.next r m).2
    else some (g.next r m)

/-- `GenerateOneSample(size, range_max)` (random_sampler.h 28-39). -/
def genSample (g : Rng ρ) (m : Nat) (fuel : Nat) : Nat → List Nat → ρ → Option (List Nat × ρ)
  | 0, prev, r => some (prev, r)
  | n + 1, prev, r =>
    match genIndex g m prev fuel r with
    | none => none
    | some (v, r') => genSample g m fuel n (prev ++ [v]) r'

/-- `GetRandomSamples(samples, size)` (random_sampler.h 12-25). With no sample the range is
`(0, -1)`, which is undefined behaviour: `none`. -/
def getSamples (g : Rng ρ) (fuel : Nat) (samples : List D) (size : Nat) (r : ρ) :
    Option (List D × ρ) :=
  if samples.length = 0 then
    if size = 0 then some ([], r) else none
  else
    match genSample g (samples.length - 1) fuel size [] r with
    | none => none
    | some (idx, r') => some (idx.filterMap (fun i => samples[i]?), r')

/-- What a scorer computes from the error norms: score and inlier indices. -/
abbrev Scorer (F : Type) := List F → F × List Nat

/-- Indices (from `i`) of the elements satisfying `p`, in order. -/
def indicesFrom (p : F → Bool) : Nat → List F → List Nat
  | _, [] => []
  | i, x :: t => if p x then i :: indicesFrom p (i + 1) t else indicesFrom p (i + 1) t

variable [Field F] [LinearOrder F]

/-- `RansacScoring::Score` (scorer.h 21-38): count of norms strictly below the threshold. -/
def ransacScore (thr : F) : Scorer F := fun es =>
  let inl := indicesFrom (fun e => decide (e < thr)) 0 es
  ((inl.length : F), inl)

/-- `MSacScoring::Score` (scorer.h 61-84); `eps` is `1e-8`. -/
def msacScore (eps thr : F) : Scorer F := fun es =>
  let inl := indicesFrom (fun e => decide (e ≤ thr)) 0 es
  (1 / ((es.map (fun e => if e ≤ thr then e * e else thr * thr)).sum + eps), inl)

/-- `ComputeMedian` with `nth_ = 0.5` (scorer.h 40-59): the element of rank `count / 2`. -/
def median (es : List F) : F := ((es.insertionSort (· ≤ ·))[es.length / 2]?).getD 0

/-- `LMedSScoring::Score` (scorer.h 86-113); `c` is `1.4826`. -/
def lmedsScore (eps c multiplier : F) : Scorer F := fun es =>
  let med := median es
  (1 / (med + eps), indicesFrom (fun e => decide (e ≤ multiplier * (c * med))) 0 es)

/-- `ScoreInfo` (scorer.h 6-19); the models are uninitialised at first. -/
structure ScoreInfo (M F : Type) where
  score : F
  inliers : List Nat
  model : Option M
  loModel : Option M

/-- `std::max(a, b)` with `operator<` on the scores: `b` only if `a < b`. -/
def better (a b : ScoreInfo M F) : ScoreInfo M F := if a.score < b.score then b else a

/-- Parameters of a run. -/
structure Problem (M D F : Type) where
  samples : List D
  err : M → D → F
  scorer : Scorer F
  /-- `MODEL::MINIMAL_SAMPLES` -/
  minimal : Nat
  estimate : List D → List M
  estimateNonMinimal : List D → List M
  /-- the numerical part of `ShouldStop` -/
  stop : Nat → Nat → Nat → Bool
  iterations : Nat
  useLO : Bool
  useReduction : Bool
  loIterations : Nat

/-- State of a run; `trace` (ghost) lists what was scored: model, score and inliers; `drawn` (ghost)
counts the minimal samples drawn. -/
structure State (ρ M F : Type) where
  best : ScoreInfo M F
  rng : ρ
  trace : List (M × F × List Nat)
  drawn : Nat

/-- `EvaluateModel` then `scorer.Score` (robust_estimator.h 57-63, 98-104; model.h 15-24). -/
def scoreOf (p : Problem M D F) (m : M) : F × List Nat := p.scorer (p.samples.map (p.err m))

/-- `ShouldStop` (robust_estimator.h 20-35). -/
def shouldStop (p : Problem M D F) (best : ScoreInfo M F) (i : Nat) : Bool :=
  if p.useReduction then p.stop best.inliers.length p.samples.length i else false

/-- Scoring one model found by local optimisation (robust_estimator.h 97-110). -/
def loScore (p : Problem M D F) (s : State ρ M F) (m : M) : State ρ M F :=
  { s with
    best := better ⟨(scoreOf p m).1, (scoreOf p m).2, s.best.model, some m⟩ s.best
    trace := s.trace ++ [(m, scoreOf p m)] }

/-- Size of the samples of local optimisation (robust_estimator.h 82-87); `int(n * 0.5)` is
`n / 2`. -/
def loSize (p : Problem M D F) (n : Nat) : Nat := max (min 12 (n / 2)) p.minimal

/-- The local optimisation loop (robust_estimator.h 74-111). -/
def loLoop (p : Problem M D F) (g : Rng ρ) (fuel : Nat) : Nat → State ρ M F → Option (State ρ M F)
  | 0, s => some s
  | k + 1, s =>
    match getSamples g fuel (s.best.inliers.filterMap (fun i => p.samples[i]?))
        (loSize p s.best.inliers.length) s.rng with
    | none => none
    | some (ds, r') =>
      loLoop p g fuel k ((p.estimateNonMinimal ds).foldl (loScore p) { s with rng := r' })

/-- Scoring one minimal model, local optimisation included (robust_estimator.h 56-112). -/
def scoreModel (p : Problem M D F) (g : Rng ρ) (fuel : Nat) (s : State ρ M F) (m : M) :
    Option (State ρ M F) :=
  let score : ScoreInfo M F := ⟨(scoreOf p m).1, (scoreOf p m).2, some m, some m⟩
  let best := better score s.best
  let s' : State ρ M F := { s with best := best, trace := s.trace ++ [(m, scoreOf p m)] }
  if score.score = best.score ∧ p.minimal ≤ score.inliers.length ∧ p.useLO = true then
    loLoop p g fuel p.loIterations s'
  else some s'

/-- The loop over the models of one minimal sample (robust_estimator.h 55-116). The Boolean is
`should_stop`. -/
def modelsLoop (p : Problem M D F) (g : Rng ρ) (fuel i : Nat) :
    List M → State ρ M F → Option (State ρ M F × Bool)
  | [], s => some (s, false)
  | m :: rest, s =>
    match scoreModel p g fuel s m with
    | none => none
    | some s' => if shouldStop p s'.best i then some (s', true) else modelsLoop p g fuel i rest s'

/-- The main loop (robust_estimator.h 47-117): `n` iterations left, `i` the iteration number. -/
def mainLoop (p : Problem M D F) (g : Rng ρ) (fuel : Nat) :
    Nat → Nat → State ρ M F → Option (State ρ M F)
  | 0, _, s => some s
  | n + 1, i, s =>
    match getSamples g fuel p.samples p.minimal s.rng with
    | none => none
    | some (ds, r') =>
      match modelsLoop p g fuel i (p.estimate ds) { s with rng := r', drawn := s.drawn + 1 } with
      | none => none
      | some (s', true) => some s'
      | some (s', false) => mainLoop p g fuel n (i + 1) s'

/-- `Estimate` (robust_estimator.h 37-119). -/
def estimate (p : Problem M D F) (g : Rng ρ) (fuel : Nat) (r : ρ) : Option (State ρ M F) :=
  mainLoop p g fuel p.iterations 0 ⟨⟨0, [], none, none⟩, r, [], 0⟩

end Verif.Robust
