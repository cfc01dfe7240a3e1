import Mathlib.Analysis.SpecialFunctions.Complex.Arg
import Mathlib.Analysis.SpecialFunctions.Sqrt
import Mathlib.LinearAlgebra.Matrix.NonsingularInverse

/-!
Model of the camera functions of /repo/opensfm/src/geometry: `functions.h` (composition of
functors and of their jacobians), `camera_projections_functions.h`,
`camera_distortions_functions.h`, `transformations_functions.h`, `camera_instances.h`, and of the
residuals built on them (/repo/opensfm/src/bundle/error/projection_errors.h).

Simplifications: numbers are reals (no rounding, no NaN); a division by zero, which is an infinity or
NaN in the code, has Lean's value 0 and is excluded by the hypotheses of the theorems; a parameter
pointer `const T*` is a function `ℕ → ℝ`; a jacobian buffer is a function (row, column); the strides
of the row-major buffers are not modelled except where a comment says so.
-/
set_option linter.unusedSectionVars false
namespace Verif.Camera

/-- A `const T*` parameter pointer. -/
abbrev Ptr := ℕ → ℝ

/-- `parameters + k`. -/
def Ptr.shift (p : Ptr) (k : ℕ) : Ptr := fun i => p (k + i)

/-- A row of a jacobian buffer. -/
def row (l : List ℝ) : ℕ → ℝ := fun c => l.getD c 0

/-- `Functor<IN, P, OUT>` (functions.h:11-20) with its static members: `Forward`,
`ForwardDerivatives<T, true>` (the jacobian part; columns are point then parameters) and `Backward`.
-/
structure Functor (n P m : ℕ) where
  fwd : (Fin n → ℝ) → Ptr → (Fin m → ℝ)
  jac : (Fin n → ℝ) → Ptr → Fin m → ℕ → ℝ
  bwd : (Fin m → ℝ) → Ptr → (Fin n → ℝ)

/-- `std::atan2(y, x)`. -/
noncomputable def atan2 (y x : ℝ) : ℝ := Complex.arg ⟨x, y⟩

/-- `SquaredNorm` (functions.h:6-9): the first two coordinates only. -/
def sqNorm {n : ℕ} (p : Fin (n + 2) → ℝ) : ℝ := p 0 * p 0 + p 1 * p 1

/-- `1e-8`, the threshold of the fisheye projection (camera_projections_functions.h:12,31,73). -/
noncomputable def tiny : ℝ := 1 / 100000000

/-- `std::numeric_limits<double>::epsilon()` = 2^-52. -/
noncomputable def machEps : ℝ := 1 / 4503599627370496

/-! ### Composition (functions.h) -/

/-- `ComposeFunctions<FUNC1, FUNC2>` / `ComposeForwardDerivatives<true, FUNC1, FUNC2>` with
`ComposeDerivatives` (functions.h:28-43, 77-97, 104-111): `f ∘ g`; `g` reads the parameters from the
start and `f` those after `g`'s (`ComposeIndex`). The backward part is not used on compositions. -/
def compose {n k m Pg Pf : ℕ} (f : Functor k Pf m) (g : Functor n Pg k) : Functor n (Pg + Pf) m where
  fwd := fun x p => f.fwd (g.fwd x p) (p.shift Pg)
  jac := fun x p r c =>
    if c < n + Pg then
      ∑ i : Fin k, f.jac (g.fwd x p) (p.shift Pg) r i * g.jac x p i c
    else f.jac (g.fwd x p) (p.shift Pg) r (k + (c - (n + Pg)))
  bwd := fun _ _ _ => 0

/-! ### Newton iterations (foundation/newton_raphson.h) -/

/-- `NewtonRaphson` for one unknown (newton_raphson.h:78-93) with `SolveDecr<1,1>`
(foundation/src/newton_raphson.cc:4-13; a zero derivative gives a zero step, as division by zero does here). The
functor of `DualProjection` counts its calls, hence the step index given to `derivative`. -/
noncomputable def newton1 (f : ℝ → ℝ) (d : ℕ → ℝ → ℝ) (tol : ℝ) : ℕ → ℕ → ℝ → ℝ
  | _, 0, x => x
  | i, fuel + 1, x => if |f x / d i x| < tol then x else newton1 f d tol (i + 1) fuel (x - f x / d i x)

/-- `SolveDecr<2,2>` (newton_raphson.h:62-67). -/
noncomputable def solveDecr2 (d : Matrix (Fin 2) (Fin 2) ℝ) (f : Fin 2 → ℝ) : Fin 2 → ℝ :=
  ((d.transpose * d)⁻¹ * d.transpose).mulVec f

/-- `NewtonRaphson` for two unknowns (newton_raphson.h:78-93). -/
noncomputable def newton2 (f : (Fin 2 → ℝ) → (Fin 2 → ℝ))
    (d : (Fin 2 → ℝ) → Matrix (Fin 2) (Fin 2) ℝ) (tol : ℝ) : ℕ → (Fin 2 → ℝ) → (Fin 2 → ℝ)
  | 0, x => x
  | fuel + 1, x =>
    if Real.sqrt (sqNorm (solveDecr2 (d x) (f x))) < tol then x
    else newton2 f d tol fuel (x - solveDecr2 (d x) (f x))

/-- Default tolerance (newton_raphson.h:81). -/
noncomputable def newtonTol : ℝ := 1 / 1000000

/-! ### Projections (camera_projections_functions.h) -/

/-- `FisheyeProjection` (camera_projections_functions.h:8-85). -/
noncomputable def fisheye : Functor 3 0 2 where
  fwd := fun p _ =>
    if Real.sqrt (sqNorm p) < tiny then ![p 0 / p 2, p 1 / p 2]
    else
      ![atan2 (Real.sqrt (sqNorm p)) (p 2) / Real.sqrt (sqNorm p) * p 0,
        atan2 (Real.sqrt (sqNorm p)) (p 2) / Real.sqrt (sqNorm p) * p 1]
  jac := fun p _ =>
    if Real.sqrt (sqNorm p) < tiny then
      let invZ := 1 / p 2
      let invZ2 := invZ * invZ
      ![row [invZ, 0, -p 0 * invZ2], row [0, invZ, -p 1 * invZ2]]
    else
      let r2 := sqNorm p
      let r := Real.sqrt r2
      let R2 := r2 + p 2 * p 2
      let theta := atan2 r (p 2)
      let x2 := p 0 * p 0
      let y2 := p 1 * p 1
      let z2 := p 2 * p 2
      let invDenom := 1 / (r2 * R2 * r)
      ![row [(x2 * y2 * theta + y2 * y2 * theta + y2 * z2 * theta + x2 * p 2 * r) * invDenom,
             p 0 * (p 1 * p 2 * r - p 1 * theta * R2) * invDenom,
             -p 0 / R2],
        row [p 1 * (p 0 * p 2 * r - p 0 * theta * R2) * invDenom,
             (x2 * y2 * theta + x2 * x2 * theta + x2 * z2 * theta + y2 * p 2 * r) * invDenom,
             -p 1 / R2]]
  bwd := fun p _ =>
    let theta := Real.sqrt (sqNorm p)
    let rDivTheta := if theta > tiny then Real.sin theta / theta else 1
    ![p 0 * rDivTheta, p 1 * rDivTheta, Real.cos theta]

/-- `PerspectiveProjection` (camera_projections_functions.h:88-117). -/
noncomputable def perspective : Functor 3 0 2 where
  fwd := fun p _ => ![p 0 / p 2, p 1 / p 2]
  jac := fun p _ =>
    ![row [1 / p 2, 0, -p 0 / (p 2 * p 2)], row [0, 1 / p 2, -p 1 / (p 2 * p 2)]]
  bwd := fun p _ =>
    let invNorm := 1 / Real.sqrt (sqNorm p + 1)
    ![p 0 * invNorm, p 1 * invNorm, invNorm]

/-- `ThetaEval::operator()` (camera_projections_functions.h:200-202). -/
noncomputable def thetaEval (r tr x : ℝ) : ℝ := tr * Real.tan x + (1 - tr) * x - r

/-- `ThetaEval::derivative` (camera_projections_functions.h:203-209); the first call is doubled. -/
noncomputable def thetaDeriv (tr : ℝ) (i : ℕ) (x : ℝ) : ℝ :=
  (if i = 0 then 2 else 1) * (tr * (1 / Real.cos x) * (1 / Real.cos x) - tr + 1)

/-- `theta_refined` (camera_projections_functions.h:176-181, 195). -/
noncomputable def dualTheta (r tr : ℝ) : ℝ := newton1 (thetaEval r tr) (thetaDeriv tr) newtonTol 0 5 0

/-- The denominator of `s` (camera_projections_functions.h:183-184). -/
noncomputable def dualDenom (r tr : ℝ) : ℝ :=
  tr * Real.tan (dualTheta r tr) + (1 - tr) * dualTheta r tr

/-- `DualProjection` (camera_projections_functions.h:120-211). Parameter: transition. -/
noncomputable def dual : Functor 3 1 2 where
  fwd := fun q p =>
    ![p 0 * perspective.fwd q p 0 + (1 - p 0) * fisheye.fwd q p 0,
      p 0 * perspective.fwd q p 1 + (1 - p 0) * fisheye.fwd q p 1]
  jac := fun q p i c =>
    if c < 3 then p 0 * perspective.jac q p i c + (1 - p 0) * fisheye.jac q p i c
    else if c = 3 then perspective.fwd q p i - fisheye.fwd q p i else 0
  bwd := fun q p =>
    let r := Real.sqrt (sqNorm q)
    let s := Real.tan (dualTheta r (p 0)) / dualDenom r (p 0)
    let x := s * q 0
    let y := s * q 1
    let invNorm := 1 / Real.sqrt (x * x + y * y + 1)
    ![x * invNorm, y * invNorm, invNorm]

/-- `SphericalProjection` (camera_projections_functions.h:214-252). -/
noncomputable def spherical : Functor 3 0 2 where
  fwd := fun p _ =>
    let lon := atan2 (p 0) (p 2)
    let lat := atan2 (-p 1) (Real.sqrt (p 0 * p 0 + p 2 * p 2))
    let invNorm := 1 / (2 * Real.pi)
    ![lon * invNorm, -lat * invNorm]
  jac := fun p _ =>
    let rt2 := p 0 * p 0 + p 2 * p 2
    let rt := Real.sqrt rt2
    let R2 := sqNorm p + p 2 * p 2
    ![row [p 2 / (2 * Real.pi * rt2), 0, -p 0 / (2 * Real.pi * rt2)],
      row [-(p 0 * p 1) / (2 * Real.pi * R2 * rt), rt / (2 * Real.pi * R2),
           -(p 1 * p 2) / (2 * Real.pi * R2 * rt)]]
  bwd := fun p _ =>
    let lon := p 0 * 2 * Real.pi
    let lat := -p 1 * 2 * Real.pi
    ![Real.cos lat * Real.sin lon, -Real.sin lat, Real.cos lat * Real.cos lon]

/-! ### Distortions (camera_distortions_functions.h) -/

/-- `ru_refined` (camera_distortions_functions.h:60-65, 160-165, 278-284), with `DistoEval` (77-89,
177-191, 296-312). -/
noncomputable def radialRoot (dist deriv : ℝ → ℝ) (rd : ℝ) : ℝ :=
  newton1 (fun x => x * dist (x * x) - rd) (fun _ x => deriv (x * x)) newtonTol 0 10 rd

/-- The `Backward` of the purely radial distortions (camera_distortions_functions.h:50-74, 149-174,
266-293): `dist`/`deriv` are `Distortion`/`DistortionDerivative` as functions of the squared radius. -/
noncomputable def radialBackward (dist deriv : ℝ → ℝ) (p : Fin 2 → ℝ) : Fin 2 → ℝ :=
  let rd := Real.sqrt (sqNorm p)
  if rd < machEps then ![p 0, p 1]
  else
    let ru := radialRoot dist deriv rd
    let distortion := dist (ru * ru)
    ![p 0 / distortion, p 1 / distortion]

/-- `Disto2::Distortion` (camera_distortions_functions.h:91-94). -/
def disto2Dist (k1 r2 : ℝ) : ℝ := 1 + r2 * k1

/-- `Disto2::DistortionDerivative` (camera_distortions_functions.h:96-99). -/
def disto2Deriv (k1 r2 : ℝ) : ℝ := 1 + r2 * 2 * k1

/-- `Disto2` (camera_distortions_functions.h:12-100). -/
noncomputable def disto2 : Functor 2 1 2 where
  fwd := fun p k =>
    let d := disto2Dist (k 0) (sqNorm p)
    ![p 0 * d, p 1 * d]
  jac := fun p k =>
    let k1 := k 0
    let x := p 0
    let y := p 1
    let x2 := x * x
    let y2 := y * y
    let r2 := x2 + y2
    ![row [3 * k1 * x2 + k1 * y2 + 1, x * 2 * k1 * y, x * r2],
      row [y * 2 * k1 * x, k1 * (3 * y2 + x2) + 1, y * r2]]
  bwd := fun p k => radialBackward (disto2Dist (k 0)) (disto2Deriv (k 0)) p

/-- `Disto24::Distortion` (camera_distortions_functions.h:193-196). -/
def disto24Dist (k1 k2 r2 : ℝ) : ℝ := 1 + r2 * (k1 + k2 * r2)

/-- `Disto24::DistortionDerivative` (camera_distortions_functions.h:198-201). -/
def disto24Deriv (k1 k2 r2 : ℝ) : ℝ := 1 + r2 * 2 * (k1 + 2 * k2 * r2)

/-- `Disto24` (camera_distortions_functions.h:103-202). -/
noncomputable def disto24 : Functor 2 2 2 where
  fwd := fun p k =>
    let d := disto24Dist (k 0) (k 1) (sqNorm p)
    ![p 0 * d, p 1 * d]
  jac := fun p k =>
    let k1 := k 0
    let k2 := k 1
    let x := p 0
    let y := p 1
    let x2 := x * x
    let x4 := x2 * x2
    let y2 := y * y
    let y4 := y2 * y2
    let r2 := x2 + y2
    ![row [5 * k2 * x4 + 3 * k1 * x2 + 6 * k2 * x2 * y2 + k2 * y4 + k1 * y2 + 1,
           x * (2 * k1 * y + 4 * k2 * y * r2), x * r2, x * r2 * r2],
      row [y * (2 * k1 * x + 4 * k2 * x * r2),
           5 * k2 * y4 + 3 * k1 * y2 + 6 * k2 * y2 * x2 + k2 * x4 + k1 * x2 + 1,
           y * r2, y * r2 * r2]]
  bwd := fun p k => radialBackward (disto24Dist (k 0) (k 1)) (disto24Deriv (k 0) (k 1)) p

/-- `Disto2468::Distortion` (camera_distortions_functions.h:314-318). -/
def disto2468Dist (k1 k2 k3 k4 r2 : ℝ) : ℝ := 1 + r2 * (k1 + r2 * (k2 + r2 * (k3 + r2 * k4)))

/-- `Disto2468::DistortionDerivative` (camera_distortions_functions.h:320-326). -/
def disto2468Deriv (k1 k2 k3 k4 r2 : ℝ) : ℝ :=
  1 + r2 * (3 * k1 + r2 * (5 * k2 + r2 * (7 * k3 + r2 * 9 * k4)))

/-- `Disto2468` (camera_distortions_functions.h:205-327). -/
noncomputable def disto2468 : Functor 2 4 2 where
  fwd := fun p k =>
    let d := disto2468Dist (k 0) (k 1) (k 2) (k 3) (sqNorm p)
    ![p 0 * d, p 1 * d]
  jac := fun p k =>
    let k1 := k 0
    let k2 := k 1
    let k3 := k 2
    let k4 := k 3
    let x := p 0
    let y := p 1
    let x2 := x * x
    let y2 := y * y
    let r2 := x2 + y2
    ![row [x * (2 * k1 * x + 4 * k2 * x * r2 + 6 * k3 * x * r2 * r2 + 8 * k4 * x * r2 * r2 * r2) +
             k1 * r2 + k2 * r2 * r2 + k3 * r2 * r2 * r2 + k4 * r2 * r2 * r2 * r2 + 1,
           x * (2 * k1 * y + 4 * k2 * y * r2 + 6 * k3 * y * r2 * r2 + 8 * k4 * y * r2 * r2 * r2),
           x * r2, x * r2 * r2, x * r2 * r2 * r2, x * r2 * r2 * r2 * r2],
      row [y * (2 * k1 * x + 4 * k2 * x * r2 + 6 * k3 * x * r2 * r2 + 8 * k4 * x * r2 * r2 * r2),
           y * (2 * k1 * y + 4 * k2 * y * r2 + 6 * k3 * y * r2 * r2 + 8 * k4 * y * r2 * r2 * r2) +
             k1 * r2 + k2 * r2 * r2 + k3 * r2 * r2 * r2 + k4 * r2 * r2 * r2 * r2 + 1,
           y * r2, y * r2 * r2, y * r2 * r2 * r2, y * r2 * r2 * r2 * r2]]
  bwd := fun p k =>
    radialBackward (disto2468Dist (k 0) (k 1) (k 2) (k 3)) (disto2468Deriv (k 0) (k 1) (k 2) (k 3)) p

/-- `DistoEval::derivative` of the distortions with tangential terms
(camera_distortions_functions.h:470-477, 689-697, 822-829) writes the row-major jacobian into an
`Eigen` column-major 2x2 matrix, so the matrix handed to the solver is its transpose. -/
def newtonMatrix (jac : (Fin 2 → ℝ) → Fin 2 → ℕ → ℝ) (q : Fin 2 → ℝ) : Matrix (Fin 2) (Fin 2) ℝ :=
  Matrix.of fun i j => jac q j i.val

/-- The `Backward` of the distortions with tangential terms (camera_distortions_functions.h:420-446,
627-657, 775-798), with `P` iterations. `DistoEval::operator()` (459-468, 674-687, 813-820) is the
forward map minus the point. -/
noncomputable def newtonBackward {P : ℕ} (fwd : (Fin 2 → ℝ) → (Fin 2 → ℝ))
    (jac : (Fin 2 → ℝ) → Fin 2 → ℕ → ℝ) (p : Fin 2 → ℝ) : Fin 2 → ℝ :=
  if Real.sqrt (sqNorm p) < machEps then ![p 0, p 1]
  else newton2 (fun q => fwd q - p) (newtonMatrix jac) newtonTol P p

/-- `Disto62::RadialDistortion` (camera_distortions_functions.h:480-485). -/
def radial6 (k1 k2 k3 k4 k5 k6 r2 : ℝ) : ℝ :=
  1 + r2 * (k1 + r2 * (k2 + r2 * (k3 + r2 * (k4 + r2 * (k5 + r2 * k6)))))

/-- `TangentialDistortion` (camera_distortions_functions.h:487-492, 837-842). -/
def tangential (r2 x y p1 p2 : ℝ) : Fin 2 → ℝ :=
  ![2 * p1 * x * y + p2 * (r2 + 2 * x * x), 2 * p2 * x * y + p1 * (r2 + 2 * y * y)]

/-- `Disto624::ThinPrismDistortion` (camera_distortions_functions.h:699-703). -/
def thinPrism (r2 s0 s1 s2 s3 : ℝ) : Fin 2 → ℝ := ![s0 * r2 + s1 * r2 * r2, s2 * r2 + s3 * r2 * r2]

/-- `Disto62::Forward` (camera_distortions_functions.h:333-348). -/
def disto62Fwd (p : Fin 2 → ℝ) (k : Ptr) : Fin 2 → ℝ :=
  let r2 := sqNorm p
  let dr := radial6 (k 0) (k 1) (k 2) (k 3) (k 4) (k 5) r2
  let dt := tangential r2 (p 0) (p 1) (k 6) (k 7)
  ![p 0 * dr + dt 0, p 1 * dr + dt 1]

/-- `Disto62::ForwardDerivatives` (camera_distortions_functions.h:350-417). -/
def disto62Jac (p : Fin 2 → ℝ) (k : Ptr) : Fin 2 → ℕ → ℝ :=
  let k1 := k 0
  let k2 := k 1
  let k3 := k 2
  let k4 := k 3
  let k5 := k 4
  let k6 := k 5
  let p1 := k 6
  let p2 := k 7
  let x := p 0
  let y := p 1
  let x2 := x * x
  let y2 := y * y
  let r2 := x2 + y2
  let r2_2 := r2 * r2
  let r2_3 := r2_2 * r2
  let r2_4 := r2_3 * r2
  let r2_5 := r2_4 * r2
  let r2_6 := r2_5 * r2
  let dx_dxt := 2 * y * p1 + 6 * p2 * x
  let dx_dyt := 2 * x * p1 + 2 * p2 * y
  let dy_dxt := dx_dyt
  let dy_dyt := 2 * x * p2 + 6 * p1 * y
  let q := radial6 k1 k2 k3 k4 k5 k6 r2
  let dr_dx := 2 * x
  let dr_dy := 2 * y
  let dp_dr := k1 + 2 * k2 * r2 + 3 * k3 * r2_2 + 4 * k4 * r2_3 + 5 * k5 * r2_4 + 6 * k6 * r2_5
  ![row [q + x * dp_dr * dr_dx + dx_dxt, x * dp_dr * dr_dy + dx_dyt,
         x * r2, x * r2_2, x * r2_3, x * r2_4, x * r2_5, x * r2_6, 2 * x * y, 3 * x2 + y2],
    row [y * dp_dr * dr_dx + dy_dxt, q + y * dp_dr * dr_dy + dy_dyt,
         y * r2, y * r2_2, y * r2_3, y * r2_4, y * r2_5, y * r2_6, 3 * y2 + x2, 2 * x * y]]

/-- `Disto62` (camera_distortions_functions.h:330-493). -/
noncomputable def disto62 : Functor 2 8 2 where
  fwd := disto62Fwd
  jac := disto62Jac
  bwd := fun p k => newtonBackward (P := 10) (fun q => disto62Fwd q k) (fun q => disto62Jac q k) p

/-- `Disto624::Forward` (camera_distortions_functions.h:512-536). -/
def disto624Fwd (p : Fin 2 → ℝ) (k : Ptr) : Fin 2 → ℝ :=
  let r2 := sqNorm p
  let dr := radial6 (k 0) (k 1) (k 2) (k 3) (k 4) (k 5) r2
  let dt := tangential r2 (p 0) (p 1) (k 6) (k 7)
  let tp := thinPrism r2 (k 8) (k 9) (k 10) (k 11)
  ![p 0 * dr + dt 0 + tp 0, p 1 * dr + dt 1 + tp 1]

/-- `Disto624::ForwardDerivatives` (camera_distortions_functions.h:538-624). -/
def disto624Jac (p : Fin 2 → ℝ) (k : Ptr) : Fin 2 → ℕ → ℝ :=
  let k1 := k 0
  let k2 := k 1
  let k3 := k 2
  let k4 := k 3
  let k5 := k 4
  let k6 := k 5
  let p1 := k 6
  let p2 := k 7
  let s0 := k 8
  let s1 := k 9
  let s2 := k 10
  let s3 := k 11
  let x := p 0
  let y := p 1
  let x2 := x * x
  let y2 := y * y
  let r2 := x2 + y2
  let r2_2 := r2 * r2
  let r2_3 := r2_2 * r2
  let r2_4 := r2_3 * r2
  let r2_5 := r2_4 * r2
  let r2_6 := r2_5 * r2
  let dx_dxt := 2 * y * p1 + 6 * p2 * x
  let dx_dyt := 2 * x * p1 + 2 * p2 * y
  let dy_dxt := dx_dyt
  let dy_dyt := 2 * x * p2 + 6 * p1 * y
  let dx_dx_tp := s0 * 2 * x + s1 * 4 * x * r2
  let dx_dy_tp := s0 * 2 * y + s1 * 4 * y * r2
  let dy_dx_tp := s2 * 2 * x + s3 * 4 * x * r2
  let dy_dy_tp := s2 * 2 * y + s3 * 4 * y * r2
  let q := radial6 k1 k2 k3 k4 k5 k6 r2
  let dr_dx := 2 * x
  let dr_dy := 2 * y
  let dp_dr := k1 + 2 * k2 * r2 + 3 * k3 * r2_2 + 4 * k4 * r2_3 + 5 * k5 * r2_4 + 6 * k6 * r2_5
  ![row [q + x * dp_dr * dr_dx + dx_dxt + dx_dx_tp, x * dp_dr * dr_dy + dx_dyt + dx_dy_tp,
         x * r2, x * r2_2, x * r2_3, x * r2_4, x * r2_5, x * r2_6, 2 * x * y, 3 * x2 + y2,
         r2, r2_2, 0, 0],
    row [y * dp_dr * dr_dx + dy_dxt + dy_dx_tp, q + y * dp_dr * dr_dy + dy_dyt + dy_dy_tp,
         y * r2, y * r2_2, y * r2_3, y * r2_4, y * r2_5, y * r2_6, 3 * y2 + x2, 2 * x * y,
         0, 0, r2, r2_2]]

/-- `Disto624` (camera_distortions_functions.h:496-704). -/
noncomputable def disto624 : Functor 2 12 2 where
  fwd := disto624Fwd
  jac := disto624Jac
  bwd := fun p k => newtonBackward (P := 10) (fun q => disto624Fwd q k) (fun q => disto624Jac q k) p

/-- `DistoBrown::RadialDistortion` (camera_distortions_functions.h:832-836). -/
def radial3 (k1 k2 k3 r2 : ℝ) : ℝ := 1 + r2 * (k1 + r2 * (k2 + r2 * k3))

/-- `DistoBrown::Forward` (camera_distortions_functions.h:710-721). -/
def brownFwd (p : Fin 2 → ℝ) (k : Ptr) : Fin 2 → ℝ :=
  let r2 := sqNorm p
  let dr := radial3 (k 0) (k 1) (k 2) r2
  let dt := tangential r2 (p 0) (p 1) (k 3) (k 4)
  ![p 0 * dr + dt 0, p 1 * dr + dt 1]

/-- `DistoBrown::ForwardDerivatives` (camera_distortions_functions.h:723-772). -/
def brownJac (p : Fin 2 → ℝ) (k : Ptr) : Fin 2 → ℕ → ℝ :=
  let k1 := k 0
  let k2 := k 1
  let k3 := k 2
  let p1 := k 3
  let p2 := k 4
  let x := p 0
  let y := p 1
  let x2 := x * x
  let x4 := x2 * x2
  let y2 := y * y
  let y4 := y2 * y2
  let r2 := x2 + y2
  let r4 := r2 * r2
  let r6 := r4 * r2
  ![row [5 * k2 * x4 + 3 * k1 * x2 + 6 * k3 * x2 * r4 + 6 * k2 * x2 * y2 + k3 * r6 + k2 * y4 +
           k1 * y2 + 1 + 2 * p1 * y + 6 * p2 * x,
         x * (2 * k1 * y + 4 * k2 * y * r2 + 6 * k3 * y * r4) + 2 * p1 * x + 2 * p2 * y,
         x * r2, x * r2 * r2, x * r2 * r2 * r2, 2 * x * y, 3 * x2 + y2],
    row [y * (2 * k1 * x + 4 * k2 * x * r2 + 6 * k3 * x * r4) + 2 * p2 * y + 2 * p1 * x,
         5 * k2 * y4 + 3 * k1 * y2 + 6 * k3 * y2 * r4 + 6 * k2 * x2 * y2 + k3 * r6 + k2 * x4 +
           k1 * x2 + 1 + 2 * p2 * x + 6 * p1 * y,
         y * r2, y * r2 * r2, y * r2 * r2 * r2, 3 * y2 + x2, 2 * x * y]]

/-- `DistoBrown` (camera_distortions_functions.h:707-843). -/
noncomputable def brown : Functor 2 5 2 where
  fwd := brownFwd
  jac := brownJac
  bwd := fun p k => newtonBackward (P := 10) (fun q => brownFwd q k) (fun q => brownJac q k) p

/-! ### Planar transformations (transformations_functions.h) -/

/-- `Affine` (transformations_functions.h:11-48). Parameters: focal, aspect ratio, cx, cy. -/
noncomputable def affine : Functor 2 4 2 where
  fwd := fun p a => ![a 0 * p 0 + a 2, a 0 * a 1 * p 1 + a 3]
  jac := fun p a =>
    ![row [a 0, 0, p 0, 0, 1, 0], row [0, a 0 * a 1, p 1 * a 1, p 1 * a 0, 0, 1]]
  bwd := fun p a => ![(p 0 - a 2) / a 0, (p 1 - a 3) / (a 1 * a 0)]

/-- `UniformScale` (transformations_functions.h:51-79). -/
noncomputable def uniformScale : Functor 2 1 2 where
  fwd := fun p s => ![s 0 * p 0, s 0 * p 1]
  jac := fun p s => ![row [s 0, 0, p 0], row [0, s 0, p 1]]
  bwd := fun p s => ![p 0 / s 0, p 1 / s 0]

/-- `Identity` (transformations_functions.h:82-105). -/
def identity : Functor 2 0 2 where
  fwd := fun p _ => ![p 0, p 1]
  jac := fun _ _ => ![row [1, 0], row [0, 1]]
  bwd := fun p _ => ![p 0, p 1]

/-- `Normalize` (transformations_functions.h:265-306). -/
noncomputable def normalize : Functor 3 0 3 where
  fwd := fun p _ =>
    let invNorm := 1 / Real.sqrt (sqNorm p + p 2 * p 2)
    ![p 0 * invNorm, p 1 * invNorm, p 2 * invNorm]
  jac := fun p _ =>
    let x := p 0
    let y := p 1
    let z := p 2
    let x2 := x * x
    let y2 := y * y
    let z2 := z * z
    let norm2 := x2 + y2 + z2
    let norm := Real.sqrt norm2
    let inv := 1 / (norm * norm2)
    ![row [(y2 + z2) * inv, (-x * y) * inv, (-x * z) * inv],
      row [(-y * x) * inv, (x2 + z2) * inv, (-y * z) * inv],
      row [(-z * x) * inv, (-z * y) * inv, (x2 + y2) * inv]]
  bwd := fun _ _ => 0

/-! ### Poses with automatic differentiation (transformations_functions.h) -/

/-- A templated scalar computation in `a` inputs, kept as an expression so that it can be run with
`T = double` (`eval`) and with `T = Eigen::AutoDiffScalar` (`eval` and `grad`). -/
inductive Expr (a : ℕ) where
  | var (i : Fin a)
  | const (c : ℝ)
  | add (e f : Expr a)
  | sub (e f : Expr a)
  | neg (e : Expr a)
  | mul (e f : Expr a)
  | div (e f : Expr a)
  | sqrt (e : Expr a)
  | sin (e : Expr a)
  | cos (e : Expr a)
  | atan2 (y x : Expr a)

namespace Expr
variable {a : ℕ}

/-- The computation with `T = double`, also the `value()` of an `AutoDiffScalar`. -/
noncomputable def eval : Expr a → (Fin a → ℝ) → ℝ
  | var i, v => v i
  | const c, _ => c
  | add e f, v => e.eval v + f.eval v
  | sub e f, v => e.eval v - f.eval v
  | neg e, v => -e.eval v
  | mul e f, v => e.eval v * f.eval v
  | div e f, v => e.eval v / f.eval v
  | sqrt e, v => Real.sqrt (e.eval v)
  | sin e, v => Real.sin (e.eval v)
  | cos e, v => Real.cos (e.eval v)
  | atan2 y x, v => Camera.atan2 (y.eval v) (x.eval v)

/-- `derivatives()` of an `Eigen::AutoDiffScalar` (unsupported/Eigen/AutoDiff, an external library;
`atan2` is not used with it in the code and is here for the proofs only). -/
noncomputable def grad : Expr a → (Fin a → ℝ) → Fin a → ℝ
  | var i, _, c => if c = i then 1 else 0
  | const _, _, _ => 0
  | add e f, v, c => e.grad v c + f.grad v c
  | sub e f, v, c => e.grad v c - f.grad v c
  | neg e, v, c => -e.grad v c
  | mul e f, v, c => e.grad v c * f.eval v + f.grad v c * e.eval v
  | div e f, v, c => (e.grad v c * f.eval v - f.grad v c * e.eval v) / (f.eval v * f.eval v)
  | sqrt e, v, c => e.grad v c / (2 * Real.sqrt (e.eval v))
  | sin e, v, c => e.grad v c * Real.cos (e.eval v)
  | cos e, v, c => e.grad v c * -Real.sin (e.eval v)
  | atan2 y x, v, c =>
    (y.grad v c * x.eval v - x.grad v c * y.eval v) /
      (x.eval v * x.eval v + y.eval v * y.eval v)

instance : Add (Expr a) := ⟨add⟩
instance : Sub (Expr a) := ⟨sub⟩
instance : Neg (Expr a) := ⟨neg⟩
instance : Mul (Expr a) := ⟨mul⟩
instance : Div (Expr a) := ⟨div⟩
instance (n : ℕ) : OfNat (Expr a) n := ⟨const n⟩

end Expr

open Expr in
/-- `AngleAxisToRotation`, regular branch (transformations_functions.h:229-259), on the inputs
`-rt[Rx], -rt[Ry], -rt[Rz]` (154-159, 205): row-major 3x3. -/
noncomputable def rotMain : Fin 3 → Fin 3 → Expr 3 :=
  let v0 : Expr 3 := -var 0
  let v1 : Expr 3 := -var 1
  let v2 : Expr 3 := -var 2
  let theta2 := v0 * v0 + v1 * v1 + v2 * v2
  let theta := Expr.sqrt theta2
  let c := Expr.cos theta
  let s := Expr.sin theta
  let t := 1 - c
  let invTheta2 := 1 / theta2
  let invTheta := 1 / theta
  let xx := v0 * v0 * invTheta2
  let xy := v0 * v1 * invTheta2
  let xz := v0 * v2 * invTheta2
  let yy := v1 * v1 * invTheta2
  let yz := v1 * v2 * invTheta2
  let zz := v2 * v2 * invTheta2
  let xs := v0 * invTheta * s
  let ys := v1 * invTheta * s
  let zs := v2 * invTheta * s
  ![![t * xx + c, t * xy - zs, t * xz + ys],
    ![t * xy + zs, t * yy + c, t * yz - xs],
    ![t * xz - ys, t * yz + xs, t * zz + c]]

open Expr in
/-- `SkewMatrixT` (foundation/numeric.h:46-49) of the inputs. -/
noncomputable def skewExpr : Fin 3 → Fin 3 → Expr 3 :=
  let v0 : Expr 3 := -var 0
  let v1 : Expr 3 := -var 1
  let v2 : Expr 3 := -var 2
  ![![0, -v2, v1], ![v2, 0, -v0], ![-v1, v0, 0]]

/-- `AngleAxisToRotation`, small-angle branch (transformations_functions.h:220-227). The buffer, which
the callers read row-major, is written through `Eigen::Map<Mat3<T>>`, a column-major map
(foundation/types.h:16), so entry (i, j) of the result is entry (j, i) of the skew matrix. -/
noncomputable def rotSmall : Fin 3 → Fin 3 → Expr 3 :=
  fun i j => if i = j then 1 else skewExpr j i

/-- `AngleAxisToRotation` (transformations_functions.h:216-261). -/
noncomputable def angleAxisToRotation (w : Fin 3 → ℝ) : Fin 3 → Fin 3 → Expr 3 :=
  if w 0 * w 0 + w 1 * w 1 + w 2 * w 2 < machEps then rotSmall else rotMain

/-- The rotation part `rt[Rx..Rz]` of the parameters. -/
def rotPart (rt : Ptr) : Fin 3 → ℝ := fun i => rt i

/-- `PoseFunctor` (transformations_functions.h:107-262): `rt` = angle axis | translation, camera to
world; the result is the point in camera coordinates. -/
noncomputable def pose : Functor 3 6 3 where
  fwd := fun p rt =>
    let x := p 0 - rt 3
    let y := p 1 - rt 4
    let z := p 2 - rt 5
    let a := -rt 0
    let b := -rt 1
    let c := -rt 2
    let cpx := b * z - c * y
    let cpy := c * x - a * z
    let cpz := a * y - b * x
    let theta2 := a * a + b * b + c * c
    if theta2 > machEps then
      let theta := Real.sqrt theta2
      let cosT := Real.cos theta
      let sinT := Real.sin theta / theta
      let dot := (a * x + b * y + c * z) * (1 - cosT) / theta2
      ![x * cosT + sinT * cpx + a * dot, y * cosT + sinT * cpy + b * dot,
        z * cosT + sinT * cpz + c * dot]
    else ![x + cpx, y + cpy, z + cpz]
  jac := fun p rt i c =>
    let R := angleAxisToRotation (rotPart rt)
    let xyz : Fin 3 → ℝ := ![p 0 - rt 3, p 1 - rt 4, p 2 - rt 5]
    if h : c < 3 then (R i ⟨c, h⟩).eval (rotPart rt)
    else if h : c - 3 < 3 then ∑ j : Fin 3, xyz j * (R i j).grad (rotPart rt) ⟨c - 3, h⟩
    else if h : c - 6 < 3 then -(R i ⟨c - 6, h⟩).eval (rotPart rt)
    else 0
  bwd := fun _ _ => 0

/-! ### Cameras (camera_instances.h) -/

/-- One of the copy loops of `ConstructReversedParams` (camera_instances.h:167-178):
`for i < size: buf[index + i] = params[count + i]`. -/
def copyParams (params : Ptr) (index count size : ℕ) (buf : Ptr) : Ptr :=
  fun j => if index ≤ j ∧ j < index + size then params (count + (j - index)) else buf j

/-- `ConstructReversedParams` (camera_instances.h:162-178); `Size = max 1 (A + D + Q)`
(camera_instances.h:122-128). The buffer is uninitialised before (here: 0). -/
def reversedParams (Q D A : ℕ) (params : Ptr) : Ptr :=
  let size := max 1 (Q + A + D)
  let b1 := copyParams params (size - Q) 0 Q (fun _ => 0)
  let b2 := copyParams params (size - Q - D) Q D b1
  copyParams params (size - Q - D - A) (Q + D) A b2

/-- `ProjectGeneric<PROJ, DISTO, AFF>` (camera_instances.h:131-180). For the spherical camera the code
declares one (unused) parameter, `Size = max 1 0`; here it has none. -/
noncomputable def generic {Q D A : ℕ} (proj : Functor 3 Q 2) (disto : Functor 2 D 2)
    (aff : Functor 2 A 2) : Functor 3 (Q + D + A) 2 where
  fwd := (compose aff (compose disto proj)).fwd
  jac := (compose aff (compose disto proj)).jac
  bwd := fun p params =>
    let rev := reversedParams Q D A params
    proj.bwd (disto.bwd (aff.bwd p rev) (rev.shift A)) (rev.shift (A + D))

/-- `ProjectionType` without `NONE`, for which `Dispatch` throws (camera_instances.h:8-20, 229-231). -/
inductive ProjType where
  | perspective | brown | fisheye | fisheyeOpencv | fisheye62 | fisheye624 | spherical | dual
  | radial | simpleRadial
  deriving DecidableEq

/-- Number of parameters of each camera (camera_instances.h:182-194). -/
def ProjType.size : ProjType → ℕ
  | .perspective => 0 + 2 + 1
  | .brown => 0 + 5 + 4
  | .fisheye => 0 + 2 + 1
  | .fisheyeOpencv => 0 + 4 + 4
  | .fisheye62 => 0 + 8 + 4
  | .fisheye624 => 0 + 12 + 4
  | .spherical => 0 + 0 + 0
  | .dual => 1 + 2 + 1
  | .radial => 0 + 2 + 4
  | .simpleRadial => 0 + 1 + 4

/-- `Dispatch` (camera_instances.h:182-233). -/
noncomputable def camera : (t : ProjType) → Functor 3 t.size 2
  | .perspective => generic Camera.perspective disto24 uniformScale
  | .brown => generic Camera.perspective brown affine
  | .fisheye => generic Camera.fisheye disto24 uniformScale
  | .fisheyeOpencv => generic Camera.fisheye disto2468 affine
  | .fisheye62 => generic Camera.fisheye disto62 affine
  | .fisheye624 => generic Camera.fisheye disto624 affine
  | .spherical => generic Camera.spherical identity identity
  | .dual => generic Camera.dual disto24 uniformScale
  | .radial => generic Camera.perspective disto24 affine
  | .simpleRadial => generic Camera.perspective disto2 affine

/-- `Camera::Project` (camera.cc:289-294). -/
noncomputable def project (t : ProjType) (values : Ptr) (point : Fin 3 → ℝ) : Fin 2 → ℝ :=
  (camera t).fwd point values

/-- `Camera::Bearing` (camera.cc:304-309). -/
noncomputable def bearing (t : ProjType) (values : Ptr) (point : Fin 2 → ℝ) : Fin 3 → ℝ :=
  (camera t).bwd point values

/-- `ProjectPoseDerivatives` (camera_instances.h:38-45). -/
noncomputable def projectPose (t : ProjType) : Functor 3 (6 + t.size) 2 := compose (camera t) pose

/-- `ProjectRigPoseDerivatives` (camera_instances.h:56-63): the point goes through the rig instance
pose, then the rig camera pose, then the camera. -/
noncomputable def projectRigPose (t : ProjType) : Functor 3 (6 + 6 + t.size) 2 :=
  compose (camera t) (compose pose pose)

/-- `PoseNormalizedDerivatives` (camera_instances.h:65-72). -/
noncomputable def poseNormalized : Functor 3 (6 + 0) 3 := compose normalize pose

/-- `RigPoseNormalizedDerivatives` (camera_instances.h:74-81). -/
noncomputable def rigPoseNormalized : Functor 3 (6 + 6 + 0) 3 := compose normalize (compose pose pose)

/-! ### Reprojection residuals of the bundle adjustment (bundle/error/projection_errors.h) -/

/-- `all_params` of the rig-camera case (projection_errors.h:96-105). -/
def rigParams (inst rigCam cam : Ptr) : Ptr :=
  fun i => if i < 6 then inst i else if i < 12 then rigCam (i - 6) else cam (i - 12)

/-- `all_params` of the case without rig camera (projection_errors.h:151-157). -/
def instParams (inst cam : Ptr) : Ptr := fun i => if i < 6 then inst i else cam (i - 6)

/-- The four parameter blocks given to Ceres (projection_errors.h:67-72). -/
structure Blocks where
  camera : Ptr
  rigInstance : Ptr
  rigCamera : Ptr
  point : Fin 3 → ℝ

/-- Jacobian blocks (projection_errors.h:115-116): entry (row, column) of each. -/
structure JacBlocks (m : ℕ) where
  camera : Fin m → ℕ → ℝ
  rigInstance : Fin m → ℕ → ℝ
  rigCamera : Fin m → ℕ → ℝ
  point : Fin m → ℕ → ℝ

/-- `ReprojectionError2DAnalytic::Evaluate` without jacobians (projection_errors.h:78-87, 202-206). -/
noncomputable def residual2D (t : ProjType) (obs : Fin 2 → ℝ) (scale : ℝ) (useRig : Bool)
    (b : Blocks) : Fin 2 → ℝ :=
  let q := pose.fwd b.point b.rigInstance
  let q' := if useRig then pose.fwd q b.rigCamera else q
  fun i => scale * (project t b.camera q' i - obs i)

/-- `ReprojectionError2DAnalytic::Evaluate` with jacobians (projection_errors.h:88-206). -/
noncomputable def evaluate2D (t : ProjType) (obs : Fin 2 → ℝ) (scale : ℝ) (useRig : Bool)
    (b : Blocks) : (Fin 2 → ℝ) × JacBlocks 2 :=
  if useRig then
    let all := rigParams b.rigInstance b.rigCamera b.camera
    let J := (projectRigPose t).jac b.point all
    (fun i => scale * ((projectRigPose t).fwd b.point all i - obs i),
      { point := fun i j => scale * J i j
        rigInstance := fun i j => scale * J i (3 + j)
        rigCamera := fun i j => scale * J i (3 + 6 + j)
        camera := fun i j => scale * J i (3 + 2 * 6 + j) })
  else
    let all := instParams b.rigInstance b.camera
    let J := (projectPose t).jac b.point all
    (fun i => scale * ((projectPose t).fwd b.point all i - obs i),
      { point := fun i j => scale * J i j
        rigInstance := fun i j => scale * J i (3 + j)
        rigCamera := fun _ _ => 0
        camera := fun i j => scale * J i (3 + 6 + j) })

/-- The observed bearing of `ReprojectionError3D` (projection_errors.h:218-224). -/
noncomputable def bearing3D (obs : Fin 2 → ℝ) : Fin 3 → ℝ :=
  let lon := obs 0 * 2 * Real.pi
  let lat := -obs 1 * 2 * Real.pi
  ![Real.cos lat * Real.sin lon, -Real.sin lat, Real.cos lat * Real.cos lon]

/-- `ReprojectionError3DAnalytic::Evaluate` without jacobians (projection_errors.h:262-270,
369-372). `Vec3d::normalize` leaves a zero vector unchanged, as division by zero does here. -/
noncomputable def residual3D (obs : Fin 2 → ℝ) (scale : ℝ) (useRig : Bool) (b : Blocks) :
    Fin 3 → ℝ :=
  let q := pose.fwd b.point b.rigInstance
  let q' := if useRig then pose.fwd q b.rigCamera else q
  let n := Real.sqrt (q' 0 * q' 0 + q' 1 * q' 1 + q' 2 * q' 2)
  fun i => scale * (q' i / n - bearing3D obs i)

/-- `ReprojectionError3DAnalytic::Evaluate` with jacobians (projection_errors.h:271-372). -/
noncomputable def evaluate3D (obs : Fin 2 → ℝ) (scale : ℝ) (useRig : Bool) (b : Blocks) :
    (Fin 3 → ℝ) × JacBlocks 3 :=
  if useRig then
    let all := rigParams b.rigInstance b.rigCamera (fun _ => 0)
    let J := rigPoseNormalized.jac b.point all
    (fun i => scale * (rigPoseNormalized.fwd b.point all i - bearing3D obs i),
      { point := fun i j => scale * J i j
        rigInstance := fun i j => scale * J i (3 + j)
        rigCamera := fun i j => scale * J i (3 + 6 + j)
        camera := fun _ _ => 0 })
  else
    let all := instParams b.rigInstance (fun _ => 0)
    let J := poseNormalized.jac b.point all
    (fun i => scale * (poseNormalized.fwd b.point all i - bearing3D obs i),
      { point := fun i j => scale * J i j
        rigInstance := fun i j => scale * J i (3 + j)
        rigCamera := fun _ _ => 0
        camera := fun _ _ => 0 })

end Verif.Camera
