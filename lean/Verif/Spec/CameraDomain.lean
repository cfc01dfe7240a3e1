import Verif.Spec.Jacobian

/-!
Specification: where the cameras are differentiable, and the derivatives of a residual with respect to
one block of parameters.
-/
namespace Verif.Camera

/-- Points at which the projection of the camera is differentiable: not on the focal plane for the
perspective ones; off the threshold `sqrt(x²+y²) = 1e-8` for the fisheye ones (and off the focal plane
below it); off the cut of the longitude for the spherical one. -/
def Smooth : ProjType → (Fin 3 → ℝ) → Prop
  | .perspective, x | .brown, x | .radial, x | .simpleRadial, x => x 2 ≠ 0
  | .fisheye, x | .fisheyeOpencv, x | .fisheye62, x | .fisheye624, x =>
    1 / 100000000 < Real.sqrt (x 0 * x 0 + x 1 * x 1) ∨
      (Real.sqrt (x 0 * x 0 + x 1 * x 1) < 1 / 100000000 ∧ x 2 ≠ 0)
  | .dual, x => x 2 ≠ 0 ∧ Real.sqrt (x 0 * x 0 + x 1 * x 1) ≠ 1 / 100000000
  | .spherical, x => 0 < x 2 ∨ x 0 ≠ 0

/-- The rotation of the pose is above the threshold under which the code switches to a first order
approximation: squared angle greater than 2^-52. -/
def Turned (rt : Ptr) : Prop := 1 / 2 ^ 52 < rt 0 ^ 2 + rt 1 ^ 2 + rt 2 ^ 2

/-- A parameter block of `a` numbers as a pointer. -/
def ptrOf {a : ℕ} (v : Fin a → ℝ) : Ptr := fun i => if h : i < a then v ⟨i, h⟩ else 0

/-- The first `a` numbers behind a pointer. -/
def block (a : ℕ) (p : Ptr) : Fin a → ℝ := fun i => p i

/-- `J` holds the partial derivatives of the residual `res` at `b` with respect to each of the four
blocks (the camera block has `C` parameters). -/
structure BlockJacobian {m : ℕ} (C : ℕ) (res : Blocks → Fin m → ℝ) (b : Blocks) (J : JacBlocks m) :
    Prop where
  camera : ∀ i, IsGrad (fun v : Fin C → ℝ => res { b with camera := ptrOf v } i)
    (fun j => J.camera i j) (block C b.camera)
  rigInstance : ∀ i, IsGrad (fun v : Fin 6 → ℝ => res { b with rigInstance := ptrOf v } i)
    (fun j => J.rigInstance i j) (block 6 b.rigInstance)
  rigCamera : ∀ i, IsGrad (fun v : Fin 6 → ℝ => res { b with rigCamera := ptrOf v } i)
    (fun j => J.rigCamera i j) (block 6 b.rigCamera)
  point : ∀ i, IsGrad (fun v : Fin 3 → ℝ => res { b with point := v } i)
    (fun j => J.point i j) b.point

end Verif.Camera
