import Verif.Model.Camera
import Mathlib.Analysis.Calculus.FDeriv.Basic
import Mathlib.Topology.Algebra.Module.FiniteDimension

/-!
Specification: what it means for a buffer to hold the jacobian of a functor. It mentions the model only
through the types `Functor` and `Ptr` and the functions `fwd` and `jac`.
-/
namespace Verif.Camera

/-- The linear form with coefficients `g`. -/
noncomputable def form {a : ℕ} (g : Fin a → ℝ) : (Fin a → ℝ) →L[ℝ] ℝ :=
  ∑ c, g c • ContinuousLinearMap.proj (R := ℝ) (φ := fun _ : Fin a => ℝ) c

/-- `g` is the gradient of `f` at `v` (Fréchet derivative). -/
def IsGrad {a : ℕ} (f : (Fin a → ℝ) → ℝ) (g : Fin a → ℝ) (v : Fin a → ℝ) : Prop :=
  HasFDerivAt f (form g) v

/-- The point part of an input vector (point | parameters). -/
def pointOf {n P : ℕ} (v : Fin (n + P) → ℝ) : Fin n → ℝ := fun i => v ⟨i.val, by omega⟩

/-- The parameter part of an input vector, as a pointer. -/
def paramsOf {n P : ℕ} (v : Fin (n + P) → ℝ) : Ptr :=
  fun i => if h : i < P then v ⟨n + i, by omega⟩ else 0

/-- The input vector of a point and parameters. -/
def join {n : ℕ} (P : ℕ) (x : Fin n → ℝ) (p : Ptr) : Fin (n + P) → ℝ :=
  fun i => if h : i.val < n then x ⟨i.val, h⟩ else p (i.val - n)

/-- The functor reads at most `P` parameters. -/
def Functor.Local {n P m : ℕ} (F : Functor n P m) : Prop :=
  ∀ x (p q : Ptr), (∀ i < P, p i = q i) → F.fwd x p = F.fwd x q

/-- The jacobian returned at `(x, p)` is the matrix of partial derivatives, with respect to the point
and to the parameters, of the forward function, which is (Fréchet) differentiable there. -/
def Functor.JacobianAt {n P m : ℕ} (F : Functor n P m) (x : Fin n → ℝ) (p : Ptr) : Prop :=
  ∀ r : Fin m, IsGrad (fun v : Fin (n + P) → ℝ => F.fwd (pointOf v) (paramsOf v) r)
    (fun c => F.jac x p r c.val) (join P x p)

end Verif.Camera
