import Verif.Model.Superimpose
import Mathlib.Algebra.Quaternion

/-!
What quaternions are for, for C118: Hamilton's quaternions of Mathlib, and the turn that one of them stands for.
-/
namespace Verif.Quaternions
open Matrix Verif.Superimpose
open scoped Quaternion

/-- Four numbers as Hamilton's quaternion `q0 + q1 i + q2 j + q3 k`. -/
def hamilton (q : Vec 4) : ℍ[ℝ] := ⟨q 0, q 1, q 2, q 3⟩

/-- A vector of space as an imaginary quaternion. -/
def imaginary (v : Vec 3) : ℍ[ℝ] := ⟨0, v 0, v 1, v 2⟩

/-- A 4x4 matrix that acts on points by the 3x3 matrix `R`, about the origin. -/
def Turns (M : Mat 4) (R : Mat 3) : Prop :=
  (∀ i j : Fin 3, M i.castSucc j.castSucc = R i j) ∧ (∀ i : Fin 3, M i.castSucc 3 = 0 ∧ M 3 i.castSucc = 0) ∧ M 3 3 = 1

/-- What `numpy.linalg.eigh` promises: an orthonormal basis of eigenvectors of the symmetric matrix with the given lower
triangle. -/
def IsEigh (K : Mat 4) (w : Vec 4) (V : Mat 4) : Prop :=
  Vᵀ * V = 1 ∧ (Matrix.of (fun i j => if j ≤ i then K i j else K j i)) * V = V * diagonal w

end Verif.Quaternions
