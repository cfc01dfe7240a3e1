import Mathlib.Analysis.Matrix.Spectrum
import Mathlib.Data.Fin.Tuple.Sort
import Mathlib.LinearAlgebra.Matrix.NonsingularInverse

/-!
Every real square matrix has a singular value decomposition with descending singular values (so that the hypothesis on
`numpy.linalg.svd` can be met).
-/
namespace Verif.Superimpose
open Matrix

theorem svd_exists {n : ℕ} (C : Matrix (Fin n) (Fin n) ℝ) : ∃ (u : Matrix (Fin n) (Fin n) ℝ) (s : Fin n → ℝ)
    (vh : Matrix (Fin n) (Fin n) ℝ), uᵀ * u = 1 ∧ vh * vhᵀ = 1 ∧ (∀ i, 0 ≤ s i) ∧ (∀ i j, i ≤ j → s j ≤ s i) ∧
      C = u * diagonal s * vh := by
  have hA : (Cᵀ * C).IsHermitian := by
    have := isHermitian_conjTranspose_mul_self C
    rwa [conjTranspose_eq_transpose_of_trivial] at this
  let b := hA.eigenvectorBasis
  let σ : Equiv.Perm (Fin n) := Tuple.sort (fun i => -hA.eigenvalues i)
  have hmono : Monotone ((fun i => -hA.eigenvalues i) ∘ σ) := Tuple.monotone_sort _
  let v : Fin n → (Fin n → ℝ) := fun j => WithLp.ofLp (b (σ j))
  let lam : Fin n → ℝ := fun j => hA.eigenvalues (σ j)
  have hv : ∀ j, (Cᵀ * C) *ᵥ v j = lam j • v j := fun j => hA.mulVec_eigenvectorBasis (σ j)
  have hvv : ∀ i j, v i ⬝ᵥ v j = if i = j then 1 else 0 := by
    intro i j
    have h := orthonormal_iff_ite.1 b.orthonormal (σ j) (σ i)
    rw [EuclideanSpace.inner_eq_star_dotProduct] at h
    have e : star (WithLp.ofLp (b (σ j))) = v j := by
      funext k; simp [v]
    rw [e] at h
    rw [show v i ⬝ᵥ v j = WithLp.ofLp (b (σ i)) ⬝ᵥ v j from rfl, h]
    by_cases hij : i = j
    · simp [hij]
    · rw [if_neg hij, if_neg]
      intro e; exact hij (σ.injective e.symm)
  have hg : ∀ i j, (C *ᵥ v i) ⬝ᵥ (C *ᵥ v j) = if i = j then lam j else 0 := by
    intro i j
    rw [dotProduct_mulVec, ← mulVec_transpose, mulVec_mulVec, hv, smul_dotProduct, hvv]
    by_cases hij : i = j
    · simp [hij]
    · simp [hij]
  have hlam : ∀ i, 0 ≤ lam i := by
    intro i
    have := hg i i
    rw [if_pos rfl] at this
    rw [← this]
    exact Finset.sum_nonneg (fun k _ => mul_self_nonneg _)
  let s : Fin n → ℝ := fun i => Real.sqrt (lam i)
  have hss : ∀ i, s i * s i = lam i := fun i => Real.mul_self_sqrt (hlam i)
  let w : Fin n → EuclideanSpace ℝ (Fin n) := fun i => WithLp.toLp 2 ((s i)⁻¹ • (C *ᵥ v i))
  have hw : Orthonormal ℝ (Set.domRestrict {i | s i ≠ 0} w) := by
    rw [orthonormal_iff_ite]
    rintro ⟨i, hi⟩ ⟨j, hj⟩
    have hi' : s i ≠ 0 := hi
    have e : inner ℝ (w i) (w j) = ((s j)⁻¹ • (C *ᵥ v j)) ⬝ᵥ ((s i)⁻¹ • (C *ᵥ v i)) := by
      rw [EuclideanSpace.inner_eq_star_dotProduct]
      congr 1
    have e2 : inner ℝ (Set.domRestrict {i | s i ≠ 0} w ⟨i, hi⟩) (Set.domRestrict {i | s i ≠ 0} w ⟨j, hj⟩) = inner ℝ (w i) (w j) := rfl
    rw [e2, e, smul_dotProduct, dotProduct_smul, hg]
    by_cases hij : i = j
    · subst hij
      simp only [if_true, smul_eq_mul]
      rw [← hss i]
      field_simp
    · rw [if_neg (fun e => hij e.symm), if_neg (fun e => hij (Subtype.mk.inj e)), smul_zero, smul_zero]
  obtain ⟨u, hu⟩ := hw.exists_orthonormalBasis_extension_of_card_eq (by simp)
  have huu : ∀ i j, WithLp.ofLp (u i) ⬝ᵥ WithLp.ofLp (u j) = if i = j then 1 else 0 := by
    intro i j
    have h := orthonormal_iff_ite.1 u.orthonormal j i
    rw [EuclideanSpace.inner_eq_star_dotProduct] at h
    have e : star (WithLp.ofLp (u j)) = WithLp.ofLp (u j) := by
      funext k; simp
    rw [e] at h
    rw [h]
    by_cases hij : i = j
    · simp [hij]
    · rw [if_neg hij, if_neg (fun e => hij e.symm)]
  have hCv : ∀ j, C *ᵥ v j = s j • WithLp.ofLp (u j) := by
    intro j
    by_cases hj : s j = 0
    · have h0 : lam j = 0 := by rw [← hss j, hj, mul_zero]
      have h1 := hg j j
      rw [if_pos rfl, h0] at h1
      rw [hj, zero_smul]
      funext i
      have := (Finset.sum_eq_zero_iff_of_nonneg (fun i _ => mul_self_nonneg ((C *ᵥ v j) i))).1 h1 i (Finset.mem_univ i)
      simpa using this
    · rw [hu j hj]
      simp only [w]
      rw [smul_smul, mul_inv_cancel₀ hj, one_smul]
  have hV : (of fun i j => v i j) * (of fun i j => v i j)ᵀ = (1 : Matrix (Fin n) (Fin n) ℝ) := by
    ext i j
    rw [mul_apply, one_apply]
    exact hvv i j
  refine ⟨of fun i j => WithLp.ofLp (u j) i, s, of fun i j => v i j, ?_, hV, fun i => Real.sqrt_nonneg _, ?_, ?_⟩
  · ext i j
    rw [mul_apply, one_apply]
    exact huu i j
  · intro i j hij
    apply Real.sqrt_le_sqrt
    have := hmono hij
    simp only [Function.comp_apply, neg_le_neg_iff] at this
    exact this
  · have hCV : C * (of fun i j => v i j)ᵀ = (of fun i j => WithLp.ofLp (u j) i) * diagonal s := by
      ext i j
      rw [mul_diagonal, of_apply, mul_comm]
      exact congrFun (hCv j) i
    rw [← hCV, Matrix.mul_assoc, mul_eq_one_comm.1 hV, Matrix.mul_one]

end Verif.Superimpose
