import Verif.Spec.Jacobian
import Mathlib.Analysis.SpecialFunctions.Trigonometric.Deriv
import Mathlib.Analysis.SpecialFunctions.Complex.LogDeriv
import Mathlib.Analysis.Complex.RealDeriv
import Mathlib.Analysis.Calculus.FDeriv.Mul
import Mathlib.Analysis.Calculus.FDeriv.Pi
import Mathlib.Analysis.Calculus.Deriv.Inv
import Mathlib.Algebra.BigOperators.Field
import Mathlib.Tactic.Ring
import Mathlib.Tactic.FieldSimp
import Mathlib.Tactic.Linarith

/-! Forward-mode automatic differentiation is correct: `Expr.grad` is the derivative of `Expr.eval`. -/
set_option linter.unusedSectionVars false
set_option linter.unusedSimpArgs false
namespace Verif.Camera

@[simp] theorem form_apply {a : ℕ} (g w : Fin a → ℝ) : form g w = ∑ c, g c * w c := by
  simp [form, ContinuousLinearMap.sum_apply]

theorem IsGrad.congr {a : ℕ} {f : (Fin a → ℝ) → ℝ} {g g' v : Fin a → ℝ} (h : IsGrad f g v)
    (e : ∀ c, g c = g' c) : IsGrad f g' v := by
  have : g = g' := funext e
  rwa [← this]

theorem IsGrad.of_form {a : ℕ} {f : (Fin a → ℝ) → ℝ} {L : (Fin a → ℝ) →L[ℝ] ℝ} {g v : Fin a → ℝ}
    (h : HasFDerivAt f L v) (e : ∀ w, L w = ∑ c, g c * w c) : IsGrad f g v := by
  have : L = form g := by ext w; rw [e]; simp
  rw [IsGrad, ← this]; exact h

/-- The gradient is unique. -/
theorem IsGrad.unique {a : ℕ} {f : (Fin a → ℝ) → ℝ} {g g' v : Fin a → ℝ} (h : IsGrad f g v)
    (h' : IsGrad f g' v) : g = g' := by
  have := HasFDerivAt.unique h h'
  funext c
  have h2 := congrArg (fun L => L (Pi.single c 1)) this
  simpa [form_apply, Pi.single_apply] using h2

theorem isGrad_var {a : ℕ} (i : Fin a) (v : Fin a → ℝ) :
    IsGrad (fun v => v i) (fun c => if c = i then 1 else 0) v :=
  .of_form (hasFDerivAt_apply i v) (by intro w; simp)

theorem isGrad_const {a : ℕ} (k : ℝ) (v : Fin a → ℝ) : IsGrad (fun _ => k) (fun _ => 0) v :=
  .of_form (hasFDerivAt_const k v) (by intro w; simp)

section
variable {a : ℕ} {f g : (Fin a → ℝ) → ℝ} {f' g' v : Fin a → ℝ}

theorem IsGrad.add (hf : IsGrad f f' v) (hg : IsGrad g g' v) :
    IsGrad (fun v => f v + g v) (fun c => f' c + g' c) v :=
  .of_form (HasFDerivAt.fun_add hf hg) (by intro w; simp [add_mul, Finset.sum_add_distrib])

theorem IsGrad.sub (hf : IsGrad f f' v) (hg : IsGrad g g' v) :
    IsGrad (fun v => f v - g v) (fun c => f' c - g' c) v :=
  .of_form (HasFDerivAt.fun_sub hf hg) (by intro w; simp [sub_mul, Finset.sum_sub_distrib])

theorem IsGrad.neg (hf : IsGrad f f' v) : IsGrad (fun v => -f v) (fun c => -f' c) v :=
  .of_form (HasFDerivAt.fun_neg hf) (by intro w; simp)

theorem IsGrad.mul (hf : IsGrad f f' v) (hg : IsGrad g g' v) :
    IsGrad (fun v => f v * g v) (fun c => f' c * g v + g' c * f v) v :=
  .of_form (HasFDerivAt.mul hf hg) (by
    intro w
    simp only [ContinuousLinearMap.add_apply, ContinuousLinearMap.smul_apply, form_apply, smul_eq_mul,
      Finset.mul_sum, ← Finset.sum_add_distrib]
    exact Finset.sum_congr rfl (fun c _ => by ring))

theorem IsGrad.comp {h : ℝ → ℝ} {h' : ℝ} (hh : HasDerivAt h h' (f v)) (hf : IsGrad f f' v) :
    IsGrad (fun v => h (f v)) (fun c => f' c * h') v :=
  .of_form (hh.comp_hasFDerivAt v hf) (by
    intro w
    simp only [ContinuousLinearMap.smul_apply, form_apply, smul_eq_mul, Finset.mul_sum]
    exact Finset.sum_congr rfl (fun c _ => by ring))

theorem IsGrad.inv (hf : IsGrad f f' v) (h0 : f v ≠ 0) :
    IsGrad (fun v => (f v)⁻¹) (fun c => f' c * -((f v) ^ 2)⁻¹) v :=
  IsGrad.comp (hasDerivAt_inv h0) hf

theorem IsGrad.div (hf : IsGrad f f' v) (hg : IsGrad g g' v) (h0 : g v ≠ 0) :
    IsGrad (fun v => f v / g v) (fun c => (f' c * g v - g' c * f v) / (g v * g v)) v := by
  have := (hf.mul (hg.inv h0))
  simp only [← div_eq_mul_inv] at this
  refine this.congr (fun c => ?_)
  field_simp
  ring

theorem IsGrad.sqrt (hf : IsGrad f f' v) (h0 : f v ≠ 0) :
    IsGrad (fun v => Real.sqrt (f v)) (fun c => f' c / (2 * Real.sqrt (f v))) v :=
  (IsGrad.comp (Real.hasDerivAt_sqrt h0) hf).congr (fun c => by ring)

theorem IsGrad.sin (hf : IsGrad f f' v) :
    IsGrad (fun v => Real.sin (f v)) (fun c => f' c * Real.cos (f v)) v :=
  IsGrad.comp (Real.hasDerivAt_sin _) hf

theorem IsGrad.cos (hf : IsGrad f f' v) :
    IsGrad (fun v => Real.cos (f v)) (fun c => f' c * -Real.sin (f v)) v :=
  IsGrad.comp (Real.hasDerivAt_cos _) hf

theorem IsGrad.atan2 (hf : IsGrad f f' v) (hg : IsGrad g g' v) (h0 : 0 < g v ∨ f v ≠ 0) :
    IsGrad (fun v => Camera.atan2 (f v) (g v))
      (fun c => (f' c * g v - g' c * f v) / (g v * g v + f v * f v)) v := by
  have hz : HasFDerivAt (fun v => (⟨g v, f v⟩ : ℂ))
      (Complex.equivRealProdCLM.symm.toContinuousLinearMap.comp ((form g').prod (form f'))) v :=
    Complex.equivRealProdCLM.symm.toContinuousLinearMap.hasFDerivAt.comp v (HasFDerivAt.prodMk hg hf)
  have hs : (⟨g v, f v⟩ : ℂ) ∈ Complex.slitPlane := Complex.mem_slitPlane_iff.2 h0
  have hl := (Complex.hasStrictFDerivAt_log_real hs).hasFDerivAt.comp v hz
  have hi := Complex.imCLM.hasFDerivAt.comp v hl
  have hne : g v * g v + f v * f v ≠ 0 := by
    rcases h0 with h | h
    · nlinarith [mul_self_nonneg (f v), mul_pos h h]
    · have := mul_self_pos.2 h
      nlinarith [mul_self_nonneg (g v)]
  refine IsGrad.of_form (f := fun v => Camera.atan2 (f v) (g v)) (hi.congr_of_eventuallyEq ?_) ?_
  · exact Filter.Eventually.of_forall (fun w => by simp [Camera.atan2, Function.comp, Complex.log_im])
  · intro w
    simp only [ContinuousLinearMap.comp_apply, ContinuousLinearMap.prod_apply, form_apply,
      ContinuousLinearMap.smul_apply, ContinuousLinearMap.one_apply, ContinuousLinearEquiv.coe_coe,
      Complex.imCLM_apply, Complex.equivRealProdCLM_symm_apply, smul_eq_mul, Complex.mul_im,
      Complex.inv_re, Complex.inv_im, Complex.add_re, Complex.add_im, Complex.ofReal_re,
      Complex.ofReal_im, Complex.mul_re, Complex.I_re, Complex.I_im, Complex.normSq_mk]
    simp only [div_mul_eq_mul_div, ← Finset.sum_div, sub_mul, Finset.sum_sub_distrib]
    have e1 : ∑ i, f' i * g v * w i = g v * ∑ i, f' i * w i := by
      rw [Finset.mul_sum]; exact Finset.sum_congr rfl (fun _ _ => by ring)
    have e2 : ∑ i, g' i * f v * w i = f v * ∑ i, g' i * w i := by
      rw [Finset.mul_sum]; exact Finset.sum_congr rfl (fun _ _ => by ring)
    rw [e1, e2]
    field_simp
    ring

end

namespace Expr
variable {a : ℕ}

/-- No division by zero, root of zero, or `atan2` on its cut. -/
def Ok : Expr a → (Fin a → ℝ) → Prop
  | var _, _ => True
  | const _, _ => True
  | add e f, v => e.Ok v ∧ f.Ok v
  | sub e f, v => e.Ok v ∧ f.Ok v
  | neg e, v => e.Ok v
  | mul e f, v => e.Ok v ∧ f.Ok v
  | div e f, v => e.Ok v ∧ f.Ok v ∧ f.eval v ≠ 0
  | sqrt e, v => e.Ok v ∧ e.eval v ≠ 0
  | sin e, v => e.Ok v
  | cos e, v => e.Ok v
  | atan2 y x, v => y.Ok v ∧ x.Ok v ∧ (0 < x.eval v ∨ y.eval v ≠ 0)

/-- Automatic differentiation computes the gradient. -/
theorem isGrad (e : Expr a) (v : Fin a → ℝ) (h : e.Ok v) : IsGrad e.eval (e.grad v) v := by
  induction e with
  | var i => exact isGrad_var i v
  | const c => exact isGrad_const c v
  | add e f ihe ihf => exact (ihe h.1).add (ihf h.2)
  | sub e f ihe ihf => exact (ihe h.1).sub (ihf h.2)
  | neg e ihe => exact (ihe h).neg
  | mul e f ihe ihf => exact (ihe h.1).mul (ihf h.2)
  | div e f ihe ihf => exact (ihe h.1).div (ihf h.2.1) h.2.2
  | sqrt e ihe => exact (ihe h.1).sqrt h.2
  | sin e ihe => exact (ihe h).sin
  | cos e ihe => exact (ihe h).cos
  | atan2 y x ihy ihx => exact (ihy h.1).atan2 (ihx h.2.1) h.2.2

end Expr
end Verif.Camera
