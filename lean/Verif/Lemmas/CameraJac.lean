import Verif.Lemmas.CameraAD
import Mathlib.Tactic.FinCases

/-! Jacobians of functors and of their compositions. -/
set_option linter.unusedSectionVars false
set_option linter.unusedSimpArgs false
namespace Verif.Camera

theorem IsGrad.chain {a b : ℕ} {f : (Fin b → ℝ) → ℝ} {f' : Fin b → ℝ}
    {G : (Fin a → ℝ) → Fin b → ℝ} {G' : Fin b → Fin a → ℝ} {v : Fin a → ℝ}
    (hG : ∀ i, IsGrad (fun v => G v i) (G' i) v) (hf : IsGrad f f' (G v)) :
    IsGrad (fun v => f (G v)) (fun c => ∑ i, f' i * G' i c) v := by
  have h1 : HasFDerivAt G (ContinuousLinearMap.pi (fun i => form (G' i))) v := hasFDerivAt_pi.2 hG
  refine .of_form (HasFDerivAt.comp v hf h1) ?_
  intro w
  simp only [ContinuousLinearMap.comp_apply, form_apply, ContinuousLinearMap.coe_pi', Finset.mul_sum,
    Finset.sum_mul]
  rw [Finset.sum_comm]
  exact Finset.sum_congr rfl (fun _ _ => Finset.sum_congr rfl (fun _ _ => by ring))

@[simp] theorem pointOf_join {n P : ℕ} (x : Fin n → ℝ) (p : Ptr) : pointOf (join P x p) = x := by
  funext i; simp [pointOf, join]

theorem paramsOf_join {n P : ℕ} (x : Fin n → ℝ) (p : Ptr) (i : ℕ) (h : i < P) :
    paramsOf (join P x p) i = p i := by
  simp [paramsOf, join, h]

theorem Functor.JacobianAt.compose {n k m Pg Pf : ℕ} {f : Functor k Pf m} {g : Functor n Pg k}
    (hl : g.Local) {x : Fin n → ℝ} {p : Ptr} (hg : g.JacobianAt x p)
    (hf : f.JacobianAt (g.fwd x p) (p.shift Pg)) :
    (Camera.compose f g).JacobianAt x p := by
  intro r
  -- the input of `g`
  let G0 : (Fin (n + (Pg + Pf)) → ℝ) → Fin (n + Pg) → ℝ := fun v i => v ⟨i.val, by omega⟩
  -- the input of `f`
  let G : (Fin (n + (Pg + Pf)) → ℝ) → Fin (k + Pf) → ℝ := fun v =>
    join Pf (g.fwd (pointOf v) (paramsOf v)) ((paramsOf v).shift Pg)
  have e0 : ∀ v, g.fwd (pointOf (P := Pg + Pf) v) (paramsOf v) =
      g.fwd (pointOf (G0 v)) (paramsOf (G0 v)) := by
    intro v
    apply hl
    intro i hi
    simp [paramsOf, G0, hi, show i < Pg + Pf by omega]
  have eG0 : G0 (join (Pg + Pf) x p) = join Pg x p := by
    funext i; simp [G0, join]
  have hjg : ∀ v : Fin (n + (Pg + Pf)) → ℝ, v = join (Pg + Pf) x p → ∀ i : Fin k,
      IsGrad (fun v : Fin (n + (Pg + Pf)) → ℝ => g.fwd (pointOf v) (paramsOf v) i)
        (fun c => if c.val < n + Pg then g.jac x p i c.val else 0) v := by
    intro v hv i
    have h1 := IsGrad.chain (G := G0) (v := v) (f := fun w => g.fwd (pointOf w) (paramsOf w) i)
      (f' := fun c => g.jac x p i c.val)
      (G' := fun j c => if c = ⟨j.val, by omega⟩ then 1 else 0)
      (fun j => isGrad_var _ _) (by rw [hv, eG0]; exact hg i)
    simp only [e0]
    refine h1.congr (fun c => ?_)
    by_cases hc : c.val < n + Pg
    · rw [if_pos hc, Finset.sum_eq_single ⟨c.val, hc⟩]
      · simp
      · intro b _ hb
        rw [if_neg, mul_zero]
        intro he
        apply hb
        apply Fin.ext
        simp [he]
      · simp
    · rw [if_neg hc]
      apply Finset.sum_eq_zero
      intro b _
      rw [if_neg, mul_zero]
      intro he
      apply hc
      rw [he]
      exact b.2
  have hfw : ∀ v : Fin (n + (Pg + Pf)) → ℝ,
      (Camera.compose f g).fwd (pointOf v) (paramsOf v) r =
        f.fwd (pointOf (G v)) (paramsOf (G v)) r := by
    intro v
    simp only [Camera.compose, G, pointOf_join]
    congr 2
    funext i
    by_cases hi : i < Pf
    · rw [paramsOf_join _ _ _ hi]
    · simp [paramsOf, hi, Ptr.shift]
  have eG : G (join (Pg + Pf) x p) = join Pf (g.fwd x p) (p.shift Pg) := by
    simp only [G, pointOf_join]
    have : g.fwd x (paramsOf (join (Pg + Pf) x p)) = g.fwd x p := by
      apply hl
      intro i hi
      rw [paramsOf_join _ _ _ (by omega)]
    rw [this]
    funext i
    simp only [join]
    split
    · rfl
    · rename_i h
      simp only [Ptr.shift]
      rw [paramsOf_join _ _ _ (by omega)]
  have h2 := IsGrad.chain (G := G) (v := join (Pg + Pf) x p)
    (f := fun w => f.fwd (pointOf w) (paramsOf w) r)
    (f' := fun c => f.jac (g.fwd x p) (p.shift Pg) r c.val)
    (G' := fun i c => if h : i.val < k then (if c.val < n + Pg then g.jac x p ⟨i.val, h⟩ c.val else 0)
      else if c = ⟨n + Pg + (i.val - k), by omega⟩ then 1 else 0)
    (by
      intro i
      by_cases hi : i.val < k
      · have := hjg _ rfl ⟨i.val, hi⟩
        simp only [G, join, hi, dite_true]
        exact this
      · have := isGrad_var (a := n + (Pg + Pf)) ⟨n + Pg + (i.val - k), by omega⟩ (join (Pg + Pf) x p)
        have he : (fun v : Fin (n + (Pg + Pf)) → ℝ => G v i) =
            fun v => v ⟨n + Pg + (i.val - k), by omega⟩ := by
          funext v
          simp only [G, join, hi, dite_false, Ptr.shift, paramsOf]
          rw [dif_pos (by omega)]
          congr 1
          apply Fin.ext
          simp; omega
        simp only [he, dif_neg hi]
        exact this)
    (by rw [eG]; exact hf r)
  simp only [hfw]
  refine h2.congr (fun c => ?_)
  rw [Fin.sum_univ_add]
  have s1 : ∑ i : Fin k, f.jac (g.fwd x p) (p.shift Pg) r (Fin.castAdd Pf i).val *
      (if h : (Fin.castAdd Pf i).val < k then
        (if c.val < n + Pg then g.jac x p ⟨(Fin.castAdd Pf i).val, h⟩ c.val else 0)
        else if c = ⟨n + Pg + ((Fin.castAdd Pf i).val - k), by omega⟩ then 1 else 0) =
      if c.val < n + Pg then ∑ i : Fin k, f.jac (g.fwd x p) (p.shift Pg) r i * g.jac x p i c.val
      else 0 := by
    by_cases hc : c.val < n + Pg <;> simp [hc]
  have s2 : ∑ i : Fin Pf, f.jac (g.fwd x p) (p.shift Pg) r (Fin.natAdd k i).val *
      (if h : (Fin.natAdd k i).val < k then
        (if c.val < n + Pg then g.jac x p ⟨(Fin.natAdd k i).val, h⟩ c.val else 0)
        else if c = ⟨n + Pg + ((Fin.natAdd k i).val - k), by simp; omega⟩ then 1 else 0) =
      if c.val < n + Pg then 0
      else f.jac (g.fwd x p) (p.shift Pg) r (k + (c.val - (n + Pg))) := by
    by_cases hc : c.val < n + Pg
    · rw [if_pos hc]
      apply Finset.sum_eq_zero
      intro i _
      simp only [Fin.val_natAdd, show ¬ (k + i.val < k) by omega, dite_false, Nat.add_sub_cancel_left]
      rw [if_neg, mul_zero]
      intro he
      have := congrArg Fin.val he
      simp at this
      omega
    · rw [if_neg hc, Finset.sum_eq_single ⟨c.val - (n + Pg), by omega⟩]
      · simp only [Fin.val_natAdd, show ¬ (k + (c.val - (n + Pg)) < k) by omega, dite_false,
          Nat.add_sub_cancel_left]
        rw [if_pos, mul_one]
        apply Fin.ext
        simp; omega
      · intro b _ hb
        simp only [Fin.val_natAdd, show ¬ (k + b.val < k) by omega, dite_false,
          Nat.add_sub_cancel_left]
        rw [if_neg, mul_zero]
        intro he
        apply hb
        apply Fin.ext
        have := congrArg Fin.val he
        simp at this
        simp; omega
      · simp
  rw [s1, s2]
  simp only [Camera.compose]
  split <;> simp

theorem Functor.Local.compose {n k m Pg Pf : ℕ} {f : Functor k Pf m} {g : Functor n Pg k}
    (hf : f.Local) (hg : g.Local) : (Camera.compose f g).Local := by
  intro x p q h
  simp only [Camera.compose]
  rw [hg x p q (fun i hi => h i (by omega))]
  exact hf _ _ _ (fun i hi => h _ (by omega))

/-- How each stage is proved: write the forward function as an expression near the point. -/
theorem jacobianAt_of_expr {n P m : ℕ} {F : Functor n P m} {x : Fin n → ℝ} {p : Ptr}
    (E : Fin m → Expr (n + P)) (hok : ∀ r, (E r).Ok (join P x p))
    (hv : ∀ r, ∀ᶠ v in nhds (join P x p), F.fwd (pointOf v) (paramsOf v) r = (E r).eval v)
    (hg : ∀ r (c : Fin (n + P)), (E r).grad (join P x p) c = F.jac x p r c.val) :
    F.JacobianAt x p := by
  intro r
  have h1 : HasFDerivAt (fun v => F.fwd (pointOf v) (paramsOf v) r)
      (form ((E r).grad (join P x p))) (join P x p) :=
    (Expr.isGrad (E r) _ (hok r)).congr_of_eventuallyEq (hv r)
  exact IsGrad.congr h1 (hg r)

namespace Expr
variable {a : ℕ}
theorem add_def (e f : Expr a) : e + f = add e f := rfl
theorem sub_def (e f : Expr a) : e - f = sub e f := rfl
theorem neg_def (e : Expr a) : -e = neg e := rfl
theorem mul_def (e f : Expr a) : e * f = mul e f := rfl
theorem div_def (e f : Expr a) : e / f = div e f := rfl
theorem ofNat_def (n : ℕ) : (OfNat.ofNat n : Expr a) = const n := rfl
theorem one_def : (1 : Expr a) = const (1 : ℕ) := rfl
theorem zero_def : (0 : Expr a) = const (0 : ℕ) := rfl
end Expr

end Verif.Camera
