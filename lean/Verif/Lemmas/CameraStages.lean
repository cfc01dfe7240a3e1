import Verif.Lemmas.CameraJac

/-! The jacobian of every polynomial stage (distortions, affine, scale) is right. -/
set_option linter.unusedSectionVars false
set_option linter.unusedSimpArgs false
set_option linter.unusedTactic false
set_option linter.unreachableTactic false
namespace Verif.Camera
open Expr

macro "eval_simp" : tactic => `(tactic|
  simp [Expr.add_def, Expr.sub_def, Expr.neg_def, Expr.mul_def, Expr.div_def, Expr.ofNat_def,
    Expr.one_def, Expr.zero_def, Expr.eval, Expr.grad, Expr.Ok, pointOf, paramsOf, join, row, sqNorm])

theorem local_affine : affine.Local := by
  intro x p q h
  simp [affine, h 0, h 1, h 2, h 3]

theorem jac_affine (x : Fin 2 → ℝ) (p : Ptr) : affine.JacobianAt x p := by
  refine jacobianAt_of_expr ![var 2 * var 0 + var 4, var 2 * var 3 * var 1 + var 5] ?_ ?_ ?_
  · intro r; fin_cases r <;> eval_simp
  · intro r
    refine Filter.Eventually.of_forall (fun v => ?_)
    fin_cases r <;> simp [affine] <;> eval_simp
  · intro r c
    fin_cases r <;> fin_cases c <;> simp [affine] <;> eval_simp <;> try ring

theorem local_scale : uniformScale.Local := by
  intro x p q h
  simp [uniformScale, h 0]

theorem jac_scale (x : Fin 2 → ℝ) (p : Ptr) : uniformScale.JacobianAt x p := by
  refine jacobianAt_of_expr ![var 2 * var 0, var 2 * var 1] ?_ ?_ ?_
  · intro r; fin_cases r <;> eval_simp
  · intro r
    refine Filter.Eventually.of_forall (fun v => ?_)
    fin_cases r <;> simp [uniformScale] <;> eval_simp
  · intro r c
    fin_cases r <;> fin_cases c <;> simp [uniformScale] <;> eval_simp <;> try ring

theorem local_identity : identity.Local := by
  intro x p q h
  simp [identity]

theorem jac_identity (x : Fin 2 → ℝ) (p : Ptr) : identity.JacobianAt x p := by
  refine jacobianAt_of_expr ![var 0, var 1] ?_ ?_ ?_
  · intro r; fin_cases r <;> eval_simp
  · intro r
    refine Filter.Eventually.of_forall (fun v => ?_)
    fin_cases r <;> simp [identity] <;> eval_simp
  · intro r c
    fin_cases r <;> fin_cases c <;> simp [identity] <;> eval_simp <;> try ring

theorem local_disto2 : disto2.Local := by
  intro x p q h
  simp [disto2, h 0]

theorem jac_disto2 (x : Fin 2 → ℝ) (p : Ptr) : disto2.JacobianAt x p := by
  let r2 : Expr (2 + 1) := var 0 * var 0 + var 1 * var 1
  refine jacobianAt_of_expr ![var 0 * (1 + r2 * var 2), var 1 * (1 + r2 * var 2)] ?_ ?_ ?_
  · intro r; fin_cases r <;> simp [r2] <;> eval_simp
  · intro r
    refine Filter.Eventually.of_forall (fun v => ?_)
    fin_cases r <;> simp [disto2, disto2Dist, r2] <;> eval_simp
  · intro r c
    fin_cases r <;> fin_cases c <;> simp [disto2, disto2Dist, r2] <;> eval_simp <;> try ring

theorem local_disto24 : disto24.Local := by
  intro x p q h
  simp [disto24, h 0, h 1]

theorem jac_disto24 (x : Fin 2 → ℝ) (p : Ptr) : disto24.JacobianAt x p := by
  let r2 : Expr (2 + 2) := var 0 * var 0 + var 1 * var 1
  let d : Expr (2 + 2) := 1 + r2 * (var 2 + var 3 * r2)
  refine jacobianAt_of_expr ![var 0 * d, var 1 * d] ?_ ?_ ?_
  · intro r; fin_cases r <;> simp [r2, d] <;> eval_simp
  · intro r
    refine Filter.Eventually.of_forall (fun v => ?_)
    fin_cases r <;> simp [disto24, disto24Dist, r2, d] <;> eval_simp
  · intro r c
    fin_cases r <;> fin_cases c <;> simp [disto24, disto24Dist, r2, d] <;> eval_simp <;> try ring

theorem local_disto2468 : disto2468.Local := by
  intro x p q h
  simp [disto2468, h 0, h 1, h 2, h 3]

theorem jac_disto2468 (x : Fin 2 → ℝ) (p : Ptr) : disto2468.JacobianAt x p := by
  let r2 : Expr (2 + 4) := var 0 * var 0 + var 1 * var 1
  let d : Expr (2 + 4) := 1 + r2 * (var 2 + r2 * (var 3 + r2 * (var 4 + r2 * var 5)))
  refine jacobianAt_of_expr ![var 0 * d, var 1 * d] ?_ ?_ ?_
  · intro r; fin_cases r <;> simp [r2, d] <;> eval_simp
  · intro r
    refine Filter.Eventually.of_forall (fun v => ?_)
    fin_cases r <;> simp [disto2468, disto2468Dist, r2, d] <;> eval_simp
  · intro r c
    fin_cases r <;> fin_cases c <;> simp [disto2468, disto2468Dist, r2, d] <;> eval_simp <;> try ring

theorem local_brown : brown.Local := by
  intro x p q h
  simp [brown, brownFwd, h 0, h 1, h 2, h 3, h 4]

theorem jac_brown (x : Fin 2 → ℝ) (p : Ptr) : brown.JacobianAt x p := by
  let r2 : Expr (2 + 5) := var 0 * var 0 + var 1 * var 1
  let d : Expr (2 + 5) := 1 + r2 * (var 2 + r2 * (var 3 + r2 * var 4))
  let x0 : Expr (2 + 5) := var 0
  let y0 : Expr (2 + 5) := var 1
  refine jacobianAt_of_expr
    ![x0 * d + (2 * var 5 * x0 * y0 + var 6 * (r2 + 2 * x0 * x0)),
      y0 * d + (2 * var 6 * x0 * y0 + var 5 * (r2 + 2 * y0 * y0))] ?_ ?_ ?_
  · intro r; fin_cases r <;> simp [r2, d, x0, y0] <;> eval_simp
  · intro r
    refine Filter.Eventually.of_forall (fun v => ?_)
    fin_cases r <;> simp [brown, brownFwd, radial3, tangential, r2, d, x0, y0] <;> eval_simp
  · intro r c
    fin_cases r <;> fin_cases c <;> simp [brown, brownJac, r2, d, x0, y0] <;> eval_simp <;> try ring

theorem local_disto62 : disto62.Local := by
  intro x p q h
  simp [disto62, disto62Fwd, h 0, h 1, h 2, h 3, h 4, h 5, h 6, h 7]

theorem jac_disto62 (x : Fin 2 → ℝ) (p : Ptr) : disto62.JacobianAt x p := by
  let r2 : Expr (2 + 8) := var 0 * var 0 + var 1 * var 1
  let d : Expr (2 + 8) := 1 + r2 * (var 2 + r2 * (var 3 + r2 * (var 4 + r2 * (var 5 + r2 * (var 6 + r2 * var 7)))))
  let x0 : Expr (2 + 8) := var 0
  let y0 : Expr (2 + 8) := var 1
  refine jacobianAt_of_expr
    ![x0 * d + (2 * var 8 * x0 * y0 + var 9 * (r2 + 2 * x0 * x0)),
      y0 * d + (2 * var 9 * x0 * y0 + var 8 * (r2 + 2 * y0 * y0))] ?_ ?_ ?_
  · intro r; fin_cases r <;> simp [r2, d, x0, y0] <;> eval_simp
  · intro r
    refine Filter.Eventually.of_forall (fun v => ?_)
    fin_cases r <;> simp [disto62, disto62Fwd, radial6, tangential, r2, d, x0, y0] <;> eval_simp
  · intro r c
    fin_cases r <;> fin_cases c <;> simp [disto62, disto62Jac, radial6, r2, d, x0, y0] <;> eval_simp <;>
      try ring

theorem local_disto624 : disto624.Local := by
  intro x p q h
  simp [disto624, disto624Fwd, h 0, h 1, h 2, h 3, h 4, h 5, h 6, h 7, h 8, h 9, h 10, h 11]

theorem jac_disto624 (x : Fin 2 → ℝ) (p : Ptr) : disto624.JacobianAt x p := by
  let r2 : Expr (2 + 12) := var 0 * var 0 + var 1 * var 1
  let d : Expr (2 + 12) := 1 + r2 * (var 2 + r2 * (var 3 + r2 * (var 4 + r2 * (var 5 + r2 * (var 6 + r2 * var 7)))))
  let x0 : Expr (2 + 12) := var 0
  let y0 : Expr (2 + 12) := var 1
  refine jacobianAt_of_expr
    ![x0 * d + (2 * var 8 * x0 * y0 + var 9 * (r2 + 2 * x0 * x0)) + (var 10 * r2 + var 11 * r2 * r2),
      y0 * d + (2 * var 9 * x0 * y0 + var 8 * (r2 + 2 * y0 * y0)) + (var 12 * r2 + var 13 * r2 * r2)]
    ?_ ?_ ?_
  · intro r; fin_cases r <;> simp [r2, d, x0, y0] <;> eval_simp
  · intro r
    refine Filter.Eventually.of_forall (fun v => ?_)
    fin_cases r <;> simp [disto624, disto624Fwd, radial6, tangential, thinPrism, r2, d, x0, y0] <;>
      eval_simp
  · intro r c
    fin_cases r <;> fin_cases c <;> simp [disto624, disto624Jac, radial6, r2, d, x0, y0] <;>
      eval_simp <;> try ring

end Verif.Camera
