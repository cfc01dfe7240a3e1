import Verif.Model.StatsErrors
import Verif.Lemmas.MapCopy
import Verif.Base.Group
import Mathlib.Analysis.InnerProductSpace.PiL2
import Mathlib.Algebra.Order.BigOperators.Group.List
import Mathlib.Tactic.Linarith
import Mathlib.Tactic.NormNum
import Mathlib.Tactic.FieldSimp
import Mathlib.Tactic.Positivity
import Mathlib.Tactic.LinearCombination

/-!
# C112 — Errors and calibrations of the report
-/
set_option linter.unusedSectionVars false
set_option linter.unusedSimpArgs false
set_option linter.unusedVariables false
namespace Verif.StatsErrors
open Verif.MapCopy

variable {Id A X C K B P D M R : Type} [DecidableEq Id]

/-! ### Numbers -/

/-- The square of the length of a vector. -/
def sq (v : V3) : ℝ := v 0 ^ 2 + v 1 ^ 2 + v 2 ^ 2

theorem sum_sq_dev (l : List ℝ) (m : ℝ) : (l.map fun x => (x - m) * (x - m)).sum = (l.map fun x => x * x).sum - 2 * m * l.sum + l.length * (m * m) := by
  induction l with
  | nil => simp
  | cons a t ih =>
    rw [List.map_cons, List.sum_cons, ih, List.map_cons, List.sum_cons, List.sum_cons, List.length_cons]
    push_cast; ring

theorem sum_nonneg_map {α : Type} (l : List α) (f : α → ℝ) (h : ∀ x, 0 ≤ f x) : 0 ≤ (l.map f).sum :=
  List.sum_nonneg fun y hy => by obtain ⟨x, _, rfl⟩ := List.mem_map.1 hy; exact h x

theorem std_sq (l : List ℝ) (hl : l ≠ []) : mean (l.map fun x => (x - mean l) * (x - mean l)) = mean (l.map fun x => x * x) - mean l * mean l := by
  have h0 : (l.length : ℝ) ≠ 0 := by
    have := List.length_pos_iff.2 hl
    positivity
  unfold mean
  rw [sum_sq_dev, List.length_map, List.length_map]
  field_simp
  ring

theorem mean_nonneg {α : Type} (l : List α) (f : α → ℝ) (h : ∀ x, 0 ≤ f x) : 0 ≤ mean (l.map f) := by
  unfold mean
  exact div_nonneg (sum_nonneg_map l f h) (Nat.cast_nonneg _)

theorem norm_sq (v : V3) : norm v * norm v = sq v := by
  unfold norm sq
  rw [Real.mul_self_sqrt (add_nonneg (add_nonneg (mul_self_nonneg _) (mul_self_nonneg _)) (mul_self_nonneg _))]
  ring

theorem norm_nonneg (v : V3) : 0 ≤ norm v := Real.sqrt_nonneg _

theorem norm_add (v w : V3) : norm (v + w) ≤ norm v + norm w := by
  have h1 := norm_nonneg v
  have h2 := norm_nonneg w
  have h3 := norm_sq v
  have h4 := norm_sq w
  have h5 := norm_sq (v + w)
  have h6 := norm_nonneg (v + w)
  unfold sq at h3 h4 h5
  simp only [Pi.add_apply] at h5
  have hcs : v 0 * w 0 + v 1 * w 1 + v 2 * w 2 ≤ norm v * norm w := by
    refine abs_le_of_sq_le_sq' ?_ (mul_nonneg h1 h2) |>.2
    have : (norm v * norm w) ^ 2 = (v 0 ^ 2 + v 1 ^ 2 + v 2 ^ 2) * (w 0 ^ 2 + w 1 ^ 2 + w 2 ^ 2) := by
      rw [← h3, ← h4]; ring
    rw [this]
    nlinarith [sq_nonneg (v 0 * w 1 - v 1 * w 0), sq_nonneg (v 0 * w 2 - v 2 * w 0), sq_nonneg (v 1 * w 2 - v 2 * w 1)]
  nlinarith

theorem norm_sum (l : List V3) : norm (fun i => (l.map fun e => e i).sum) ≤ (l.map norm).sum := by
  induction l with
  | nil => simp [norm]
  | cons a t ih =>
    have : (fun i => ((a :: t).map fun e => e i).sum) = a + fun i => (t.map fun e => e i).sum := by
      funext i; simp
    rw [this, List.map_cons, List.sum_cons]
    exact le_trans (norm_add _ _) (by linarith)

theorem norm_smul (c : ℝ) (hc : 0 ≤ c) (v : V3) : norm (fun i => c * v i) = c * norm v := by
  unfold norm
  rw [show c * v 0 * (c * v 0) + c * v 1 * (c * v 1) + c * v 2 * (c * v 2) = c ^ 2 * (v 0 * v 0 + v 1 * v 1 + v 2 * v 2) by ring,
    Real.sqrt_mul (by positivity), Real.sqrt_sq hc]

/-- C112: the numbers about the errors are what their names say: mean and standard deviation per axis, root of the mean square per axis, and the mean length. -/
theorem C112_values (errors : List V3) :
    (errors = [] ↔ errorStats errors = none) ∧
    ∀ s, errorStats errors = some s →
      (∀ i, errors.length * s.mean i = (errors.map fun e => e i).sum) ∧
      (∀ i, 0 ≤ s.std i ∧ errors.length * s.std i ^ 2 = (errors.map fun e => (e i - s.mean i) ^ 2).sum) ∧
      (∀ i, 0 ≤ s.error i ∧ errors.length * s.error i ^ 2 = (errors.map fun e => e i ^ 2).sum) ∧
      errors.length * s.average = (errors.map fun e => Real.sqrt (e 0 ^ 2 + e 1 ^ 2 + e 2 ^ 2)).sum := by
  unfold errorStats
  constructor
  · constructor
    · rintro rfl; rfl
    · intro h
      split at h
      · exact List.eq_nil_of_length_eq_zero (by assumption)
      · exact absurd h (by simp)
  · intro s hs
    split at hs
    · exact absurd hs (by simp)
    · rename_i hl
      obtain rfl := Option.some.inj hs
      have h0 : (errors.length : ℝ) ≠ 0 := by exact_mod_cast hl
      have hmul : ∀ l : List ℝ, l.length = errors.length → (errors.length : ℝ) * mean l = l.sum := by
        intro l h
        unfold mean
        rw [h]; field_simp
      refine ⟨fun i => ?_, fun i => ⟨Real.sqrt_nonneg _, ?_⟩, fun i => ⟨Real.sqrt_nonneg _, ?_⟩, ?_⟩
      · exact hmul _ (by simp)
      · show (errors.length : ℝ) * (std (errors.map fun e => e i)) ^ 2 = _
        unfold std
        rw [Real.sq_sqrt (mean_nonneg _ _ fun x => mul_self_nonneg _), hmul _ (by simp), List.map_map]
        congr 1
        refine List.map_congr_left fun e _ => ?_
        simp only [Function.comp]; ring
      · show (errors.length : ℝ) * (Real.sqrt (mean (errors.map fun e => e i * e i))) ^ 2 = _
        rw [Real.sq_sqrt (mean_nonneg _ _ fun x => mul_self_nonneg _), hmul _ (by simp)]
        congr 1
        exact List.map_congr_left fun e _ => by ring
      · show (errors.length : ℝ) * mean (errors.map norm) = _
        rw [hmul _ (by simp)]
        congr 1
        refine List.map_congr_left fun e _ => ?_
        unfold norm
        congr 1; ring

/-- C112: how these numbers hang together: on each axis the square of the error is the square of the mean and the square of the standard
deviation; the average length is between the length of the mean and the root of the three squared errors. -/
theorem C112_relations (errors : List V3) (s : ErrorStats) (hs : errorStats errors = some s) :
    (∀ i, s.error i ^ 2 = s.mean i ^ 2 + s.std i ^ 2) ∧
    Real.sqrt (s.mean 0 ^ 2 + s.mean 1 ^ 2 + s.mean 2 ^ 2) ≤ s.average ∧
    s.average ^ 2 ≤ s.error 0 ^ 2 + s.error 1 ^ 2 + s.error 2 ^ 2 ∧
    (s.average = 0 ↔ ∀ e ∈ errors, e = 0) := by
  obtain ⟨h1, h2⟩ := C112_values errors
  have hne : errors ≠ [] := fun h => by rw [h1.1 h] at hs; exact absurd hs (by simp)
  obtain ⟨v1, v2, v3, v4⟩ := h2 s hs
  have hlen : (0 : ℝ) < errors.length := by exact_mod_cast List.length_pos_iff.2 hne
  have hnorm : ∀ e : V3, Real.sqrt (e 0 ^ 2 + e 1 ^ 2 + e 2 ^ 2) = norm e := fun e => by unfold norm; congr 1; ring
  simp only [hnorm] at v4
  refine ⟨fun i => ?_, ?_, ?_, ?_⟩
  · have e1 := (v2 i).2
    have e2 := (v3 i).2
    have e3 := sum_sq_dev (errors.map fun e => e i) (s.mean i)
    rw [List.map_map, List.map_map, List.length_map, ← v1 i] at e3
    have e4 : (errors.map ((fun x => (x - s.mean i) * (x - s.mean i)) ∘ fun e => e i)).sum = (errors.map fun e => (e i - s.mean i) ^ 2).sum := by
      congr 1; exact List.map_congr_left fun e _ => by simp only [Function.comp]; ring
    have e5 : (errors.map ((fun x => x * x) ∘ fun e => e i)).sum = (errors.map fun e => e i ^ 2).sum := by
      congr 1; exact List.map_congr_left fun e _ => by simp only [Function.comp]; ring
    rw [e4, e5, ← e1, ← e2] at e3
    have : (errors.length : ℝ) * (s.error i ^ 2 - (s.mean i ^ 2 + s.std i ^ 2)) = 0 := by linear_combination -e3
    rcases mul_eq_zero.1 this with h | h
    · exact absurd h (ne_of_gt hlen)
    · linarith
  · rw [hnorm]
    have e1 := norm_sum errors
    have e2 : (fun i => (errors.map fun e => e i).sum) = fun i => (errors.length : ℝ) * s.mean i := by
      funext i; exact (v1 i).symm
    rw [e2, norm_smul _ hlen.le, ← v4] at e1
    exact le_of_mul_le_mul_left e1 hlen
  · have e1 : (errors.length : ℝ) * (s.error 0 ^ 2 + s.error 1 ^ 2 + s.error 2 ^ 2) = (errors.map fun e => norm e * norm e).sum := by
      rw [mul_add, mul_add, (v3 0).2, (v3 1).2, (v3 2).2]
      clear * -
      induction errors with
      | nil => simp
      | cons a t ih =>
        simp only [List.map_cons, List.sum_cons]
        rw [norm_sq a, ← ih]
        unfold sq; ring
    have e2 := sum_sq_dev (errors.map norm) s.average
    rw [List.map_map, List.map_map, List.length_map, ← v4] at e2
    have e3 : 0 ≤ (errors.map ((fun x => (x - s.average) * (x - s.average)) ∘ norm)).sum := sum_nonneg_map _ _ fun x => mul_self_nonneg _
    have e4 : (errors.map ((fun x => x * x) ∘ norm)).sum = (errors.map fun e => norm e * norm e).sum := rfl
    rw [e2, e4, ← e1] at e3
    have : 0 ≤ (errors.length : ℝ) * ((s.error 0 ^ 2 + s.error 1 ^ 2 + s.error 2 ^ 2) - s.average ^ 2) := by nlinarith
    have := nonneg_of_mul_nonneg_right this hlen
    linarith
  · have e1 : s.average = 0 ↔ (errors.map norm).sum = 0 := by
      rw [← v4]
      constructor
      · intro h; rw [h, mul_zero]
      · intro h
        rcases mul_eq_zero.1 h with h | h
        · exact absurd h (ne_of_gt hlen)
        · exact h
    rw [e1]
    have e2 : ∀ e : V3, norm e = 0 ↔ e = 0 := by
      intro e
      constructor
      · intro h
        have h3 := norm_sq e
        rw [h, mul_zero] at h3
        unfold sq at h3
        funext i
        fin_cases i
        · show e 0 = 0; nlinarith [sq_nonneg (e 0), sq_nonneg (e 1), sq_nonneg (e 2)]
        · show e 1 = 0; nlinarith [sq_nonneg (e 0), sq_nonneg (e 1), sq_nonneg (e 2)]
        · show e 2 = 0; nlinarith [sq_nonneg (e 0), sq_nonneg (e 1), sq_nonneg (e 2)]
      · rintro rfl; simp [norm]
    clear * - e2
    induction errors with
    | nil => simp
    | cons a t ih =>
      rw [List.map_cons, List.sum_cons]
      have h1 := norm_nonneg a
      have h2 := sum_nonneg_map t norm norm_nonneg
      constructor
      · intro h
        have ha : norm a = 0 := by linarith
        have ht : (t.map norm).sum = 0 := by linarith
        intro e he
        rcases List.mem_cons.1 he with rfl | he
        · exact (e2 _).1 ha
        · exact (ih.1 ht) e he
      · intro h
        rw [(e2 a).2 (h a List.mem_cons_self), ih.2 fun e he => h e (List.mem_cons_of_mem _ he), add_zero]

example : ∃ s, errorStats [![1, 0, 0], ![3, 0, 4]] = some s ∧ s.mean 0 = 2 ∧ s.average = 3 := by
  refine ⟨_, rfl, ?_, ?_⟩
  · simp [mean]; norm_num
  · simp [mean, norm]
    rw [show (3 : ℝ) * 3 + 4 * 4 = 5 ^ 2 by norm_num, Real.sqrt_sq (by norm_num)]
    norm_num

/-! ### GPS and ground control points -/

/-- C112: the errors of the GPS are, for exactly the shots with a position, the optical centre minus the position corrected by the bias of the camera of the shot;
it fails exactly when such a camera has no bias. -/
theorem C112_gps (gps : FShot Id A D M → Option V3) (origin : FMap Id A X C K B P D M R → FShot Id A D M → V3) (transform : B → V3 → V3)
    (recs : List (FMap Id A X C K B P D M R)) :
    (gpsErrors gps origin transform recs = none ↔ ∃ r ∈ recs, ∃ sh ∈ r.shots.vals, (gps sh).isSome ∧ r.bias.get? sh.camera = none) ∧
    ∀ l, gpsErrors gps origin transform recs = some l → List.Forall₂ (fun (e : FMap Id A X C K B P D M R × FShot Id A D M) x =>
        ∃ g b, gps e.2 = some g ∧ e.1.bias.get? e.2.camera = some b ∧ ∀ i, x i = origin e.1 e.2 i - transform b g i)
      (recs.flatMap fun r => (r.shots.vals.filter fun sh => (gps sh).isSome).map fun sh => (r, sh)) l := by
  have shot : ∀ (r : FMap Id A X C K B P D M R) (L : List (FShot Id A D M)) (acc : List V3),
      (L.foldlM (gpsStep gps origin transform r) acc = none ↔ ∃ sh ∈ L, (gps sh).isSome ∧ r.bias.get? sh.camera = none) ∧
      ∀ l, L.foldlM (gpsStep gps origin transform r) acc = some l → ∃ l', l = acc ++ l' ∧
        List.Forall₂ (fun (e : FMap Id A X C K B P D M R × FShot Id A D M) x =>
          ∃ g b, gps e.2 = some g ∧ e.1.bias.get? e.2.camera = some b ∧ ∀ i, x i = origin e.1 e.2 i - transform b g i)
          ((L.filter fun sh => (gps sh).isSome).map fun sh => (r, sh)) l' := by
    intro r L
    induction L with
    | nil =>
      intro acc
      refine ⟨by simp, fun l h => ⟨[], ?_, List.Forall₂.nil⟩⟩
      have : acc = l := by simpa using h
      simp [this]
    | cons sh t ih =>
      intro acc
      rw [List.foldlM_cons]
      unfold gpsStep
      cases hg : gps sh with
      | none =>
        rw [List.filter_cons_of_neg (by simp [hg])]
        obtain ⟨i1, i2⟩ := ih acc
        refine ⟨?_, i2⟩
        refine i1.trans ?_
        constructor
        · rintro ⟨x, hx, hh⟩; exact ⟨x, List.mem_cons_of_mem _ hx, hh⟩
        · rintro ⟨x, hx, hh⟩
          rcases List.mem_cons.1 hx with rfl | hx
          · rw [hg] at hh; exact absurd hh.1 (by simp)
          · exact ⟨x, hx, hh⟩
      | some g =>
        rw [List.filter_cons_of_pos (by simp [hg])]
        cases hb : r.bias.get? sh.camera with
        | none =>
          refine ⟨⟨fun _ => ⟨sh, List.mem_cons_self, by rw [hg]; rfl, hb⟩, fun _ => rfl⟩, fun l h => absurd h (by simp)⟩
        | some b =>
          obtain ⟨i1, i2⟩ := ih (acc ++ [origin r sh - transform b g])
          constructor
          · refine i1.trans ?_
            constructor
            · rintro ⟨x, hx, hh⟩; exact ⟨x, List.mem_cons_of_mem _ hx, hh⟩
            · rintro ⟨x, hx, hh⟩
              rcases List.mem_cons.1 hx with rfl | hx
              · rw [hb] at hh; exact absurd hh.2 (by simp)
              · exact ⟨x, hx, hh⟩
          · intro l h
            obtain ⟨l', e1, e2⟩ := i2 l h
            refine ⟨(origin r sh - transform b g) :: l', by rw [e1]; simp, ?_⟩
            rw [List.map_cons]
            exact List.Forall₂.cons ⟨g, b, hg, hb, fun i => rfl⟩ e2
  have all : ∀ (recs : List (FMap Id A X C K B P D M R)) (acc : List V3),
      (recs.foldlM (gpsRec gps origin transform) acc = none ↔ ∃ r ∈ recs, ∃ sh ∈ r.shots.vals, (gps sh).isSome ∧ r.bias.get? sh.camera = none) ∧
      ∀ l, recs.foldlM (gpsRec gps origin transform) acc = some l → ∃ l', l = acc ++ l' ∧
        List.Forall₂ (fun (e : FMap Id A X C K B P D M R × FShot Id A D M) x =>
          ∃ g b, gps e.2 = some g ∧ e.1.bias.get? e.2.camera = some b ∧ ∀ i, x i = origin e.1 e.2 i - transform b g i)
          (recs.flatMap fun r => (r.shots.vals.filter fun sh => (gps sh).isSome).map fun sh => (r, sh)) l' := by
    intro recs
    induction recs with
    | nil =>
      intro acc
      refine ⟨by simp, fun l h => ⟨[], ?_, List.Forall₂.nil⟩⟩
      have : acc = l := by simpa using h
      simp [this]
    | cons r t ih =>
      intro acc
      rw [List.foldlM_cons, List.flatMap_cons]
      obtain ⟨s1, s2⟩ := shot r r.shots.vals []
      unfold gpsRec gpsErrorsOf
      cases hr : r.shots.vals.foldlM (gpsStep gps origin transform r) [] with
      | none =>
        obtain ⟨sh, h1, h2⟩ := s1.1 hr
        exact ⟨⟨fun _ => ⟨r, List.mem_cons_self, sh, h1, h2⟩, fun _ => rfl⟩, fun l h => absurd h (by simp)⟩
      | some e =>
        obtain ⟨e', h1, h2⟩ := s2 e hr
        rw [List.nil_append] at h1
        subst h1
        obtain ⟨i1, i2⟩ := ih (acc ++ e)
        constructor
        · refine i1.trans ?_
          constructor
          · rintro ⟨x, hx, hh⟩; exact ⟨x, List.mem_cons_of_mem _ hx, hh⟩
          · rintro ⟨x, hx, sh, hsh, hh⟩
            rcases List.mem_cons.1 hx with rfl | hx
            · rw [s1.2 ⟨sh, hsh, hh⟩] at hr; exact absurd hr (by simp)
            · exact ⟨x, hx, sh, hsh, hh⟩
        · intro l h
          obtain ⟨l', e1, e2⟩ := i2 l h
          exact ⟨e ++ l', by rw [e1, List.append_assoc], List.rel_append h2 e2⟩
  obtain ⟨a1, a2⟩ := all recs []
  refine ⟨a1, fun l h => ?_⟩
  obtain ⟨l', e1, e2⟩ := a2 l h
  rw [List.nil_append] at e1
  rw [e1]; exact e2

theorem firstTriangulated_iff {G Rec : Type} (triangulate : G → Rec → Option V3) (g : G) (recs : List Rec) (x : V3) :
    firstTriangulated triangulate g recs = some x ↔ ∃ before r after, recs = before ++ r :: after ∧ triangulate g r = some x ∧
      ∀ b ∈ before, triangulate g b = none := by
  induction recs with
  | nil => simp [firstTriangulated]
  | cons a t ih =>
    unfold firstTriangulated
    cases ha : triangulate g a with
    | none =>
      simp only
      rw [ih]
      constructor
      · rintro ⟨b, r, c, h1, h2, h3⟩
        exact ⟨a :: b, r, c, by rw [h1]; rfl, h2, fun y hy => by
          rcases List.mem_cons.1 hy with rfl | hy
          · exact ha
          · exact h3 y hy⟩
      · rintro ⟨b, r, c, h1, h2, h3⟩
        rcases b with _ | ⟨b0, b⟩
        · simp only [List.nil_append, List.cons.injEq] at h1
          rw [h1.1, h2] at ha; exact absurd ha (by simp)
        · simp only [List.cons_append, List.cons.injEq] at h1
          exact ⟨b, r, c, h1.2, h2, fun y hy => h3 y (List.mem_cons_of_mem _ hy)⟩
    | some y =>
      simp only [Option.some.injEq]
      constructor
      · rintro rfl; exact ⟨[], a, t, rfl, ha, by simp⟩
      · rintro ⟨b, r, c, h1, h2, h3⟩
        rcases b with _ | ⟨b0, b⟩
        · simp only [List.nil_append, List.cons.injEq] at h1
          rw [← h1.1, ha] at h2; exact Option.some.inj h2
        · simp only [List.cons_append, List.cons.injEq] at h1
          have := h3 b0 List.mem_cons_self
          rw [← h1.1, ha] at this; exact absurd this (by simp)

/-- C112: the errors of the ground control points are, in their order, for the points with a position that some reconstruction triangulates, the point of the first such
reconstruction minus the position. -/
theorem C112_gcp {G Rec : Type} (triangulate : G → Rec → Option V3) (position : G → Option V3) (recs : List Rec) (gcps : List G) :
    ∃ used : List G, used.Sublist gcps ∧
      (∀ g ∈ gcps, (g ∈ used ↔ (position g).isSome ∧ ∃ r ∈ recs, (triangulate g r).isSome)) ∧
      List.Forall₂ (fun g x => ∃ enu y before r after, position g = some enu ∧ recs = before ++ r :: after ∧ triangulate g r = some y ∧
        (∀ b ∈ before, triangulate g b = none) ∧ ∀ i, x i = y i - enu i) used (gcpErrors triangulate position recs gcps) := by
  have hex : ∀ g, (firstTriangulated triangulate g recs).isSome ↔ ∃ r ∈ recs, (triangulate g r).isSome := by
    intro g
    constructor
    · intro h
      obtain ⟨x, hx⟩ := Option.isSome_iff_exists.1 h
      obtain ⟨b, r, c, h1, h2, _⟩ := (firstTriangulated_iff triangulate g recs x).1 hx
      exact ⟨r, by rw [h1]; simp, by rw [h2]; rfl⟩
    · rintro ⟨r, hr, h⟩
      clear * - hr h
      induction recs with
      | nil => exact absurd hr (by simp)
      | cons a t ih =>
        unfold firstTriangulated
        cases ha : triangulate g a with
        | some y => rfl
        | none =>
          rcases List.mem_cons.1 hr with rfl | hr
          · rw [ha] at h; exact absurd h (by simp)
          · exact ih hr
  refine ⟨gcps.filter fun g => (position g).isSome && (firstTriangulated triangulate g recs).isSome, List.filter_sublist, ?_, ?_⟩
  · intro g hg
    rw [List.mem_filter, ← hex g]
    simp [hg]
  · unfold gcpErrors
    suffices H : ∀ (L : List G) (acc : List V3), ∃ l', L.foldl (gcpStep triangulate position recs) acc = acc ++ l' ∧
        List.Forall₂ (fun g x => ∃ enu y before r after, position g = some enu ∧ recs = before ++ r :: after ∧ triangulate g r = some y ∧
          (∀ b ∈ before, triangulate g b = none) ∧ ∀ i, x i = y i - enu i)
          (L.filter fun g => (position g).isSome && (firstTriangulated triangulate g recs).isSome) l' by
      obtain ⟨l', h1, h2⟩ := H gcps []
      rw [h1, List.nil_append]; exact h2
    intro L
    induction L with
    | nil => intro acc; exact ⟨[], by simp, List.Forall₂.nil⟩
    | cons g t ih =>
      intro acc
      rw [List.foldl_cons]
      cases hp : position g with
      | none =>
        rw [List.filter_cons_of_neg (by simp [hp]), show gcpStep triangulate position recs acc g = acc by unfold gcpStep; rw [hp]]
        exact ih acc
      | some enu =>
        cases hf : firstTriangulated triangulate g recs with
        | none =>
          rw [List.filter_cons_of_neg (by simp [hf]), show gcpStep triangulate position recs acc g = acc by unfold gcpStep; rw [hp, hf]]
          exact ih acc
        | some x =>
          rw [List.filter_cons_of_pos (by simp [hp, hf])]
          obtain ⟨l', h1, h2⟩ := ih (acc ++ [x - enu])
          refine ⟨(x - enu) :: l', ?_, ?_⟩
          · rw [show gcpStep triangulate position recs acc g = acc ++ [x - enu] by unfold gcpStep; rw [hp, hf], h1, List.append_assoc]; rfl
          · obtain ⟨b, r, c, e1, e2, e3⟩ := (firstTriangulated_iff triangulate g recs x).1 hf
            exact List.Forall₂.cons ⟨enu, x, b, r, c, hp, e1, e2, e3, fun i => rfl⟩ h2

/-! ### Cameras and rigs -/

/-- The order of `argsort`: all the indices, the reconstructions with the most shots first. -/
structure IsArgsort (recs : List (FMap Id A X C K B P D M R)) (perm : List ℕ) : Prop where
  all : perm.Perm (List.range recs.length)
  sorted : perm.Pairwise fun i j => ∀ a b, recs[i]? = some a → recs[j]? = some b → b.shots.length ≤ a.shots.length

/-- The reconstructions in the order of `argsort`. -/
theorem IsArgsort.recs {recs : List (FMap Id A X C K B P D M R)} {perm : List ℕ} (h : IsArgsort recs perm) :
    ∃ rs : List (FMap Id A X C K B P D M R), perm.map (fun i => recs[i]?) = rs.map some ∧ (∀ r, r ∈ rs ↔ r ∈ recs) ∧
      rs.Pairwise fun a b => b.shots.length ≤ a.shots.length := by
  have h1 : ∀ (L : List ℕ), (∀ i ∈ L, i < recs.length) → ∃ rs : List (FMap Id A X C K B P D M R), L.map (fun i => recs[i]?) = rs.map some := by
    intro L
    induction L with
    | nil => intro _; exact ⟨[], rfl⟩
    | cons i t ih =>
      intro hL
      obtain ⟨rs, hr⟩ := ih fun i hi => hL i (List.mem_cons_of_mem _ hi)
      refine ⟨recs[i]'(hL i List.mem_cons_self) :: rs, ?_⟩
      rw [List.map_cons, List.map_cons, hr, List.getElem?_eq_getElem (hL i List.mem_cons_self)]
  obtain ⟨rs, hr⟩ := h1 perm fun i hi => List.mem_range.1 (h.all.mem_iff.1 hi)
  refine ⟨rs, hr, fun r => ?_, ?_⟩
  · have : some r ∈ perm.map (fun i => recs[i]?) ↔ some r ∈ rs.map some := by rw [hr]
    rw [List.mem_map, List.mem_map] at this
    constructor
    · intro hm
      obtain ⟨i, _, hi⟩ := this.2 ⟨r, hm, rfl⟩
      exact List.mem_of_getElem? hi
    · intro hm
      obtain ⟨i, hi, rfl⟩ := List.getElem_of_mem hm
      obtain ⟨r', hr', e⟩ := this.1 ⟨i, h.all.mem_iff.2 (List.mem_range.2 hi), List.getElem?_eq_getElem hi⟩
      obtain rfl := Option.some.inj e
      exact hr'
  · have h2 : (perm.map (fun i => recs[i]?)).Pairwise fun x y => ∀ a b, x = some a → y = some b → b.shots.length ≤ a.shots.length :=
      List.pairwise_map.2 h.sorted
    rw [hr, List.pairwise_map] at h2
    exact h2.imp fun {a b} hab => hab a b rfl rfl

theorem get?_append {V : Type} (a b : Dict Id V) (k : Id) : Dict.get? (a ++ b) k = (Dict.get? a k).or (Dict.get? b k) := by
  induction a with
  | nil => simp
  | cons e t ih =>
    obtain ⟨x, v⟩ := e
    rw [List.cons_append]
    by_cases h : x = k
    · simp [Dict.get?, h]
    · simp [Dict.get?, h, ih]

/-- The first value of a key in dictionaries in order. -/
theorem get?_flatMap_sorted {Rec V : Type} (len : Rec → ℕ) (g : Rec → Dict Id V) (rs : List Rec) (hs : rs.Pairwise fun a b => len b ≤ len a) (k : Id) :
    (Dict.get? (rs.flatMap g) k = none ↔ ∀ r ∈ rs, (g r).get? k = none) ∧
    ∀ v, Dict.get? (rs.flatMap g) k = some v → ∃ r ∈ rs, (g r).get? k = some v ∧ ∀ r' ∈ rs, ((g r').get? k).isSome → len r' ≤ len r := by
  induction rs with
  | nil => simp
  | cons r t ih =>
    obtain ⟨i1, i2⟩ := ih (List.pairwise_cons.1 hs).2
    rw [List.flatMap_cons, get?_append]
    cases hg : (g r).get? k with
    | none =>
      rw [Option.none_or]
      constructor
      · rw [i1]
        constructor
        · intro h x hx
          rcases List.mem_cons.1 hx with rfl | hx
          · exact hg
          · exact h x hx
        · intro h x hx; exact h x (List.mem_cons_of_mem _ hx)
      · intro v hv
        obtain ⟨r', h1, h2, h3⟩ := i2 v hv
        refine ⟨r', List.mem_cons_of_mem _ h1, h2, fun x hx hq => ?_⟩
        rcases List.mem_cons.1 hx with rfl | hx
        · rw [hg] at hq; exact absurd hq (by simp)
        · exact h3 x hx hq
    | some w =>
      rw [Option.some_or]
      constructor
      · constructor
        · intro h; exact absurd h (by simp)
        · intro h; rw [h r List.mem_cons_self] at hg; exact absurd hg (by simp)
      · intro v hv
        obtain rfl := Option.some.inj hv
        refine ⟨r, List.mem_cons_self, hg, fun x hx _ => ?_⟩
        rcases List.mem_cons.1 hx with rfl | hx
        · exact le_refl _
        · exact (List.pairwise_cons.1 hs).1 x hx

theorem init_get? {V W : Type} (f : V → W) (p : Id → Prop) [DecidablePred p] (data : Dict Id V) (hd : data.Wf) (c : Id) :
    Dict.get? (data.foldl (fun (a : Dict Id W) (e : Id × V) => if p e.1 then a else a.set e.1 (f e.2)) []) c = if p c then none else (data.get? c).map f := by
  suffices H : ∀ (data : Dict Id V) (acc : Dict Id W), data.Wf → Dict.get? (data.foldl (fun (a : Dict Id W) (e : Id × V) => if p e.1 then a else a.set e.1 (f e.2)) acc) c =
      (if p c then none else (data.get? c).map f).or (acc.get? c) by
    rw [H data [] hd]; simp
  intro data
  induction data with
  | nil => intro acc _; simp
  | cons e t ih =>
    intro acc hd
    obtain ⟨k, v⟩ := e
    have hn : Dict.get? t k = none := (Dict.get?_eq_none_iff _ _).2 (List.nodup_cons.1 hd).1
    rw [List.foldl_cons, ih _ (List.nodup_cons.1 hd).2]
    by_cases e : k = c
    · subst e
      by_cases hp : p k <;> simp [Dict.get?, hn, hp]
    · by_cases hp : p k
      · simp [Dict.get?, e, hp]
      · simp [Dict.get?, e, hp, Dict.get?_set]

theorem init_get?' {V W : Type} (f : V → W) (data : Dict Id V) (hd : data.Wf) (c : Id) :
    Dict.get? (data.foldl (fun (a : Dict Id W) (e : Id × V) => a.set e.1 (f e.2)) []) c = (data.get? c).map f := by
  have := init_get? f (fun _ => False) data hd c
  simpa using this

/-- The entries of a reconstruction: cameras with their bias. -/
def camEntries (r : FMap Id A X C K B P D M R) : Dict Id (K × B) :=
  r.cameras.filterMap fun e => (r.bias.get? e.1).map fun b => (e.1, (e.2, b))

theorem cam_fold (r : FMap Id A X C K B P D M R) (L : Dict Id K) (hb : ∀ e ∈ L, (r.bias.get? e.1).isSome) : ∀ acc : Dict Id (CamStats K B),
    (L.foldlM (camStep r) acc = none ↔ ∃ e ∈ L, acc.get? e.1 = none) ∧
    ∀ d, L.foldlM (camStep r) acc = some d → ∀ c, d.get? c = (acc.get? c).map fun x =>
      { x with optimized := x.optimized.or (Dict.get? (L.filterMap fun e => (r.bias.get? e.1).map fun b => (e.1, (e.2, b))) c) } := by
  induction L with
  | nil =>
    intro acc
    refine ⟨by simp, fun d h c => ?_⟩
    have : acc = d := by simpa using h
    subst this
    cases Dict.get? acc c <;> simp
  | cons e t ih =>
    intro acc
    obtain ⟨b, hb0⟩ := Option.isSome_iff_exists.1 (hb e List.mem_cons_self)
    have iht := ih fun e he => hb e (List.mem_cons_of_mem _ he)
    rw [List.foldlM_cons, List.filterMap_cons_some (b := (e.1, (e.2, b))) (by rw [hb0]; rfl)]
    unfold camStep
    cases ha : Dict.get? acc e.1 with
    | none =>
      exact ⟨⟨fun _ => ⟨e, List.mem_cons_self, ha⟩, fun _ => rfl⟩, fun d h => absurd h (by simp)⟩
    | some x =>
      cases hx : x.optimized with
      | some y =>
        simp only [hx]
        obtain ⟨i1, i2⟩ := iht acc
        constructor
        · refine i1.trans ?_
          constructor
          · rintro ⟨z, hz, hh⟩; exact ⟨z, List.mem_cons_of_mem _ hz, hh⟩
          · rintro ⟨z, hz, hh⟩
            rcases List.mem_cons.1 hz with rfl | hz
            · rw [ha] at hh; exact absurd hh (by simp)
            · exact ⟨z, hz, hh⟩
        · intro d h c
          rw [i2 d h c]
          by_cases hc : e.1 = c
          · subst hc
            rw [ha, Option.map_some, Option.map_some, hx]; simp
          · rw [show Dict.get? ((e.1, (e.2, b)) :: (t.filterMap fun e => (r.bias.get? e.1).map fun b => (e.1, (e.2, b)))) c =
              Dict.get? (t.filterMap fun e => (r.bias.get? e.1).map fun b => (e.1, (e.2, b))) c from by
                rw [Dict.get?]; exact if_neg hc]
      | none =>
        simp only [hx, hb0]
        obtain ⟨i1, i2⟩ := iht (acc.set e.1 { x with optimized := some (e.2, b) })
        constructor
        · refine i1.trans ?_
          constructor
          · rintro ⟨z, hz, hh⟩
            rw [Dict.get?_set] at hh
            split at hh
            · exact absurd hh (by simp)
            · exact ⟨z, List.mem_cons_of_mem _ hz, hh⟩
          · rintro ⟨z, hz, hh⟩
            rcases List.mem_cons.1 hz with rfl | hz
            · rw [ha] at hh; exact absurd hh (by simp)
            · refine ⟨z, hz, ?_⟩
              rw [Dict.get?_set]
              split
              · rename_i he; rw [← he, ha] at hh; exact absurd hh (by simp)
              · exact hh
        · intro d h c
          rw [i2 d h c, Dict.get?_set]
          by_cases hc : e.1 = c
          · subst hc
            rw [if_pos rfl, ha, Option.map_some, Option.map_some, hx, Dict.get?, if_pos rfl]; simp
          · rw [if_neg hc, show Dict.get? ((e.1, (e.2, b)) :: (t.filterMap fun e => (r.bias.get? e.1).map fun b => (e.1, (e.2, b)))) c =
              Dict.get? (t.filterMap fun e => (r.bias.get? e.1).map fun b => (e.1, (e.2, b))) c from by
                rw [Dict.get?]; exact if_neg hc]

theorem camEntries_get? (r : FMap Id A X C K B P D M R) (hw : r.cameras.Wf) (c : Id) :
    (camEntries r).get? c = (r.cameras.get? c).bind fun k => (r.bias.get? c).map fun b => (k, b) := by
  unfold camEntries
  generalize r.cameras = L at hw
  induction L with
  | nil => simp
  | cons e t ih =>
    obtain ⟨k, v⟩ := e
    have hn : Dict.get? t k = none := (Dict.get?_eq_none_iff _ _).2 (List.nodup_cons.1 hw).1
    have iht := ih (List.nodup_cons.1 hw).2
    cases hb : r.bias.get? k with
    | none =>
      rw [List.filterMap_cons_none (by simp [hb]), iht]
      by_cases e : k = c
      · subst e; simp [Dict.get?, hn, hb]
      · simp [Dict.get?, e]
    | some b =>
      rw [List.filterMap_cons_some (b := (k, (v, b))) (by simp [hb])]
      by_cases e : k = c
      · subst e; simp [Dict.get?, hb]
      · simp only [Dict.get?, if_neg e]; exact iht

theorem cams_fold (recs rs : List (FMap Id A X C K B P D M R)) (perm : List ℕ) (hb : ∀ r ∈ rs, ∀ e ∈ r.cameras, (r.bias.get? e.1).isSome)
    (hp : perm.map (fun i => recs[i]?) = rs.map some) : ∀ acc : Dict Id (CamStats K B),
    (perm.foldlM (camRec recs) acc = none ↔ ∃ r ∈ rs, ∃ e ∈ r.cameras, acc.get? e.1 = none) ∧
    ∀ d, perm.foldlM (camRec recs) acc = some d → ∀ c, d.get? c = (acc.get? c).map fun x =>
      { x with optimized := x.optimized.or (Dict.get? (rs.flatMap camEntries) c) } := by
  induction rs generalizing perm with
  | nil =>
    obtain rfl : perm = [] := by simpa using hp
    intro acc
    refine ⟨by simp, fun d h c => ?_⟩
    have : acc = d := by simpa using h
    subst this
    cases Dict.get? acc c <;> simp
  | cons r t ih =>
    rcases perm with _ | ⟨i, perm⟩
    · exact absurd hp (by simp)
    · simp only [List.map_cons, List.cons.injEq] at hp
      intro acc
      rw [List.foldlM_cons, List.flatMap_cons]
      unfold camRec
      rw [hp.1]
      obtain ⟨c1, c2⟩ := cam_fold r r.cameras (hb r List.mem_cons_self) acc
      simp only
      cases hr : r.cameras.foldlM (camStep r) acc with
      | none =>
        obtain ⟨e, he, h1⟩ := c1.1 hr
        exact ⟨⟨fun _ => ⟨r, List.mem_cons_self, e, he, h1⟩, fun _ => rfl⟩, fun d h => absurd h (by simp)⟩
      | some d1 =>
        have g1 := c2 d1 hr
        obtain ⟨i1, i2⟩ := ih perm (fun r hr => hb r (List.mem_cons_of_mem _ hr)) hp.2 d1
        have hnone : ∀ c, d1.get? c = none ↔ acc.get? c = none := fun c => by rw [g1 c, Option.map_eq_none_iff]
        constructor
        · refine i1.trans ?_
          constructor
          · rintro ⟨x, hx, e, he, hh⟩; exact ⟨x, List.mem_cons_of_mem _ hx, e, he, (hnone _).1 hh⟩
          · rintro ⟨x, hx, e, he, hh⟩
            rcases List.mem_cons.1 hx with rfl | hx
            · rw [c1.2 ⟨e, he, hh⟩] at hr; exact absurd hr (by simp)
            · exact ⟨x, hx, e, he, (hnone _).2 hh⟩
        · intro d h c
          rw [i2 d h c, g1 c, Option.map_map, get?_append]
          cases Dict.get? acc c with
          | none => rfl
          | some x =>
            simp only [Option.map_some, Function.comp, Option.some.injEq]
            rw [Option.or_assoc]; rfl

theorem camDelete_fold (L : List Id) : ∀ (d : Dict Id (CamStats K B)) (c : Id),
    (L.foldl camDelete d).get? c = (d.get? c).bind fun x => if c ∈ L ∧ x.optimized = none then none else some x := by
  induction L with
  | nil => intro d c; rw [List.foldl_nil]; cases h : Dict.get? d c <;> simp
  | cons k t ih =>
    intro d c
    rw [List.foldl_cons, ih]
    have h1 : (camDelete d k).get? c = (d.get? c).bind fun x => if c = k ∧ x.optimized = none then none else some x := by
      unfold camDelete
      cases hk : Dict.get? d k with
      | none =>
        simp only
        by_cases e : c = k
        · subst e; rw [hk]; rfl
        · cases Dict.get? d c <;> simp [e]
      | some x =>
        simp only
        cases hx : x.optimized with
        | some y =>
          simp only [Option.isSome_some, if_true]
          by_cases e : c = k
          · subst e; rw [hk]; simp [hx]
          · cases Dict.get? d c <;> simp [e]
        | none =>
          simp only [Option.isSome_none, Bool.false_eq_true, if_false, Dict.get?_erase]
          by_cases e : k = c
          · subst e; rw [hk]; simp [hx]
          · have e' : c ≠ k := fun h => e h.symm
            rw [if_neg e]
            cases Dict.get? d c <;> simp [e']
    rw [h1]
    cases Dict.get? d c with
    | none => rfl
    | some x =>
      simp only [Option.bind_some]
      by_cases e : c = k ∧ x.optimized = none
      · rw [if_pos e]; simp [e.1, e.2]
      · rw [if_neg e]
        simp only [Option.bind_some, List.mem_cons]
        by_cases h2 : x.optimized = none
        · have : c ≠ k := fun h => e ⟨h, h2⟩
          simp [this, h2]
        · simp [h2]

/-- C112: the values of the cameras in the report. It fails exactly when a reconstruction has a camera the dataset does not have; otherwise it has an entry for exactly the cameras
of the dataset that are in a reconstruction, with the initial values of the dataset and the values and the bias of a reconstruction with
that camera and the most shots. -/
theorem C112_cameras (data : Dict Id K) (hd : data.Wf) (recs : List (FMap Id A X C K B P D M R)) (perm : List ℕ) (hp : IsArgsort recs perm)
    (hw : ∀ r ∈ recs, r.cameras.Wf) (hb : ∀ r ∈ recs, ∀ c, (r.cameras.get? c).isSome → (r.bias.get? c).isSome) :
    (camerasStatistics data perm recs = none ↔ ∃ r ∈ recs, ∃ c, (r.cameras.get? c).isSome ∧ data.get? c = none) ∧
    ∀ d, camerasStatistics data perm recs = some d → ∀ c,
      ((d.get? c).isSome ↔ (data.get? c).isSome ∧ ∃ r ∈ recs, (r.cameras.get? c).isSome) ∧
      ∀ x, d.get? c = some x → data.get? c = some x.initial ∧ ∃ r ∈ recs, ∃ k b, x.optimized = some (k, b) ∧
        r.cameras.get? c = some k ∧ r.bias.get? c = some b ∧
        ∀ r' ∈ recs, (r'.cameras.get? c).isSome → r'.shots.length ≤ r.shots.length := by
  obtain ⟨rs, h1, h2, h3⟩ := hp.recs
  have hb' : ∀ r ∈ rs, ∀ e ∈ r.cameras, (r.bias.get? e.1).isSome := fun r hr e he =>
    hb r ((h2 r).1 hr) e.1 (Dict.get?_isSome_of_mem he)
  obtain ⟨f1, f2⟩ := cams_fold recs rs perm hb' h1 (data.foldl (fun a e => a.set e.1 ⟨e.2, none⟩) [])
  have hinit := init_get?' (fun k : K => (⟨k, none⟩ : CamStats K B)) data hd
  unfold camerasStatistics
  have hent : ∀ r ∈ rs, ∀ c, (camEntries r).get? c = none ↔ r.cameras.get? c = none := by
    intro r hr c
    rw [camEntries_get? r (hw r ((h2 r).1 hr))]
    cases hk : r.cameras.get? c with
    | none => simp
    | some k =>
      obtain ⟨b, hb0⟩ := Option.isSome_iff_exists.1 (hb r ((h2 r).1 hr) c (by rw [hk]; rfl))
      simp [hb0]
  constructor
  · rw [Option.map_eq_none_iff, f1]
    constructor
    · rintro ⟨r, hr, e, he, hh⟩
      rw [hinit, Option.map_eq_none_iff] at hh
      exact ⟨r, (h2 r).1 hr, e.1, Dict.get?_isSome_of_mem he, hh⟩
    · rintro ⟨r, hr, c, hc, hh⟩
      obtain ⟨k, hk⟩ := Option.isSome_iff_exists.1 hc
      refine ⟨r, (h2 r).2 hr, (c, k), Dict.mem_of_get? hk, ?_⟩
      rw [hinit, hh]; rfl
  · intro d hdd c
    obtain ⟨d0, e0, rfl⟩ := Option.map_eq_some_iff.1 hdd
    have g := f2 d0 e0 c
    rw [hinit, Option.map_map] at g
    obtain ⟨s1, s2⟩ := get?_flatMap_sorted (fun r : FMap Id A X C K B P D M R => r.shots.length) camEntries rs h3 c
    have key : (data.keys.foldl camDelete d0).get? c = (data.get? c).bind fun k0 =>
        (Dict.get? (rs.flatMap camEntries) c).map fun o => (⟨k0, some o⟩ : CamStats K B) := by
      rw [camDelete_fold, g]
      cases hk : data.get? c with
      | none => rfl
      | some k0 =>
        have hm : c ∈ data.keys := by rw [Dict.mem_keys_iff, hk]; rfl
        simp only [Option.map_some, Function.comp, Option.bind_some, Option.none_or]
        cases Dict.get? (rs.flatMap camEntries) c with
        | none => simp [hm]
        | some o => simp
    rw [key]
    constructor
    · cases hk : data.get? c with
      | none => simp
      | some k0 =>
        simp only [Option.bind_some, Option.isSome_map, Option.isSome_some, true_and]
        rw [← not_iff_not, Bool.not_eq_true, Option.isSome_eq_false_iff, Option.isNone_iff_eq_none, s1]
        constructor
        · rintro h ⟨r, hr, hc⟩
          rw [(hent r ((h2 r).2 hr) c).1 (h r ((h2 r).2 hr))] at hc
          exact absurd hc (by simp)
        · intro h r hr
          rw [hent r hr]
          cases hc : r.cameras.get? c with
          | none => rfl
          | some k => exact absurd ⟨r, (h2 r).1 hr, by rw [hc]; rfl⟩ h
    · intro x hx
      obtain ⟨k0, hk0, hx'⟩ := Option.bind_eq_some_iff.1 hx
      obtain ⟨o, ho, rfl⟩ := Option.map_eq_some_iff.1 hx'
      obtain ⟨r, hr, hg, hmax⟩ := s2 o ho
      rw [camEntries_get? r (hw r ((h2 r).1 hr))] at hg
      obtain ⟨k, hk, hg'⟩ := Option.bind_eq_some_iff.1 hg
      obtain ⟨b, hb0, rfl⟩ := Option.map_eq_some_iff.1 hg'
      refine ⟨hk0, r, (h2 r).1 hr, k, b, rfl, hk, hb0, fun r' hr' hc => ?_⟩
      refine hmax r' ((h2 r').2 hr') ?_
      cases hn : (camEntries r').get? c with
      | none => rw [(hent r' ((h2 r').2 hr') c).1 hn] at hc; exact absurd hc (by simp)
      | some _ => rfl

theorem rig_fold (L : Dict Id P) : ∀ (acc : Dict Id (RigStats P)) (c : Id),
    Dict.get? (L.foldl rigStep acc) c = (acc.get? c).map fun x => { x with optimized := x.optimized.or (L.get? c) } := by
  induction L with
  | nil => intro acc c; rw [List.foldl_nil]; cases h : Dict.get? acc c <;> simp
  | cons e t ih =>
    intro acc c
    obtain ⟨k, p⟩ := e
    rw [List.foldl_cons, ih]
    unfold rigStep
    cases ha : Dict.get? acc k with
    | none =>
      simp only [ha]
      by_cases hc : k = c
      · subst hc; rw [ha]; rfl
      · simp [Dict.get?, hc]
    | some x =>
      cases hx : x.optimized with
      | some y =>
        simp only [ha, hx]
        by_cases hc : k = c
        · subst hc; rw [ha]; simp [hx]
        · simp [Dict.get?, hc]
      | none =>
        simp only [ha, hx, Dict.get?_set]
        by_cases hc : k = c
        · subst hc; rw [if_pos rfl, ha]; simp [hx, Dict.get?]
        · simp [Dict.get?, hc]

theorem rigs_fold (recs rs : List (FMap Id A X C K B P D M R)) (perm : List ℕ)
    (hp : perm.map (fun i => recs[i]?) = rs.map some) : ∀ acc : Dict Id (RigStats P),
    ∃ d, perm.foldlM (rigRec recs) acc = some d ∧ ∀ c, d.get? c = (acc.get? c).map fun x =>
      { x with optimized := x.optimized.or (Dict.get? (rs.flatMap fun r => r.rigCameras) c) } := by
  induction rs generalizing perm with
  | nil =>
    obtain rfl : perm = [] := by simpa using hp
    intro acc
    refine ⟨acc, rfl, fun c => ?_⟩
    cases h : Dict.get? acc c <;> simp
  | cons r t ih =>
    rcases perm with _ | ⟨i, perm⟩
    · exact absurd hp (by simp)
    · simp only [List.map_cons, List.cons.injEq] at hp
      intro acc
      obtain ⟨d, h1, h2⟩ := ih perm hp.2 (r.rigCameras.foldl rigStep acc)
      refine ⟨d, ?_, fun c => ?_⟩
      · rw [List.foldlM_cons]
        unfold rigRec
        rw [hp.1]
        exact h1
      · rw [h2, rig_fold, Option.map_map, List.flatMap_cons, get?_append]
        cases Dict.get? acc c with
        | none => rfl
        | some x =>
          simp only [Option.map_some, Function.comp, Option.some.injEq]
          rw [Option.or_assoc]

theorem rigDelete_fold (L : List Id) : ∀ (d : Dict Id (RigStats P)) (c : Id),
    (L.foldl rigDelete d).get? c = (d.get? c).bind fun x => if c ∈ L ∧ x.optimized = none then none else some x := by
  induction L with
  | nil => intro d c; rw [List.foldl_nil]; cases h : Dict.get? d c <;> simp
  | cons k t ih =>
    intro d c
    rw [List.foldl_cons, ih]
    have h1 : (rigDelete d k).get? c = (d.get? c).bind fun x => if c = k ∧ x.optimized = none then none else some x := by
      unfold rigDelete
      cases hk : Dict.get? d k with
      | none =>
        simp only
        by_cases e : c = k
        · subst e; rw [hk]; rfl
        · cases Dict.get? d c <;> simp [e]
      | some x =>
        simp only
        cases hx : x.optimized with
        | some y =>
          simp only [Option.isSome_some, if_true]
          by_cases e : c = k
          · subst e; rw [hk]; simp [hx]
          · cases Dict.get? d c <;> simp [e]
        | none =>
          simp only [Option.isSome_none, Bool.false_eq_true, if_false, Dict.get?_erase]
          by_cases e : k = c
          · subst e; rw [hk]; simp [hx]
          · have e' : c ≠ k := fun h => e h.symm
            rw [if_neg e]
            cases Dict.get? d c <;> simp [e']
    rw [h1]
    cases Dict.get? d c with
    | none => rfl
    | some x =>
      simp only [Option.bind_some]
      by_cases e : c = k ∧ x.optimized = none
      · rw [if_pos e]; simp [e.1, e.2]
      · rw [if_neg e]
        simp only [Option.bind_some, List.mem_cons]
        by_cases h2 : x.optimized = none
        · have : c ≠ k := fun h => e ⟨h, h2⟩
          simp [this, h2]
        · simp [h2]

/-- C112: the values of the rig cameras in the report. It never fails, and has an entry for exactly the rig cameras of the dataset that are
not named like a camera and are in a reconstruction, with the initial pose of the dataset and the pose of a reconstruction with that rig
camera and the most shots. -/
theorem C112_rig (data : Dict Id P) (hd : data.Wf) (cameras : List Id) (recs : List (FMap Id A X C K B P D M R)) (perm : List ℕ)
    (hp : IsArgsort recs perm) :
    ∃ d, rigStatistics data cameras perm recs = some d ∧ ∀ c,
      ((d.get? c).isSome ↔ c ∉ cameras ∧ (data.get? c).isSome ∧ ∃ r ∈ recs, (r.rigCameras.get? c).isSome) ∧
      ∀ x, d.get? c = some x → data.get? c = some x.initial ∧ ∃ r ∈ recs, ∃ p, x.optimized = some p ∧
        r.rigCameras.get? c = some p ∧ ∀ r' ∈ recs, (r'.rigCameras.get? c).isSome → r'.shots.length ≤ r.shots.length := by
  obtain ⟨rs, h1, h2, h3⟩ := hp.recs
  obtain ⟨d0, e0, f⟩ := rigs_fold recs rs perm h1
    (data.foldl (fun (a : Dict Id (RigStats P)) (e : Id × P) => if e.1 ∈ cameras then a else a.set e.1 ⟨e.2, none⟩) [])
  have hinit := init_get? (fun k : P => (⟨k, none⟩ : RigStats P)) (fun c => c ∈ cameras) data hd
  refine ⟨data.keys.foldl rigDelete d0, by unfold rigStatistics; rw [e0]; rfl, fun c => ?_⟩
  have g := f c
  rw [hinit] at g
  obtain ⟨s1, s2⟩ := get?_flatMap_sorted (fun r : FMap Id A X C K B P D M R => r.shots.length) (fun r => r.rigCameras) rs h3 c
  have key : (data.keys.foldl rigDelete d0).get? c = if c ∈ cameras then none else (data.get? c).bind fun k0 =>
      (Dict.get? (rs.flatMap fun r => r.rigCameras) c).map fun o => (⟨k0, some o⟩ : RigStats P) := by
    rw [rigDelete_fold, g]
    by_cases hc : c ∈ cameras
    · simp [hc]
    · rw [if_neg hc, if_neg hc]
      cases hk : data.get? c with
      | none => rfl
      | some k0 =>
        have hm : c ∈ data.keys := by rw [Dict.mem_keys_iff, hk]; rfl
        simp only [Option.map_some, Option.bind_some, Option.none_or]
        cases Dict.get? (rs.flatMap fun r => r.rigCameras) c with
        | none => simp [hm]
        | some o => simp
  rw [key]
  by_cases hc : c ∈ cameras
  · simp [hc]
  · rw [if_neg hc]
    constructor
    · cases hk : data.get? c with
      | none => simp
      | some k0 =>
        simp only [Option.bind_some, Option.isSome_map, Option.isSome_some, true_and, hc, not_false_eq_true]
        rw [← not_iff_not, Bool.not_eq_true, Option.isSome_eq_false_iff, Option.isNone_iff_eq_none, s1]
        constructor
        · rintro h ⟨r, hr, hc⟩
          rw [h r ((h2 r).2 hr)] at hc
          exact absurd hc (by simp)
        · intro h r hr
          cases hc : r.rigCameras.get? c with
          | none => rfl
          | some k => exact absurd ⟨r, (h2 r).1 hr, by rw [hc]; rfl⟩ h
    · intro x hx
      obtain ⟨k0, hk0, hx'⟩ := Option.bind_eq_some_iff.1 hx
      obtain ⟨o, ho, rfl⟩ := Option.map_eq_some_iff.1 hx'
      obtain ⟨r, hr, hg, hmax⟩ := s2 o ho
      exact ⟨hk0, r, (h2 r).1 hr, o, rfl, hg, fun r' hr' hc => hmax r' ((h2 r').2 hr') hc⟩

/-! ### Concrete cases -/

/-- A reconstruction with a camera, a rig camera and shots. -/
def exRec (cams : List (ℕ × ℕ)) (rigs : List (ℕ × ℕ)) (shots : List ℕ) : FMap ℕ Unit Unit Unit ℕ ℕ ℕ Unit Unit Unit :=
  { cameras := cams, bias := cams.map fun e => (e.1, e.2 + 100), rigCameras := rigs, rigInstances := [],
    shots := shots.map fun i => (i, ⟨7, i, 0, (), (), [], []⟩), pano := [], landmarks := [], reference := () }

/-- Two reconstructions, of one and of two shots. -/
def exRecs : List (FMap ℕ Unit Unit Unit ℕ ℕ ℕ Unit Unit Unit) :=
  [exRec [(7, 1), (8, 2)] [(7, 30), (20, 31)] [0], exRec [(7, 3)] [(20, 32)] [1, 2]]

example : IsArgsort exRecs [1, 0] :=
  ⟨by decide, by
    rw [List.pairwise_pair]
    intro a b ha hb
    obtain rfl := Option.some.inj (show some _ = some a from ha)
    obtain rfl := Option.some.inj (show some _ = some b from hb)
    decide⟩

/-- Camera 7 has the values of the second reconstruction, camera 8 those of the first; camera 9 is in none. -/
example : camerasStatistics [(7, 0), (8, 0), (9, 0)] [1, 0] exRecs = some [(7, ⟨0, some (3, 103)⟩), (8, ⟨0, some (2, 102)⟩)] := by decide +kernel

/-- A reconstruction with a camera the dataset does not have. -/
example : camerasStatistics [(7, 0)] [1, 0] exRecs = none := by decide +kernel

/-- Rig camera 7 is named like a camera. -/
example : rigStatistics [(7, 0), (20, 1), (21, 2)] [7, 8] [1, 0] exRecs = some [(20, ⟨1, some 32⟩)] := by decide +kernel

end Verif.StatsErrors
