import Verif.Model.Align
import Verif.Props.Superimpose
import Verif.Props.Pose
import Mathlib.LinearAlgebra.Matrix.Charpoly.Coeff

/-!
C89: aligning a reconstruction with GPS positions and ground control points.
-/
set_option linter.unusedSectionVars false
set_option linter.unusedSimpArgs false
namespace Verif.Align
open Matrix Verif.Superimpose
open Verif.Pose (Pose Recon applySimilarity applySimilarityPose M3 V3 Rigid Orth)
variable {Id : Type} [DecidableEq Id]

/-! ### Specification -/

/-- `e` are the eigenvalues of `M` in increasing order. -/
def IsEig (M : Mat 3) (e : Vec 3) : Prop :=
  e 0 ≤ e 1 ∧ e 1 ≤ e 2 ∧ ∀ l : ℝ, (l • (1 : Mat 3) - M).det = (l - e 0) * (l - e 1) * (l - e 2)

/-- The points are on one line. -/
def OnLine (l : List (Vec 3)) : Prop := ∃ o d : Vec 3, ∀ x ∈ l, ∃ c : ℝ, x = o + c • d

/-- Root mean square of the distances to the mean. -/
noncomputable def spread (l : List (Vec 3)) : ℝ :=
  Real.sqrt ((l.length : ℝ)⁻¹ * (l.map (fun x => (x - mean l) ⬝ᵥ (x - mean l))).sum)

/-! ### Helpers -/

theorem stdev_norm (l : List (Vec 3)) :
    Real.sqrt (stdev l 0 ^ 2 + stdev l 1 ^ 2 + stdev l 2 ^ 2) = spread l := by
  unfold spread stdev
  have hn : ∀ k : Fin 3, 0 ≤ (l.length : ℝ)⁻¹ * (l.map (fun x => (x k - mean l k) ^ 2)).sum := by
    intro k
    apply mul_nonneg (by positivity)
    apply List.sum_nonneg
    intro x hx
    obtain ⟨y, -, rfl⟩ := List.mem_map.1 hx
    positivity
  rw [Real.sq_sqrt (hn 0), Real.sq_sqrt (hn 1), Real.sq_sqrt (hn 2), ← mul_add, ← mul_add, ← List.sum_map_add,
    ← List.sum_map_add]
  congr 3
  apply List.map_congr_left
  intro x _
  simp only [dotProduct, Fin.sum_univ_three, Pi.sub_apply]
  ring

theorem onLine_two (l : List (Vec 3)) (h : l.length ≤ 2) : OnLine l := by
  match l, h with
  | [], _ => exact ⟨0, 0, by simp⟩
  | [a], _ => exact ⟨a, 0, by simp⟩
  | [a, b], _ =>
    refine ⟨a, b - a, ?_⟩
    intro x hx
    simp only [List.mem_cons, List.not_mem_nil, or_false] at hx
    rcases hx with rfl | rfl
    · exact ⟨0, by simp⟩
    · exact ⟨1, by simp⟩

theorem spanning_of_notLine {pairs : List (Vec 3 × Vec 3)} (h : ¬ OnLine (pairs.map (·.1))) : Spanning pairs := by
  have hne : pairs ≠ [] := by
    rintro rfl
    exact h (onLine_two _ (by simp))
  apply spanning_space hne
  rintro ⟨o, d, hl⟩
  apply h
  refine ⟨o, d, ?_⟩
  intro x hx
  obtain ⟨p, hp, rfl⟩ := List.mem_map.1 hx
  exact hl p hp

/-! ### The constraints -/

/-- Which pairs of points are aligned: the triangulated and the measured positions of the control points that have both
(on the ground plane when the altitude is unknown), and the position of each rig instance with the mean of the GPS positions
of its shots. -/
theorem C89_constraints (cfg : Cfg) (a : ARec Id) (gcp : List GPoint) (useGps : Bool) (x y : Vec 3) :
    (x, y) ∈ constraints cfg a gcp useGps ↔
      (cfg.useGcp = true ∧ ∃ g ∈ gcp, ∃ x0 y0, g.triangulated = some x0 ∧ g.measured = some y0 ∧
        ((g.hasAltitude = true ∧ x = x0 ∧ y = y0) ∨
          (g.hasAltitude = false ∧ x = ![x0 0, x0 1, 0] ∧ y = ![y0 0, y0 1, 0]))) ∨
      (useGps = true ∧ cfg.useGps = true ∧ ∃ i p, (i, p) ∈ a.r.rigInstances ∧ x = p.getOrigin ∧
        ∃ l : List (Vec 3), l = a.r.shots.filterMap (fun e => if e.2.1 = i then a.gps e.1 else none) ∧ l ≠ [] ∧ y = mean l) := by
  unfold constraints
  rw [List.mem_append]
  apply or_congr
  · constructor
    · intro h
      split at h
      · rename_i hc
        refine ⟨hc.2, ?_⟩
        obtain ⟨g, hg, hp⟩ := List.mem_filterMap.1 h
        refine ⟨g, hg, ?_⟩
        unfold gcpPair at hp
        cases ht : g.triangulated with
        | none => rw [ht] at hp; simp at hp
        | some x0 =>
          cases hm : g.measured with
          | none => rw [ht, hm] at hp; simp at hp
          | some y0 =>
            rw [ht, hm] at hp
            refine ⟨x0, y0, rfl, rfl, ?_⟩
            simp only at hp
            split at hp
            · rename_i ha
              simp only [Option.some.injEq, Prod.mk.injEq] at hp
              exact Or.inl ⟨ha, hp.1.symm, hp.2.symm⟩
            · rename_i ha
              simp only [Option.some.injEq, Prod.mk.injEq] at hp
              exact Or.inr ⟨by simpa using ha, hp.1.symm, hp.2.symm⟩
      · simp at h
    · rintro ⟨hu, g, hg, x0, y0, ht, hm, h⟩
      rw [if_pos ⟨List.length_pos_of_mem hg, hu⟩]
      refine List.mem_filterMap.2 ⟨g, hg, ?_⟩
      unfold gcpPair
      rw [ht, hm]
      rcases h with ⟨ha, rfl, rfl⟩ | ⟨ha, rfl, rfl⟩
      · simp only [ha, if_true]
      · simp only [ha, Bool.false_eq_true, if_false]
        rfl
  · constructor
    · intro h
      split at h
      · rename_i hc
        refine ⟨hc.1, hc.2, ?_⟩
        obtain ⟨⟨i, p⟩, hg, hp⟩ := List.mem_filterMap.1 h
        unfold instancePair at hp
        split at hp
        · rename_i hl
          simp only [Option.some.injEq, Prod.mk.injEq] at hp
          exact ⟨i, p, hg, hp.1.symm, _, rfl, List.ne_nil_of_length_pos hl, hp.2.symm⟩
        · simp at hp
      · simp at h
    · rintro ⟨h1, h2, i, p, hm, rfl, l, rfl, hl, rfl⟩
      rw [if_pos ⟨h1, h2⟩]
      refine List.mem_filterMap.2 ⟨(i, p), hm, ?_⟩
      unfold instancePair
      rw [if_pos (show (instanceGps a i).length > 0 from List.length_pos_of_ne_nil hl)]
      rfl

/-! ### The naive method -/

theorem rot_orth {Q : Mat 3} (h : IsRot Q) : Orth Q := orth_comm.1 h.1

theorem naive_exact (svd : Mat 3 → Svd 3) (hs : ∀ C, IsSvd C (svd C)) (pairs : List (Vec 3 × Vec 3)) (useScale : Bool)
    (s : ℝ) (hs0 : 0 < s) (Q : Mat 3) (hQ : IsRot Q) (t : Vec 3) (hp : ∀ p ∈ pairs, p.2 = s • (Q *ᵥ p.1) + t)
    (hsc : useScale = false → s = 1) (hline : ¬ OnLine (pairs.map (·.1))) (hsd : 1 / 10 ^ 10 ≤ spread (pairs.map (·.2))) :
    naive svd pairs useScale = some (s, Q, t) := by
  have h3 : 3 ≤ pairs.length := by
    by_contra hc
    exact hline (onLine_two _ (by rw [List.length_map]; omega))
  have hfit : superimpose svd useScale pairs = some (sim s Q t) := by
    apply C88_exact svd hs useScale pairs (by norm_num) h3 s hs0 Q hQ t _ hsc (spanning_of_notLine hline)
    intro p hpm
    simp only [Sim.apply, sim, smul_mulVec]
    exact hp p hpm
  match pairs, h3 with
  | p :: rest, h3 =>
    unfold naive
    simp only
    rw [stdev_norm, if_neg (by push Not; exact ⟨hsd, by omega⟩), if_neg (by omega), hfit, Option.map_some,
      C88_decompose s hs0 Q hQ t]

/-- After the alignment: the instances and points are where the similarity sends them, nothing else changes. -/
theorem applied (a : ARec Id) (hi : ∀ i p, a.r.rigInstances.get? i = some p → Rigid p) (s : ℝ) (Q : Mat 3) (hQ : IsRot Q) (t : Vec 3) :
    (∀ i p, a.r.rigInstances.get? i = some p → ∃ p', (applySimilarity a.r s Q t).rigInstances.get? i = some p' ∧
      p'.getOrigin = s • (Q *ᵥ p.getOrigin) + t) := by
  intro i p h
  refine ⟨applySimilarityPose p s Q t, ?_, (Verif.Pose.C40_pose p (hi i p h) s Q (rot_orth hQ) t).2.2⟩
  unfold applySimilarity
  simp only
  rw [Verif.Pose.get?_map (fun q => applySimilarityPose q s Q t), h]
  rfl

/-- **Exact alignment.** If a similarity sends the positions of the rig instances to the means of their GPS positions and the
triangulated control points to the measured ones, and these points are not on a line, alignment finds exactly this
similarity, and afterwards every rig instance that has GPS is at its GPS position. -/
theorem C89_exact (svd : Mat 3 → Svd 3) (hs : ∀ C, IsSvd C (svd C)) (eig : Mat 3 → Vec 3)
    (prior : List (Vec 3 × Vec 3) → Bool → Option (ℝ × Mat 3 × Vec 3)) (cfg : Cfg) (a : ARec Id) (gcp : List GPoint)
    (useGps : Bool) (hwf : a.r.rigInstances.Wf) (hi : ∀ i p, a.r.rigInstances.get? i = some p → Rigid p)
    (hm : cfg.method = "naive" ∨ cfg.method = "auto" ∧ wellConditioned eig (constraints cfg a gcp useGps) = true)
    (s : ℝ) (hs0 : 0 < s) (Q : Mat 3) (hQ : IsRot Q) (t : Vec 3)
    (hp : ∀ p ∈ constraints cfg a gcp useGps, p.2 = s • (Q *ᵥ p.1) + t)
    (hsc : s = 1 ∨ ∀ i, (a.r.shots.filter (fun e => decide (e.2.1 = i))).length ≤ 1)
    (hline : ¬ OnLine ((constraints cfg a gcp useGps).map (·.1)))
    (hsd : 1 / 10 ^ 10 ≤ spread ((constraints cfg a gcp useGps).map (·.2))) :
    ∃ a', align svd eig prior cfg a gcp useGps = (some (s, Q, t), a') ∧ a'.gps = a.gps ∧
      (∀ l, a'.r.points.get? l = (a.r.points.get? l).map (fun x => s • (Q *ᵥ x) + t)) ∧
      (useGps = true → cfg.useGps = true → ∀ i p, a.r.rigInstances.get? i = some p →
        a.r.shots.filterMap (fun e => if e.2.1 = i then a.gps e.1 else none) ≠ [] →
        ∃ p', a'.r.rigInstances.get? i = some p' ∧
          p'.getOrigin = mean (a.r.shots.filterMap (fun e => if e.2.1 = i then a.gps e.1 else none))) := by
  have hscale : useScale a = false → s = 1 := by
    intro h
    rcases hsc with h1 | h1
    · exact h1
    · exfalso
      unfold useScale at h
      rw [Bool.not_eq_false', List.any_eq_true] at h
      obtain ⟨e, -, he⟩ := h
      have := of_decide_eq_true he
      have := h1 e.1
      omega
  have hnaive := naive_exact svd hs _ (useScale a) s hs0 Q hQ t hp hscale hline hsd
  have hsim : similarity svd eig prior cfg a gcp useGps (useScale a) = some (s, Q, t) := by
    unfold similarity
    rcases hm with h | ⟨h, hw⟩
    · simp only [h, hnaive]
      simp [hs0.ne']
    · simp only [h, hw, hnaive]
      simp [hs0.ne']
  refine ⟨{ a with r := applySimilarity a.r s Q t }, ?_, rfl, ?_, ?_⟩
  · unfold align
    rw [hsim]
  · intro l
    exact Verif.Pose.get?_map (fun x => s • (Q *ᵥ x) + t) a.r.points l
  · intro h1 h2 i p hip hl
    obtain ⟨p', hp', e⟩ := applied a hi s Q hQ t i p hip
    refine ⟨p', hp', ?_⟩
    rw [e]
    have := hp (p.getOrigin, mean (a.r.shots.filterMap (fun e => if e.2.1 = i then a.gps e.1 else none)))
      ((C89_constraints cfg a gcp useGps _ _).2 (Or.inr ⟨h1, h2, i, p, (Dict.mem_iff_get? hwf).2 hip, rfl, _, rfl, hl, rfl⟩))
    exact this.symm

/-! ### Choice of the method -/

theorem det_rank_one (l : ℝ) (d : Vec 3) (c : ℝ) :
    (l • (1 : Mat 3) - c • vecMulVec d d).det = l * l * (l - c * (d ⬝ᵥ d)) := by
  rw [det_fin_three]
  simp [vecMulVec_apply, one_apply, dotProduct, Fin.sum_univ_three]
  ring

theorem line_cov (l : List (Vec 3)) (h : OnLine l) :
    ∃ (c : ℝ) (d : Vec 3), 0 ≤ c ∧ ((l.map (fun x => x - mean l)).map (fun x => vecMulVec x x)).sum = c • vecMulVec d d := by
  obtain ⟨o, d, hl⟩ := h
  by_cases hne : l = []
  · subst hne; exact ⟨0, 0, le_refl _, by simp⟩
  have hmean : ∃ c0 : ℝ, mean l = o + c0 • d := by
    have hsum : ∀ l : List (Vec 3), (∀ x ∈ l, ∃ c : ℝ, x = o + c • d) → ∃ c : ℝ, l.sum = (l.length : ℝ) • o + c • d := by
      intro l
      induction l with
      | nil => intro _; exact ⟨0, by simp⟩
      | cons a l ih =>
        intro h
        rw [List.forall_mem_cons] at h
        obtain ⟨c1, h1⟩ := h.1
        obtain ⟨c2, h2⟩ := ih h.2
        refine ⟨c1 + c2, ?_⟩
        rw [List.sum_cons, h2, h1, List.length_cons]
        push_cast
        module
    obtain ⟨c, hc⟩ := hsum l hl
    have h0 : (l.length : ℝ) ≠ 0 := by
      have := List.length_pos_of_ne_nil hne
      positivity
    refine ⟨(l.length : ℝ)⁻¹ * c, ?_⟩
    unfold mean
    rw [hc, smul_add, smul_smul, inv_mul_cancel₀ h0, one_smul, smul_smul]
  obtain ⟨c0, h0⟩ := hmean
  have key : ∀ l' : List (Vec 3), (∀ x ∈ l', ∃ c : ℝ, x = o + c • d) →
      ∃ c : ℝ, 0 ≤ c ∧ ((l'.map (fun x => x - mean l)).map (fun x => vecMulVec x x)).sum = c • vecMulVec d d := by
    intro l'
    induction l' with
    | nil => intro _; exact ⟨0, le_refl _, by simp⟩
    | cons a l' ih =>
      intro h
      rw [List.forall_mem_cons] at h
      obtain ⟨c1, h1⟩ := h.1
      obtain ⟨c2, h2, h3⟩ := ih h.2
      refine ⟨(c1 - c0) * (c1 - c0) + c2, add_nonneg (mul_self_nonneg _) h2, ?_⟩
      rw [List.map_cons, List.map_cons, List.sum_cons, h3, h1, h0]
      have : o + c1 • d - (o + c0 • d) = (c1 - c0) • d := by module
      rw [this, smul_vecMulVec, vecMulVec_smul, smul_smul, ← add_smul]
  obtain ⟨c, hc, h⟩ := key l hl
  exact ⟨c, d, hc, h⟩

theorem two_small {e : Vec 3} {k : ℝ} (hk : 0 ≤ k) (h0 : e 0 ≤ e 1) (h1 : e 1 ≤ e 2)
    (h : ∀ l : ℝ, l * l * (l - k) = (l - e 0) * (l - e 1) * (l - e 2)) : e 0 ≤ 0 ∧ e 1 ≤ 0 := by
  have a0 := h 0
  have a1 := h 1
  have a2 := h (-1)
  have s1 : e 0 + e 1 + e 2 = k := by linarith
  have s2 : e 0 * e 1 + e 0 * e 2 + e 1 * e 2 = 0 := by linarith
  have s3 : e 0 * e 1 * e 2 = 0 := by linarith
  rcases mul_eq_zero.1 s3 with h3 | h3
  · rcases mul_eq_zero.1 h3 with h4 | h4
    · rw [h4] at s2 s1 h0
      have : e 1 * e 2 = 0 := by linarith
      rcases mul_eq_zero.1 this with h5 | h5
      · exact ⟨h4.le, h5.le⟩
      · exact ⟨h4.le, by linarith⟩
    · exact ⟨by linarith, h4.le⟩
  · exact ⟨by linarith, by linarith⟩

/-- The automatic choice takes the naive method only for three or more points that are not on one line, so that the
similarity is determined. -/
theorem C89_auto (eig : Mat 3 → Vec 3) (he : ∀ M, M.IsSymm → IsEig M (eig M)) (pairs : List (Vec 3 × Vec 3))
    (h : wellConditioned eig pairs = true) : 3 ≤ pairs.length ∧ ¬ OnLine (pairs.map (·.1)) := by
  unfold wellConditioned at h
  split at h
  · exact absurd h (by simp)
  · rename_i hlen
    refine ⟨by omega, fun hl => ?_⟩
    simp only [Bool.not_eq_true', decide_eq_false_iff_not] at h
    obtain ⟨c, d, hc, hcov⟩ := line_cov _ hl
    have hmap : pairs.map (fun p => p.1 - mean (pairs.map (·.1))) = (pairs.map (·.1)).map (fun x => x - mean (pairs.map (·.1))) := by
      rw [List.map_map]; rfl
    rw [hmap, hcov] at h
    have hsym : (c • vecMulVec d d).IsSymm := by
      unfold Matrix.IsSymm
      rw [transpose_smul, transpose_vecMulVec]
    obtain ⟨h0, h1, h2⟩ := he _ hsym
    obtain ⟨s0, s1⟩ := two_small (mul_nonneg hc (dot_self_nonneg d)) h0 h1
      (fun l => (det_rank_one l d c).symm.trans (h2 l))
    apply h
    left
    rw [if_pos (lt_of_le_of_lt s0 (by positivity)), if_pos (lt_of_le_of_lt s1 (by positivity))]
    omega

/-- The automatic choice takes the naive method exactly for three or more points whose second largest eigenvalue is at least
`1e-10` and not more than 5000 times smaller than the largest. -/
theorem C89_auto_iff (eig : Mat 3 → Vec 3) (he : ∀ M, M.IsSymm → IsEig M (eig M)) (pairs : List (Vec 3 × Vec 3)) (e : Vec 3)
    (hee : e = eig ((pairs.map (fun p =>
      vecMulVec (p.1 - mean (pairs.map (·.1))) (p.1 - mean (pairs.map (·.1))))).sum)) :
    wellConditioned eig pairs = true ↔ 3 ≤ pairs.length ∧ 1 / 10 ^ 10 ≤ e 1 ∧ e 2 ≤ 5000 * e 1 := by
  have hsym : ((pairs.map (fun p =>
      vecMulVec (p.1 - mean (pairs.map (·.1))) (p.1 - mean (pairs.map (·.1))))).sum).IsSymm := by
    generalize mean (pairs.map (·.1)) = c
    clear hee
    induction pairs with
    | nil => simp [Matrix.IsSymm]
    | cons p l ih =>
      unfold Matrix.IsSymm at *
      simp only [List.map_cons, List.sum_cons, transpose_add, transpose_vecMulVec, ih]
  have hs := he _ hsym
  rw [← hee] at hs
  obtain ⟨h01, h12, -⟩ := hs
  unfold wellConditioned
  split
  · constructor
    · intro h; exact absurd h (by simp)
    · rintro ⟨h, -⟩; omega
  · rename_i hl
    simp only [Bool.not_eq_true', decide_eq_false_iff_not]
    have hmap : (pairs.map (fun p => p.1 - mean (pairs.map (·.1)))).map (fun x => vecMulVec x x) =
        pairs.map (fun p => vecMulVec (p.1 - mean (pairs.map (·.1))) (p.1 - mean (pairs.map (·.1)))) := by
      rw [List.map_map]; rfl
    rw [hmap, ← hee]
    push Not
    constructor
    · rintro ⟨h1, h2⟩
      have he1 : 1 / 10 ^ 10 ≤ e 1 := by
        by_contra hc
        push Not at hc
        rw [if_pos hc, if_pos (lt_of_le_of_lt h01 hc)] at h1
        omega
      have hpos : 0 < e 1 := lt_of_lt_of_le (by norm_num) he1
      refine ⟨by omega, he1, ?_⟩
      have := le_of_abs_le h2
      rwa [div_le_iff₀ hpos] at this
    · rintro ⟨-, he1, h2⟩
      have hpos : 0 < e 1 := lt_of_lt_of_le (by norm_num) he1
      constructor
      · rw [if_neg (not_lt.2 he1), if_neg (not_lt.2 (le_trans he1 h12))]
        split <;> omega
      · rw [abs_of_nonneg (div_nonneg (by linarith) hpos.le), div_le_iff₀ hpos]
        exact h2

/-- The configured method decides: `auto` stands for the one chosen by the test of the points, anything unknown aligns
nothing. -/
theorem C89_method (svd : Mat 3 → Svd 3) (eig : Mat 3 → Vec 3)
    (prior : List (Vec 3 × Vec 3) → Bool → Option (ℝ × Mat 3 × Vec 3)) (cfg : Cfg) (a : ARec Id) (gcp : List GPoint)
    (useGps : Bool) :
    (cfg.method = "auto" → align svd eig prior cfg a gcp useGps = align svd eig prior
      { cfg with method := if wellConditioned eig (constraints cfg a gcp useGps) then "naive" else "orientation_prior" } a gcp useGps) ∧
    (cfg.method ≠ "auto" → cfg.method ≠ "naive" → cfg.method ≠ "orientation_prior" →
      align svd eig prior cfg a gcp useGps = (none, a)) := by
  constructor
  · intro h
    have hc : ∀ m, constraints { cfg with method := m } a gcp useGps = constraints cfg a gcp useGps := fun _ => rfl
    unfold align similarity
    simp only [h, hc]
    by_cases hw : wellConditioned eig (constraints cfg a gcp useGps) = true
    · simp [hw]
    · simp [hw]
  · intro h1 h2 h3
    unfold align similarity
    simp [h1, h2, h3]

/-- Sorted eigenvalues exist for every symmetric matrix. -/
theorem C89_eig : ∃ eig : Mat 3 → Vec 3, ∀ M, M.IsSymm → IsEig M (eig M) := by
  have : ∀ M : Mat 3, ∃ e : Vec 3, M.IsSymm → IsEig M e := by
    intro M
    by_cases hM : M.IsSymm
    · have hA : M.IsHermitian := by
        unfold Matrix.IsHermitian
        rw [conjTranspose_eq_transpose_of_trivial]
        exact hM
      let σ : Equiv.Perm (Fin 3) := Tuple.sort hA.eigenvalues
      have hmono : Monotone (hA.eigenvalues ∘ σ) := Tuple.monotone_sort _
      refine ⟨hA.eigenvalues ∘ σ, fun _ => ⟨hmono (by decide), hmono (by decide), fun l => ?_⟩⟩
      have h := congrArg (Polynomial.eval l) hA.charpoly_eq
      rw [eval_charpoly, Polynomial.eval_prod] at h
      have e : (scalar (Fin 3)) l = l • (1 : Mat 3) := by
        rw [scalar_apply, smul_one_eq_diagonal]
      rw [e] at h
      rw [h]
      simp only [Polynomial.eval_sub, Polynomial.eval_X, Polynomial.eval_C]
      rw [← Equiv.prod_comp σ, Fin.prod_univ_three]
      rfl
    · exact ⟨0, fun h => absurd h hM⟩
  choose f hf using this
  exact ⟨f, hf⟩


/-! ### Few constraints -/

/-- Reflection along `w`. -/
noncomputable def mirror (w : Vec 3) : Mat 3 := 1 + vecMulVec (-(2 / (w ⬝ᵥ w)) • w) w

theorem mirror_det {w : Vec 3} (h : w ≠ 0) : (mirror w).det = -1 := by
  have h0 : w ⬝ᵥ w ≠ 0 := fun e => h (dot_self_zero.1 e)
  unfold mirror
  rw [vecMulVec_eq Unit, det_one_add_replicateCol_mul_replicateRow, dotProduct_smul, smul_eq_mul]
  field_simp
  norm_num

theorem mirror_apply (w x : Vec 3) : mirror w *ᵥ x = x - (2 * (w ⬝ᵥ x) / (w ⬝ᵥ w)) • w := by
  unfold mirror
  rw [add_mulVec, one_mulVec, vecMulVec_mulVec, sub_eq_add_neg]
  congr 1
  funext i
  simp
  ring

theorem mirror_orth {w : Vec 3} (h : w ≠ 0) : (mirror w)ᵀ * mirror w = 1 := by
  have h0 : w ⬝ᵥ w ≠ 0 := fun e => h (dot_self_zero.1 e)
  have ht : (mirror w)ᵀ = mirror w := by
    unfold mirror
    rw [transpose_add, transpose_one, transpose_vecMulVec, vecMulVec_smul, smul_vecMulVec]
  rw [ht]
  apply Verif.Pose.mulVec_ext
  intro x
  rw [← mulVec_mulVec, mirror_apply, mirror_apply, one_mulVec, dotProduct_sub, dotProduct_smul, smul_eq_mul]
  have : 2 * (w ⬝ᵥ x - 2 * (w ⬝ᵥ x) / (w ⬝ᵥ w) * (w ⬝ᵥ w)) / (w ⬝ᵥ w) = -(2 * (w ⬝ᵥ x) / (w ⬝ᵥ w)) := by
    field_simp; ring
  rw [this]
  module

/-- Some rotation takes a vector to any other one of the same length. -/
theorem rot_between (a b : Vec 3) (h : a ⬝ᵥ a = b ⬝ᵥ b) : ∃ Q : Mat 3, IsRot Q ∧ Q *ᵥ a = b := by
  by_cases hab : a = b
  · exact ⟨1, ⟨by simp, by simp⟩, by rw [hab, one_mulVec]⟩
  have hw : a - b ≠ 0 := sub_ne_zero.2 hab
  have hw0 : (a - b) ⬝ᵥ (a - b) ≠ 0 := fun e => hw (dot_self_zero.1 e)
  have h1 : mirror (a - b) *ᵥ a = b := by
    rw [mirror_apply]
    have e : 2 * ((a - b) ⬝ᵥ a) = (a - b) ⬝ᵥ (a - b) := by
      simp only [sub_dotProduct, dotProduct_sub]
      rw [dotProduct_comm b a]
      linarith
    rw [e, div_self hw0, one_smul]
    abel
  obtain ⟨z, hz, hzb⟩ : ∃ z : Vec 3, z ≠ 0 ∧ z ⬝ᵥ b = 0 := by
    by_cases hb : b 0 = 0
    · refine ⟨![1, 0, 0], fun e => by simpa using congrFun e 0, ?_⟩
      simp [dotProduct, Fin.sum_univ_three, hb]
    · refine ⟨![-b 1, b 0, 0], fun e => hb (by simpa using congrFun e 1), ?_⟩
      simp [dotProduct, Fin.sum_univ_three]
      ring
  refine ⟨mirror z * mirror (a - b), ⟨?_, ?_⟩, ?_⟩
  · rw [transpose_mul, Matrix.mul_assoc, ← Matrix.mul_assoc (mirror z)ᵀ, mirror_orth hz, one_mul, mirror_orth hw]
  · rw [det_mul, mirror_det hz, mirror_det hw]; norm_num
  · rw [← mulVec_mulVec, h1, mirror_apply, hzb]
    simp

/-- Without constraints the naive method gives up, with one it moves the reconstruction onto it. -/
theorem C89_one (svd : Mat 3 → Svd 3) (useScale : Bool) (x y : Vec 3) :
    naive svd [] useScale = none ∧ naive svd [(x, y)] useScale = some (1, 1, y - x) := by
  constructor
  · rfl
  · unfold naive
    simp only [List.length_cons, List.length_nil]
    rw [if_pos (Or.inr trivial)]

theorem spread_same (y : Vec 3) : spread [y, y] = 0 := by
  have : mean [y, y] = y := by
    unfold mean
    funext i
    simp
    ring
  unfold spread
  rw [this]
  simp

/-- Two different constraints are both met exactly when the scale is free. -/
theorem C89_two (svd : Mat 3 → Svd 3) (hs : ∀ C, IsSvd C (svd C)) (x1 y1 x2 y2 : Vec 3) (hx : x1 ≠ x2)
    (hy : 1 / 10 ^ 10 ≤ spread [y1, y2]) :
    ∃ s A b, naive svd [(x1, y1), (x2, y2)] true = some (s, A, b) ∧ 0 < s ∧ IsRot A ∧
      s • (A *ᵥ x1) + b = y1 ∧ s • (A *ᵥ x2) + b = y2 := by
  have hyne : y1 ≠ y2 := by
    rintro rfl
    rw [spread_same] at hy
    norm_num at hy
  have hdx : 0 < (x2 - x1) ⬝ᵥ (x2 - x1) :=
    lt_of_le_of_ne (dot_self_nonneg _) (fun e => hx (sub_eq_zero.1 (dot_self_zero.1 e.symm)).symm)
  have hdy : 0 < (y2 - y1) ⬝ᵥ (y2 - y1) :=
    lt_of_le_of_ne (dot_self_nonneg _) (fun e => hyne (sub_eq_zero.1 (dot_self_zero.1 e.symm)).symm)
  let s : ℝ := Real.sqrt ((y2 - y1) ⬝ᵥ (y2 - y1) / ((x2 - x1) ⬝ᵥ (x2 - x1)))
  have hs0 : 0 < s := Real.sqrt_pos.2 (div_pos hdy hdx)
  have hss : s * s = (y2 - y1) ⬝ᵥ (y2 - y1) / ((x2 - x1) ⬝ᵥ (x2 - x1)) := Real.mul_self_sqrt (div_pos hdy hdx).le
  obtain ⟨Q, hQ, hQe⟩ := rot_between (s • (x2 - x1)) (y2 - y1) (by
    rw [smul_dotProduct, dotProduct_smul, smul_eq_mul, smul_eq_mul, ← mul_assoc, hss, div_mul_cancel₀ _ hdx.ne'])
  rw [mulVec_smul, mulVec_sub, smul_sub] at hQe
  let all : List (Vec 3 × Vec 3) := [(x1, y1), (x2, y2), (x2, y2)]
  obtain ⟨T, hT⟩ := Option.isSome_iff_exists.1 ((C88_total svd true all (by norm_num)).2 (by simp [all]))
  have hex : ∀ p ∈ all, p.2 = (sim s Q (y1 - s • (Q *ᵥ x1))).apply p.1 := by
    intro p hp
    simp only [all, List.mem_cons, List.not_mem_nil, or_false] at hp
    simp only [Sim.apply, sim, smul_mulVec]
    rcases hp with rfl | rfl | rfl
    · simp
    · simp only
      calc y2 = y1 + (y2 - y1) := by abel
        _ = _ := by rw [← hQe]; abel
    · simp only
      calc y2 = y1 + (y2 - y1) := by abel
        _ = _ := by rw [← hQe]; abel
  obtain ⟨h1, R, t, hR, rfl⟩ := C88_exact_points svd hs true all T hT s hs0 Q hQ _ hex (by simp)
    ⟨(x1, y1), by simp [all], (x2, y2), by simp [all], hx⟩
  refine ⟨s, R, t, ?_, hs0, hR, ?_, ?_⟩
  · unfold naive
    simp only [List.map_cons, List.map_nil, List.length_cons, List.length_nil]
    rw [stdev_norm, if_neg (by push Not; exact ⟨hy, by norm_num⟩), if_pos trivial]
    rw [show (x1, y1) :: [(x2, y2)] ++ [(x2, y2)] = all from rfl, hT, Option.map_some, C88_decompose s hs0 R hR t]
  · have := h1 (x1, y1) (by simp [all])
    simp only [Sim.apply, sim, smul_mulVec] at this
    exact this.symm
  · have := h1 (x2, y2) (by simp [all])
    simp only [Sim.apply, sim, smul_mulVec] at this
    exact this.symm

theorem naive_noscale (svd : Mat 3 → Svd 3) (hs : ∀ C, IsSvd C (svd C)) (pairs : List (Vec 3 × Vec 3)) (s : ℝ) (A : Mat 3)
    (b : Vec 3) (h : naive svd pairs false = some (s, A, b)) : s = 1 := by
  unfold naive at h
  match pairs, h with
  | [], h => exact absurd h (by simp)
  | p :: rest, h =>
    simp only at h
    split at h
    · simp only [Option.some.injEq, Prod.mk.injEq] at h
      exact h.1.symm
    · obtain ⟨T, hT, hd⟩ := Option.map_eq_some_iff.1 h
      obtain ⟨s', R, t, hR, rfl, h1, -, -⟩ := C88_similarity svd hs false _ T hT
      rw [h1 rfl, C88_decompose 1 one_pos R hR t] at hd
      exact (congrArg Prod.fst hd).symm

/-- A reconstruction with a rig instance of two or more shots keeps its scale with the naive method. -/
theorem C89_rigs (svd : Mat 3 → Svd 3) (hs : ∀ C, IsSvd C (svd C)) (eig : Mat 3 → Vec 3)
    (prior : List (Vec 3 × Vec 3) → Bool → Option (ℝ × Mat 3 × Vec 3)) (cfg : Cfg) (a : ARec Id) (gcp : List GPoint)
    (useGps : Bool)
    (hm : cfg.method = "naive" ∨ cfg.method = "auto" ∧ wellConditioned eig (constraints cfg a gcp useGps) = true)
    (i : Id) (p : Pose ℝ) (hi : (i, p) ∈ a.r.rigInstances)
    (h2 : 2 ≤ (a.r.shots.filter (fun e => decide (e.2.1 = i))).length) (s : ℝ) (A : Mat 3) (b : Vec 3)
    (h : (align svd eig prior cfg a gcp useGps).1 = some (s, A, b)) : s = 1 := by
  have hsc : useScale a = false := by
    unfold useScale
    rw [Bool.not_eq_false', List.any_eq_true]
    exact ⟨(i, p), hi, decide_eq_true h2⟩
  unfold align at h
  rw [hsc] at h
  have hsim : similarity svd eig prior cfg a gcp useGps false = some (s, A, b) := by
    cases hsim : similarity svd eig prior cfg a gcp useGps false with
    | none => rw [hsim] at h; exact absurd h (by simp)
    | some x =>
      rw [hsim] at h
      obtain ⟨s', A', b'⟩ := x
      simpa using h
  have hn : naive svd (constraints cfg a gcp useGps) false = some (s, A, b) := by
    unfold similarity at hsim
    rcases hm with hm | ⟨hm, hw⟩
    · simp only [hm] at hsim
      simp only [String.reduceEq, if_false, if_true] at hsim
      cases hx : naive svd (constraints cfg a gcp useGps) false with
      | none => rw [hx] at hsim; exact absurd hsim (by simp)
      | some x =>
        rw [hx] at hsim
        simp only at hsim
        split at hsim
        · exact absurd hsim (by simp)
        · exact hsim
    · simp only [hm, hw] at hsim
      simp only [String.reduceEq, if_false, if_true] at hsim
      cases hx : naive svd (constraints cfg a gcp useGps) false with
      | none => rw [hx] at hsim; exact absurd hsim (by simp)
      | some x =>
        rw [hx] at hsim
        simp only at hsim
        split at hsim
        · exact absurd hsim (by simp)
        · exact hsim
  exact naive_noscale svd hs _ s A b hn

/-- A reconstruction whose aligned points all coincide is left alone (with a free scale) by the naive method. -/
theorem C89_degenerate (svd : Mat 3 → Svd 3) (eig : Mat 3 → Vec 3)
    (prior : List (Vec 3 × Vec 3) → Bool → Option (ℝ × Mat 3 × Vec 3)) (cfg : Cfg) (a : ARec Id) (gcp : List GPoint)
    (useGps : Bool) (hm : cfg.method = "naive") (x : Vec 3) (hx : ∀ p ∈ constraints cfg a gcp useGps, p.1 = x)
    (hy : 1 / 10 ^ 10 ≤ spread ((constraints cfg a gcp useGps).map (·.2)))
    (hone : ∀ i, (a.r.shots.filter (fun e => decide (e.2.1 = i))).length ≤ 1) :
    align svd eig prior cfg a gcp useGps = (none, a) := by
  have hsc : useScale a = true := by
    unfold useScale
    rw [Bool.not_eq_true', List.any_eq_false]
    intro e _ he
    have := of_decide_eq_true he
    have := hone e.1
    omega
  have hsup : ∀ pairs : List (Vec 3 × Vec 3), (∀ p ∈ pairs, p.1 = x) → ∀ T, superimpose svd true pairs = some T →
      (decompose T).1 = 0 := by
    intro pairs hp T hT
    obtain ⟨-, hl, rfl⟩ := superimpose_eq svd true pairs T hT
    have hmean : mean (pairs.map (·.1)) = x := by
      have : pairs.map (·.1) = List.replicate pairs.length x := by
        rw [List.eq_replicate_iff]
        refine ⟨by simp, ?_⟩
        intro b hb
        obtain ⟨p, hpm, rfl⟩ := List.mem_map.1 hb
        exact hp p hpm
      rw [this]
      unfold mean
      rw [List.sum_replicate, List.length_replicate, ← Nat.cast_smul_eq_nsmul ℝ, smul_smul, inv_mul_cancel₀, one_smul]
      have : 0 < pairs.length := by omega
      positivity
    have h0 : sumSq ((centred pairs).map (·.1)) = 0 := by
      rw [sumSq_zero]
      intro y hy
      obtain ⟨q, hq, rfl⟩ := List.mem_map.1 hy
      obtain ⟨p, hpm, rfl⟩ := List.mem_map.1 hq
      simp only
      rw [hmean, hp p hpm, sub_self]
    have h1 : scaleOf true pairs = 0 := by
      unfold scaleOf rmsRatio
      rw [if_pos rfl, h0, div_zero, Real.sqrt_zero]
    rw [h1]
    unfold decompose sim
    simp only [zero_smul, det_zero]
    apply Real.zero_rpow
    norm_num
  unfold align
  rw [hsc]
  have : similarity svd eig prior cfg a gcp useGps true = none := by
    unfold similarity
    simp only [hm]
    simp only [String.reduceEq, if_false, if_true]
    generalize hc : constraints cfg a gcp useGps = pairs at *
    unfold naive
    match pairs, hx, hy with
    | [], _, _ => rfl
    | p :: rest, hx, hy =>
      simp only
      by_cases h1 : (p :: rest).length = 1
      · have hr : rest = [] := by simpa using h1
        subst hr
        exfalso
        have : spread (List.map (·.2) [p]) = 0 := by
          unfold spread mean
          simp
        rw [this] at hy
        norm_num at hy
      · rw [stdev_norm, if_neg (by push Not; exact ⟨hy, h1⟩)]
        have key : ∀ all : List (Vec 3 × Vec 3), (∀ p ∈ all, p.1 = x) →
            (match (superimpose svd true all).map decompose with
              | none => none
              | some y => if y.1 = 0 then none else some y) = none := by
          intro all hall
          cases hT : superimpose svd true all with
          | none => rfl
          | some T =>
            simp only [Option.map_some]
            rw [if_pos (hsup all hall T hT)]
        apply key
        split
        · intro q hq
          apply hx
          simp only [List.cons_append, List.mem_cons, List.mem_append] at hq ⊢
          tauto
        · exact hx
  rw [this]

/-- A control point without altitude spoils an exact alignment: its third coordinate is set to zero before the
reconstruction is aligned. -/
theorem C89_altitude (svd : Mat 3 → Svd 3) (hs : ∀ C, IsSvd C (svd C)) (eig : Mat 3 → Vec 3)
    (prior : List (Vec 3 × Vec 3) → Bool → Option (ℝ × Mat 3 × Vec 3)) :
    ∃ (gcp : List GPoint) (Q : Mat 3), IsRot Q ∧
      (∀ g ∈ gcp, ∃ x m, g.triangulated = some x ∧ g.measured = some m ∧ m 0 = (Q *ᵥ x) 0 ∧ m 1 = (Q *ᵥ x) 1 ∧
        (g.hasAltitude = true → m = Q *ᵥ x)) ∧
      ¬ OnLine (gcp.filterMap (fun g => if g.hasAltitude then g.triangulated else none)) ∧
      (align svd eig prior ⟨"naive", true, true⟩ (⟨⟨[], [], [], []⟩, fun _ => none⟩ : ARec ℕ) gcp false).1 ≠ some (1, Q, 0) := by
  have hQ : IsRot (!![1, 0, 0; 0, 0, -1; 0, 1, 0] : Mat 3) := by
    constructor
    · ext i j
      fin_cases i <;> fin_cases j <;> simp [Matrix.mul_apply, Fin.sum_univ_three]
    · simp [Matrix.det_fin_three]
  refine ⟨[⟨some ![0, 0, 0], some ![0, 0, 0], true⟩, ⟨some ![1, 0, 0], some ![1, 0, 0], true⟩,
    ⟨some ![0, 1, 0], some ![0, 0, 1], true⟩, ⟨some ![0, 0, 1], some ![0, -1, 0], false⟩],
    !![1, 0, 0; 0, 0, -1; 0, 1, 0], hQ, ?_, ?_, ?_⟩
  · intro g hg
    simp only [List.mem_cons, List.not_mem_nil, or_false] at hg
    rcases hg with rfl | rfl | rfl | rfl
    · refine ⟨_, _, rfl, rfl, ?_, ?_, fun _ => ?_⟩ <;>
        first | (simp [mulVec, dotProduct, Fin.sum_univ_three]; done) | (funext i; fin_cases i <;> simp [mulVec, dotProduct, Fin.sum_univ_three])
    · refine ⟨_, _, rfl, rfl, ?_, ?_, fun _ => ?_⟩ <;>
        first | (simp [mulVec, dotProduct, Fin.sum_univ_three]; done) | (funext i; fin_cases i <;> simp [mulVec, dotProduct, Fin.sum_univ_three])
    · refine ⟨_, _, rfl, rfl, ?_, ?_, fun _ => ?_⟩ <;>
        first | (simp [mulVec, dotProduct, Fin.sum_univ_three]; done) | (funext i; fin_cases i <;> simp [mulVec, dotProduct, Fin.sum_univ_three])
    · refine ⟨_, _, rfl, rfl, ?_, ?_, fun h => absurd h (by simp)⟩ <;>
        simp [mulVec, dotProduct, Fin.sum_univ_three]
  · rintro ⟨o, d, h⟩
    simp only [List.filterMap_cons, List.filterMap_nil, if_true, Bool.false_eq_true, if_false] at h
    obtain ⟨a, ha⟩ := h ![0, 0, 0] (by simp)
    obtain ⟨b, hb⟩ := h ![1, 0, 0] (by simp)
    obtain ⟨c, hc⟩ := h ![0, 1, 0] (by simp)
    have a0 := congrFun ha 0
    have a1 := congrFun ha 1
    have b0 := congrFun hb 0
    have b1 := congrFun hb 1
    have c0 := congrFun hc 0
    have c1 := congrFun hc 1
    simp at a0 a1 b0 b1 c0 c1
    have e1 : (b - a) * d 0 = 1 := by linarith
    have e2 : (b - a) * d 1 = 0 := by linarith
    have e4 : (c - a) * d 1 = 1 := by linarith
    rcases mul_eq_zero.1 e2 with h | h
    · rw [h] at e1; simp at e1
    · rw [h] at e4; simp at e4
  · intro h
    let pairs : List (Vec 3 × Vec 3) :=
      [(![0, 0, 0], ![0, 0, 0]), (![1, 0, 0], ![1, 0, 0]), (![0, 1, 0], ![0, 0, 1]), (![0, 0, 0], ![0, -1, 0])]
    have hc : constraints ⟨"naive", true, true⟩ (⟨⟨[], [], [], []⟩, fun _ => none⟩ : ARec ℕ)
        [⟨some ![0, 0, 0], some ![0, 0, 0], true⟩, ⟨some ![1, 0, 0], some ![1, 0, 0], true⟩,
          ⟨some ![0, 1, 0], some ![0, 0, 1], true⟩, ⟨some ![0, 0, 1], some ![0, -1, 0], false⟩] false = pairs := by
      simp [constraints, gcpPair, flat, pairs]
    have hsc : useScale (⟨⟨[], [], [], []⟩, fun _ => none⟩ : ARec ℕ) = true := rfl
    unfold align at h
    rw [hsc] at h
    unfold similarity at h
    simp only [hc] at h
    simp only [String.reduceEq, if_false, if_true] at h
    have hn : naive svd pairs true = some (1, !![1, 0, 0; 0, 0, -1; 0, 1, 0], 0) := by
      cases hx : naive svd pairs true with
      | none => rw [hx] at h; exact absurd h (by simp)
      | some y =>
        obtain ⟨s, A, b⟩ := y
        rw [hx] at h
        by_cases h0 : s = 0
        · simp only [h0, if_true] at h
          exact absurd h (by simp)
        · simp only [h0, if_false] at h
          exact h
    unfold naive at hn
    simp only [pairs] at hn
    split at hn
    · simp only [Option.some.injEq, Prod.mk.injEq] at hn
      have := congrFun (congrFun hn.2.1 1) 1
      simp at this
    · rw [if_neg (by simp)] at hn
      obtain ⟨T, hT, hd⟩ := Option.map_eq_some_iff.1 hn
      obtain ⟨s, R, t, hR, rfl, -, hsq, hmean⟩ := C88_similarity svd hs true _ T hT
      have hs0 : 0 ≤ s := by rw [hsq rfl]; exact Real.sqrt_nonneg _
      have hsp : 0 < s := by
        refine lt_of_le_of_ne hs0 (fun e => ?_)
        rw [← e] at hd
        have := congrArg Prod.fst hd
        unfold decompose sim at this
        simp only [zero_smul, det_zero] at this
        rw [Real.zero_rpow (by norm_num)] at this
        norm_num at this
      rw [C88_decompose s hsp R hR t] at hd
      simp only [Prod.mk.injEq] at hd
      obtain ⟨rfl, rfl, rfl⟩ := hd
      have := congrFun hmean 1
      simp [Sim.apply, sim, mean, mulVec, dotProduct, Fin.sum_univ_three] at this


/-- Three control points, doubled and moved: the hypotheses of `C89_exact` are met. -/
example (svd : Mat 3 → Svd 3) (hs : ∀ C, IsSvd C (svd C)) (eig : Mat 3 → Vec 3)
    (prior : List (Vec 3 × Vec 3) → Bool → Option (ℝ × Mat 3 × Vec 3)) :
    ∃ a', align svd eig prior ⟨"naive", true, true⟩ (⟨⟨[(7, ![1, 1, 1])], [], [], []⟩, fun _ => none⟩ : ARec ℕ)
      [⟨some ![0, 0, 0], some ![5, 0, 0], true⟩, ⟨some ![1, 0, 0], some ![7, 0, 0], true⟩,
        ⟨some ![0, 1, 0], some ![5, 2, 0], true⟩] true = (some (2, 1, ![5, 0, 0]), a') ∧
      a'.r.points.get? 7 = some ![7, 2, 2] := by
  have hc : constraints ⟨"naive", true, true⟩ (⟨⟨[(7, ![1, 1, 1])], [], [], []⟩, fun _ => none⟩ : ARec ℕ)
      [⟨some ![0, 0, 0], some ![5, 0, 0], true⟩, ⟨some ![1, 0, 0], some ![7, 0, 0], true⟩,
        ⟨some ![0, 1, 0], some ![5, 2, 0], true⟩] true
      = [(![0, 0, 0], ![5, 0, 0]), (![1, 0, 0], ![7, 0, 0]), (![0, 1, 0], ![5, 2, 0])] := by
    simp [constraints, gcpPair]
  obtain ⟨a', h1, -, h2, -⟩ := C89_exact svd hs eig prior ⟨"naive", true, true⟩
    (⟨⟨[(7, ![1, 1, 1])], [], [], []⟩, fun _ => none⟩ : ARec ℕ)
    [⟨some ![0, 0, 0], some ![5, 0, 0], true⟩, ⟨some ![1, 0, 0], some ![7, 0, 0], true⟩,
      ⟨some ![0, 1, 0], some ![5, 2, 0], true⟩] true (by simp [Dict.Wf, Dict.keys])
    (by intro i p h; exact absurd h (by simp)) (Or.inl rfl) 2 (by norm_num) 1 ⟨by simp, by simp⟩ ![5, 0, 0]
    (by
      rw [hc]
      intro p hp
      simp only [List.mem_cons, List.not_mem_nil, or_false] at hp
      rcases hp with rfl | rfl | rfl <;>
      · funext i
        fin_cases i <;> simp <;> norm_num)
    (Or.inr (by simp))
    (by
      rw [hc]
      rintro ⟨o, d, h⟩
      obtain ⟨a, ha⟩ := h ![0, 0, 0] (by simp)
      obtain ⟨b, hb⟩ := h ![1, 0, 0] (by simp)
      obtain ⟨c, hc⟩ := h ![0, 1, 0] (by simp)
      have a0 := congrFun ha 0
      have a1 := congrFun ha 1
      have b0 := congrFun hb 0
      have b1 := congrFun hb 1
      have c1 := congrFun hc 1
      simp at a0 a1 b0 b1 c1
      have e1 : (b - a) * d 0 = 1 := by linarith
      have e2 : (b - a) * d 1 = 0 := by linarith
      have e4 : (c - a) * d 1 = 1 := by linarith
      rcases mul_eq_zero.1 e2 with h | h
      · rw [h] at e1; simp at e1
      · rw [h] at e4; simp at e4)
    (by
      rw [hc]
      unfold spread
      apply Real.le_sqrt_of_sq_le
      simp [mean, dotProduct, Fin.sum_univ_three]
      norm_num)
  refine ⟨a', h1, ?_⟩
  rw [h2]
  simp only [Dict.get?, if_true, Option.map_some]
  congr 1
  funext i
  fin_cases i <;> simp <;> norm_num

end Verif.Align
