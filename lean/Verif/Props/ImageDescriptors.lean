import Verif.Model.ImageDescriptors
import Mathlib.Tactic.Linarith
import Mathlib.Tactic.FieldSimp
import Mathlib.Tactic.Positivity
import Mathlib.Algebra.Order.Chebyshev
import Mathlib.Analysis.InnerProductSpace.PiL2

/-!
# C128: descriptors of whole images
-/
set_option linter.unusedSectionVars false
set_option linter.unusedSimpArgs false
set_option linter.unusedVariables false
namespace Verif.ImageDescriptors
open Verif Finset

variable {Id : Type} [DecidableEq Id] {W K D : ℕ}

/-! ### Specification -/

/-- A vocabulary of at least two words, with positive frequencies. -/
structure Vocabulary (freq : Fin W → ℝ) : Prop where
  two : 2 ≤ W
  pos : ∀ i, 0 < freq i

/-- The words of an image: some, all of the vocabulary. -/
structure Words (W : ℕ) (words : List ℕ) : Prop where
  some : words ≠ []
  known : ∀ w ∈ words, w < W

/-- The same words in the same proportions. -/
def Proportional (words words' : List ℕ) : Prop :=
  ∃ c : ℝ, 0 < c ∧ ∀ w, (words.count w : ℝ) = c * words'.count w

/-- The centre of a feature: the nearest, of equally near ones the first. -/
def IsCentre (centers : Fin K → Fin D → ℝ) (f : Fin D → ℝ) (k : Fin K) : Prop :=
  (∀ j, ∑ d, (f d - centers k d) ^ 2 ≤ ∑ d, (f d - centers j d) ^ 2) ∧
    ∀ j, j < k → ∑ d, (f d - centers k d) ^ 2 < ∑ d, (f d - centers j d) ^ 2

/-! ### Bags of words -/

theorem weight_pos {freq : Fin W → ℝ} (h : Vocabulary freq) (i : Fin W) : 0 < weight freq i := by
  apply Real.log_pos
  rw [one_lt_div (h.pos i)]
  have : ∃ j : Fin W, j ≠ i := by
    by_cases h0 : i.val = 0
    · exact ⟨⟨1, by have := h.two; omega⟩, fun e => by rw [← e] at h0; simp at h0⟩
    · exact ⟨⟨0, by have := h.two; omega⟩, fun e => by rw [← e] at h0; simp at h0⟩
  obtain ⟨j, hj⟩ := this
  exact Finset.single_lt_sum hj (mem_univ i) (mem_univ j) (h.pos j) (fun k _ _ => (h.pos k).le)

theorem weighted_nonneg {freq : Fin W → ℝ} (h : Vocabulary freq) (words : List ℕ) (i : Fin W) : 0 ≤ weighted freq words i :=
  mul_nonneg (Nat.cast_nonneg _) (weight_pos h i).le

theorem weighted_zero {freq : Fin W → ℝ} (h : Vocabulary freq) (words : List ℕ) (i : Fin W) :
    weighted freq words i = 0 ↔ i.val ∉ words := by
  unfold weighted
  rw [mul_eq_zero, or_iff_left (weight_pos h i).ne', Nat.cast_eq_zero, List.count_eq_zero]

theorem total_pos {freq : Fin W → ℝ} (h : Vocabulary freq) {words : List ℕ} (hw : Words W words) :
    0 < ∑ i, weighted freq words i := by
  obtain ⟨w, t, rfl⟩ := List.exists_cons_of_ne_nil hw.some
  have hlt := hw.known w (by simp)
  refine Finset.sum_pos' (fun i _ => weighted_nonneg h _ i) ⟨⟨w, hlt⟩, mem_univ _, ?_⟩
  refine lt_of_le_of_ne (weighted_nonneg h _ _) (fun e => ?_)
  exact (weighted_zero h _ _).1 e.symm (by simp)

theorem histogram_value {freq : Fin W → ℝ} (h : Vocabulary freq) {words : List ℕ} (hw : Words W words) :
    histogram freq words = .value (fun i => weighted freq words i / ∑ j, weighted freq words j) := by
  unfold histogram
  rw [if_neg (by rintro ⟨w, h1, h2⟩; exact absurd (hw.known w h1) (not_lt.2 h2)), if_neg (total_pos h hw).ne']

/-- The histogram of an image: shares of its words, weighted by their rarity. -/
theorem C128_histogram {freq : Fin W → ℝ} (h : Vocabulary freq) {words : List ℕ} (hw : Words W words) :
    ∃ H, histogram freq words = .value H ∧ (∀ i, 0 ≤ H i) ∧ ∑ i, H i = 1 ∧ (∀ i, H i = 0 ↔ i.val ∉ words) ∧
      ∀ i j, H i * (words.count j.val * Real.log ((∑ k, freq k) / freq j)) =
        H j * (words.count i.val * Real.log ((∑ k, freq k) / freq i)) := by
  have ht := total_pos h hw
  refine ⟨_, histogram_value h hw, fun i => div_nonneg (weighted_nonneg h _ i) ht.le, ?_, ?_, ?_⟩
  · rw [← Finset.sum_div, div_self ht.ne']
  · intro i
    rw [div_eq_zero_iff, or_iff_left ht.ne', weighted_zero h]
  · intro i j
    show weighted freq words i / _ * weighted freq words j = weighted freq words j / _ * weighted freq words i
    ring

/-- Images with fewer than nine features have none; without words there is none; with a word that is not of the vocabulary it
raises. -/
theorem C128_no_histogram (freq : Fin W → ℝ) :
    loadHistogram freq none = none ∧ (∀ words : List ℕ, words.length < 9 → loadHistogram freq (some words) = none) ∧
    (∀ words : List ℕ, 9 ≤ words.length → loadHistogram freq (some words) = some (histogram freq words)) ∧
    ∀ words : List ℕ, ∀ w ∈ words, W ≤ w → histogram freq words = .raises := by
  refine ⟨rfl, ?_, ?_, ?_⟩
  · intro words hl
    unfold loadHistogram
    exact if_pos (by omega)
  · intro words hl
    unfold loadHistogram
    exact if_neg (by omega)
  · intro words w hw hW
    unfold histogram
    exact if_pos ⟨w, hw, hW⟩

theorem same_iff {freq : Fin W → ℝ} (h : Vocabulary freq) {words words' : List ℕ} (hw : Words W words) (hw' : Words W words') :
    (∀ i, weighted freq words i / ∑ j, weighted freq words j = weighted freq words' i / ∑ j, weighted freq words' j) ↔
      Proportional words words' := by
  have ht := total_pos h hw
  have ht' := total_pos h hw'
  constructor
  · intro e
    refine ⟨(∑ j, weighted freq words j) / ∑ j, weighted freq words' j, div_pos ht ht', fun w => ?_⟩
    by_cases hl : w < W
    · have h1 := e ⟨w, hl⟩
      have hp := weight_pos h ⟨w, hl⟩
      generalize ∑ j, weighted freq words j = T at h1 ht ⊢
      generalize ∑ j, weighted freq words' j = T' at h1 ht' ⊢
      unfold weighted at h1
      rw [div_eq_div_iff ht.ne' ht'.ne'] at h1
      simp only at h1
      have h2 : ((words.count w : ℝ) * T') * weight freq ⟨w, hl⟩ = ((words'.count w : ℝ) * T) * weight freq ⟨w, hl⟩ := by
        linarith
      have h3 := mul_right_cancel₀ hp.ne' h2
      field_simp
      linarith
    · rw [List.count_eq_zero.2 (fun hm => hl (hw.known w hm)), List.count_eq_zero.2 (fun hm => hl (hw'.known w hm))]
      simp
  · rintro ⟨c, hc, e⟩ i
    have e2 : ∀ j, weighted freq words j = c * weighted freq words' j := by
      intro j
      unfold weighted
      rw [e]
      ring
    simp only [e2, ← Finset.mul_sum]
    rw [mul_div_mul_left _ _ hc.ne']

theorem abs_sub_le_add {a b : ℝ} (ha : 0 ≤ a) (hb : 0 ≤ b) : |a - b| ≤ a + b := by
  rw [abs_le]; constructor <;> linarith

theorem abs_sub_eq_add {a b : ℝ} (ha : 0 ≤ a) (hb : 0 ≤ b) : |a - b| = a + b ↔ a = 0 ∨ b = 0 := by
  constructor
  · intro h
    rcases abs_cases (a - b) with ⟨h1, -⟩ | ⟨h1, -⟩
    · right; linarith
    · left; linarith
  · rintro (rfl | rfl)
    · rw [zero_sub, abs_neg, abs_of_nonneg hb, zero_add]
    · rw [sub_zero, abs_of_nonneg ha, add_zero]

/-- The distance of two images is between 0, when they have the same words in the same proportions, and 2, when they have no
word in common. -/
theorem C128_bow_distance {freq : Fin W → ℝ} (h : Vocabulary freq) {words words' : List ℕ} (hw : Words W words)
    (hw' : Words W words') :
    ∃ H H', histogram freq words = .value H ∧ histogram freq words' = .value H' ∧
      0 ≤ distanceL1 H H' ∧ distanceL1 H H' ≤ 2 ∧ (distanceL1 H H' = 0 ↔ Proportional words words') ∧
      (distanceL1 H H' = 2 ↔ ∀ w ∈ words, w ∉ words') := by
  obtain ⟨H, e, n, s, z, -⟩ := C128_histogram h hw
  obtain ⟨H', e', n', s', z', -⟩ := C128_histogram h hw'
  have hle : ∀ i ∈ univ, |H i - H' i| ≤ H i + H' i := fun i _ => abs_sub_le_add (n i) (n' i)
  have hs : ∑ i, (H i + H' i) = 2 := by rw [Finset.sum_add_distrib, s, s']; norm_num
  refine ⟨H, H', e, e', Finset.sum_nonneg (fun i _ => abs_nonneg _), ?_, ?_, ?_⟩
  · rw [← hs]
    exact Finset.sum_le_sum hle
  · rw [← same_iff h hw hw']
    have e1 := e.symm.trans (histogram_value h hw)
    have e1' := e'.symm.trans (histogram_value h hw')
    injection e1 with e1
    injection e1' with e1'
    unfold distanceL1
    rw [Finset.sum_eq_zero_iff_of_nonneg (fun i _ => abs_nonneg _)]
    constructor
    · intro hh i
      have := hh i (mem_univ i)
      rw [abs_eq_zero, sub_eq_zero, e1, e1'] at this
      exact this
    · intro hh i _
      rw [abs_eq_zero, sub_eq_zero, e1, e1']
      exact hh i
  · rw [← hs]
    unfold distanceL1
    rw [Finset.sum_eq_sum_iff_of_le hle]
    constructor
    · intro hh w hm hm'
      have hl := hw.known w hm
      rcases (abs_sub_eq_add (n ⟨w, hl⟩) (n' ⟨w, hl⟩)).1 (hh _ (mem_univ _)) with h0 | h0
      · exact (z _).1 h0 hm
      · exact (z' _).1 h0 hm'
    · intro hh i _
      rw [abs_sub_eq_add (n i) (n' i), z, z']
      by_cases hm : i.val ∈ words
      · exact .inr (hh _ hm)
      · exact .inl hm

/-- It is a distance: symmetric, and with the triangle inequality. -/
theorem C128_bow_metric (a b c : Fin W → ℝ) :
    distanceL1 a b = distanceL1 b a ∧ distanceL1 a c ≤ distanceL1 a b + distanceL1 b c := by
  unfold distanceL1
  constructor
  · exact Finset.sum_congr rfl (fun i _ => abs_sub_comm _ _)
  · rw [← Finset.sum_add_distrib]
    exact Finset.sum_le_sum (fun i _ => abs_sub_le _ _ _)

/-! ### Distances to the candidates -/

/-- The distances reported are those to the candidates, other than the image, that have a histogram; without a histogram of
the image, none. -/
theorem C128_candidates {H : Type} (dist : H → H → ℝ) (hist : Dict Id H) (image : Id) (others : List Id) (im : Id) (d : ℝ) :
    (im, d) ∈ distances dist hist image others ↔ im ∈ others ∧ im ≠ image ∧
      ∃ h h2, hist.get? image = some h ∧ hist.get? im = some h2 ∧ d = dist h h2 := by
  unfold distances
  cases e : hist.get? image with
  | none => simp
  | some h =>
    simp only [List.mem_filterMap]
    constructor
    · rintro ⟨x, hx, hh⟩
      by_cases hxi : x = image
      · rw [if_pos hxi] at hh; cases hh
      · rw [if_neg hxi] at hh
        obtain ⟨h2, e2, e3⟩ := Option.map_eq_some_iff.1 hh
        cases e3
        exact ⟨hx, hxi, h, h2, rfl, e2, rfl⟩
    · rintro ⟨h1, h2, h', h2', e1, e2, rfl⟩
      cases e1
      exact ⟨im, h1, by rw [if_neg h2, e2]; rfl⟩

/-- In the order of the candidates, each once. -/
theorem C128_order {H : Type} (dist : H → H → ℝ) (hist : Dict Id H) (image : Id) (others : List Id) :
    ((distances dist hist image others).map (·.1)).Sublist others := by
  unfold distances
  cases hist.get? image with
  | none => simp
  | some h =>
    simp only
    induction others with
    | nil => simp
    | cons x xs ih =>
      rw [List.filterMap_cons]
      split
      · exact ih.cons _
      · rename_i p hp
        rw [List.map_cons]
        have : p.1 = x := by
          split at hp
          · cases hp
          · obtain ⟨h2, e2, rfl⟩ := Option.map_eq_some_iff.1 hp
            rfl
        rw [this]
        exact ih.cons_cons _

/-! ### VLAD -/

/-- The state of the search after the centres `done`. -/
def Found (centers : Fin K → Fin D → ℝ) (f : Fin D → ℝ) (done : List (Fin K)) : Option (ℝ × Fin K) → Prop
  | none => done = []
  | some (b, k) => k ∈ done ∧ b = squared f (centers k) ∧ (∀ j ∈ done, b ≤ squared f (centers j)) ∧
      ∀ j ∈ done, j < k → b < squared f (centers j)

theorem found_step {centers : Fin K → Fin D → ℝ} {f : Fin D → ℝ} {done : List (Fin K)} {best : Option (ℝ × Fin K)}
    (h : Found centers f done best) (j : Fin K) (hj : ∀ i ∈ done, i < j) :
    Found centers f (done ++ [j]) (nearestStep centers f best j) := by
  cases best with
  | none =>
    have h : done = [] := h
    subst h
    refine ⟨by simp, rfl, by simp, ?_⟩
    intro i hi hlt
    simp at hi
    subst hi
    exact absurd hlt (lt_irrefl _)
  | some p =>
    obtain ⟨b, k⟩ := p
    obtain ⟨h1, h2, h3, h4⟩ := h
    unfold nearestStep
    simp only
    split
    · rename_i hlt
      refine ⟨by simp, rfl, ?_, ?_⟩
      · intro i hi
        rw [List.mem_append, List.mem_singleton] at hi
        rcases hi with hi | rfl
        · exact hlt.le.trans (h3 i hi)
        · exact le_rfl
      · intro i hi hij
        rw [List.mem_append, List.mem_singleton] at hi
        rcases hi with hi | rfl
        · exact hlt.trans_le (h3 i hi)
        · exact absurd hij (lt_irrefl _)
    · rename_i hlt
      refine ⟨by simp [h1], h2, ?_, ?_⟩
      · intro i hi
        rw [List.mem_append, List.mem_singleton] at hi
        rcases hi with hi | rfl
        · exact h3 i hi
        · exact not_lt.1 hlt
      · intro i hi hik
        rw [List.mem_append, List.mem_singleton] at hi
        rcases hi with hi | rfl
        · exact h4 i hi hik
        · exact absurd (hj k h1) (not_lt.2 hik.le)

theorem found_fold {centers : Fin K → Fin D → ℝ} {f : Fin D → ℝ} (l done : List (Fin K)) {best : Option (ℝ × Fin K)}
    (h : Found centers f done best) (hp : (done ++ l).Pairwise (· < ·)) :
    Found centers f (done ++ l) (l.foldl (nearestStep centers f) best) := by
  induction l generalizing done best with
  | nil => simpa using h
  | cons j l ih =>
    have hj : ∀ i ∈ done, i < j := fun i hi => (List.pairwise_append.1 hp).2.2 i hi j (by simp)
    have := ih (done ++ [j]) (found_step h j hj) (by simpa using hp)
    simpa using this

theorem nearest_spec (centers : Fin K → Fin D → ℝ) (f : Fin D → ℝ) (hK : 0 < K) :
    ∃ k, nearestCenter centers f = some k ∧ IsCentre centers f k := by
  have h := found_fold (centers := centers) (f := f) (List.finRange K) [] (best := none) rfl
    (by simpa using List.pairwise_lt_finRange K)
  unfold nearestCenter
  cases e : (List.finRange K).foldl (nearestStep centers f) none with
  | none =>
    rw [e] at h
    have h : [] ++ List.finRange K = [] := h
    have := congrArg List.length h
    simp at this
    omega
  | some p =>
    obtain ⟨b, k⟩ := p
    rw [e] at h
    obtain ⟨-, h2, h3, h4⟩ := h
    refine ⟨k, rfl, ?_, ?_⟩
    · intro j
      have := h3 j (by simp)
      rw [h2] at this
      exact this
    · intro j hj
      have := h4 j (by simp) hj
      rw [h2] at this
      exact this

theorem centre_unique {centers : Fin K → Fin D → ℝ} {f : Fin D → ℝ} {k k' : Fin K} (h : IsCentre centers f k)
    (h' : IsCentre centers f k') : k = k' := by
  rcases lt_trichotomy k k' with hlt | e | hlt
  · exact absurd (h.1 k') (not_le.2 (h'.2 k hlt))
  · exact e
  · exact absurd (h'.1 k) (not_le.2 (h.2 k' hlt))

open Classical in
/-- The residuals of the features of a centre, added. -/
noncomputable def residuals (centers : Fin K → Fin D → ℝ) (features : List (Fin D → ℝ)) (k : Fin K) (d : Fin D) : ℝ :=
  ((features.filter (fun f => decide (IsCentre centers f k))).map (fun f => f d - centers k d)).sum

theorem vlad_fold (centers : Fin K → Fin D → ℝ) (hK : 0 < K) (features : List (Fin D → ℝ)) (v : Fin K → Fin D → ℝ) :
    features.foldl (vladStep centers) v = fun k d => v k d + residuals centers features k d := by
  induction features generalizing v with
  | nil => funext k d; simp [residuals]
  | cons f fs ih =>
    rw [List.foldl_cons, ih]
    funext k d
    obtain ⟨k0, e, hc⟩ := nearest_spec centers f hK
    unfold vladStep
    rw [e]
    simp only
    unfold residuals
    rw [List.filter_cons]
    by_cases hk : k = k0
    · subst hk
      rw [Function.update_self, if_pos (by simpa using hc), List.map_cons, List.sum_cons]
      simp only [Pi.add_apply, Pi.sub_apply]
      ring
    · rw [Function.update_of_ne hk, if_neg (by simpa using fun h => hk (centre_unique h hc))]

/-- The VLAD vector of an image adds, for every centre, the differences of the features nearest to it; without centres or
coordinates it raises. -/
theorem C128_vlad (centers : Fin K → Fin D → ℝ) (features : List (Fin D → ℝ)) :
    (K = 0 ∨ D = 0 → vlad centers features = none) ∧
    (0 < K → 0 < D → vlad centers features = some (residuals centers features)) ∧
    (0 < K → ∀ f, ∃! k, IsCentre centers f k) := by
  refine ⟨fun h => if_pos h, fun hK hD => ?_, fun hK f => ?_⟩
  · unfold vlad
    rw [if_neg (by omega), vlad_fold centers hK]
    congr 1
    funext k d
    simp
  · obtain ⟨k, -, h⟩ := nearest_spec centers f hK
    exact ⟨k, h, fun k' h' => centre_unique h' h⟩

/-- It does not depend on the order of the features, and the vector of all features of two lists is the sum. -/
theorem C128_vlad_sum (centers : Fin K → Fin D → ℝ) (fs gs : List (Fin D → ℝ)) (v w : Fin K → Fin D → ℝ)
    (hv : vlad centers fs = some v) (hw : vlad centers gs = some w) :
    (gs.Perm fs → w = v) ∧ vlad centers (fs ++ gs) = some (v + w) := by
  have hd : ¬ (K = 0 ∨ D = 0) := by
    intro h
    rw [(C128_vlad centers fs).1 h] at hv
    cases hv
  have hK : 0 < K := by omega
  have hD : 0 < D := by omega
  have e := ((C128_vlad centers fs).2.1 hK hD).symm.trans hv
  have e' := ((C128_vlad centers gs).2.1 hK hD).symm.trans hw
  injection e with e
  injection e' with e'
  constructor
  · intro hp
    rw [← e, ← e']
    funext k d
    exact ((hp.filter _).map _).sum_eq
  · rw [(C128_vlad centers (fs ++ gs)).2.1 hK hD, ← e, ← e']
    congr 1
    funext k d
    simp [residuals, List.filter_append, List.map_append, List.sum_append]

theorem signedRoot_sq (x : ℝ) : signedRoot x ^ 2 = |x| := by
  unfold signedRoot
  rw [mul_pow, Real.sq_sqrt (abs_nonneg x)]
  rcases lt_trichotomy x 0 with h | rfl | h
  · simp [sign_neg h]
  · simp
  · simp [sign_pos h]

theorem signedRoot_mul {c : ℝ} (hc : 0 ≤ c) (x : ℝ) : signedRoot (c * x) = Real.sqrt c * signedRoot x := by
  unfold signedRoot
  rw [abs_mul, abs_of_nonneg hc, Real.sqrt_mul hc]
  rcases hc.eq_or_lt with rfl | h
  · simp
  · rw [sign_mul, sign_pos h, one_mul]
    ring

theorem signedRoot_inj {x y : ℝ} (h : signedRoot x = signedRoot y) : x = y := by
  have key : ∀ z : ℝ, z = signedRoot z * |signedRoot z| := by
    intro z
    have h2 := signedRoot_sq z
    unfold signedRoot at h2 ⊢
    rcases lt_trichotomy z 0 with h | rfl | h
    · rw [sign_neg h] at h2 ⊢
      simp only [SignType.coe_neg_one, neg_mul, one_mul, neg_sq, abs_neg, abs_of_nonneg (Real.sqrt_nonneg _)] at h2 ⊢
      rw [← sq, h2, abs_of_neg h, neg_neg]
    · simp
    · rw [sign_pos h] at h2 ⊢
      simp only [SignType.coe_one, one_mul, abs_of_nonneg (Real.sqrt_nonneg _)] at h2 ⊢
      rw [← sq, h2, abs_of_pos h]
  rw [key x, key y, h]

theorem signedRoot_sign (x : ℝ) : (0 < signedRoot x ↔ 0 < x) ∧ (signedRoot x < 0 ↔ x < 0) := by
  unfold signedRoot
  rcases lt_trichotomy x 0 with h | rfl | h
  · have : 0 < Real.sqrt |x| := Real.sqrt_pos.2 (abs_pos.2 h.ne)
    rw [sign_neg h]
    simp only [SignType.coe_neg_one, neg_mul, one_mul]
    constructor
    · constructor <;> intro <;> linarith
    · constructor <;> intro <;> linarith
  · simp
  · have : 0 < Real.sqrt |x| := Real.sqrt_pos.2 (abs_pos.2 h.ne')
    rw [sign_pos h]
    simp only [SignType.coe_one, one_mul]
    constructor
    · constructor <;> intro <;> linarith
    · constructor <;> intro <;> linarith

theorem norm2_zero {v : Fin K → Fin D → ℝ} : norm2 v = 0 ↔ v = 0 := by
  unfold norm2
  rw [Real.sqrt_eq_zero (Finset.sum_nonneg (fun k _ => Finset.sum_nonneg (fun d _ => sq_nonneg _)))]
  rw [Finset.sum_eq_zero_iff_of_nonneg (fun k _ => Finset.sum_nonneg (fun d _ => sq_nonneg _))]
  constructor
  · intro h
    funext k d
    have := (Finset.sum_eq_zero_iff_of_nonneg (fun d _ => sq_nonneg _)).1 (h k (mem_univ k)) d (mem_univ d)
    simpa using this
  · rintro rfl
    simp

theorem norm2_smul (c : ℝ) (v : Fin K → Fin D → ℝ) : norm2 (fun k d => c * v k d) = |c| * norm2 v := by
  unfold norm2
  rw [← Real.sqrt_sq_eq_abs, ← Real.sqrt_mul (sq_nonneg c)]
  congr 1
  rw [Finset.mul_sum]
  refine Finset.sum_congr rfl (fun k _ => ?_)
  rw [Finset.mul_sum]
  exact Finset.sum_congr rfl (fun d _ => mul_pow _ _ _)

theorem norm2_nonneg (v : Fin K → Fin D → ℝ) : 0 ≤ norm2 v := Real.sqrt_nonneg _

theorem root_zero {v : Fin K → Fin D → ℝ} : norm2 (fun k d => signedRoot (v k d)) = 0 ↔ v = 0 := by
  rw [norm2_zero]
  constructor
  · intro h
    funext k d
    have := congrFun (congrFun h k) d
    have h0 : signedRoot 0 = 0 := by simp [signedRoot]
    exact signedRoot_inj (this.trans h0.symm)
  · rintro rfl
    funext k d
    simp [signedRoot]

/-- Normalisation: undefined exactly for the vector zero; otherwise the squares of the entries are the shares of the absolute
values, with the signs kept. -/
theorem C128_normalize (v : Fin K → Fin D → ℝ) :
    (normalize v = .nan ↔ v = 0) ∧
    (v ≠ 0 → ∃ u, normalize v = .value u ∧ ∑ k, ∑ d, u k d ^ 2 = 1 ∧
      (∀ k d, u k d ^ 2 = |v k d| / ∑ k, ∑ d, |v k d|) ∧ ∀ k d, (0 < u k d ↔ 0 < v k d) ∧ (u k d < 0 ↔ v k d < 0)) := by
  constructor
  · unfold normalize
    by_cases h : norm2 (fun k d => signedRoot (v k d)) = 0
    · rw [if_pos h]
      simpa using root_zero.1 h
    · rw [if_neg h]
      constructor
      · intro h'; cases h'
      · intro h'; exact absurd (root_zero.2 h') h
  · intro hv
    have hn : norm2 (fun k d => signedRoot (v k d)) ≠ 0 := fun h => hv (root_zero.1 h)
    have hp : 0 < norm2 (fun k d => signedRoot (v k d)) := lt_of_le_of_ne (norm2_nonneg _) hn.symm
    have hsq : norm2 (fun k d => signedRoot (v k d)) ^ 2 = ∑ k, ∑ d, |v k d| := by
      unfold norm2
      rw [Real.sq_sqrt (Finset.sum_nonneg (fun k _ => Finset.sum_nonneg (fun d _ => sq_nonneg _)))]
      exact Finset.sum_congr rfl (fun k _ => Finset.sum_congr rfl (fun d _ => signedRoot_sq _))
    have hent : ∀ k d, (signedRoot (v k d) / norm2 (fun k d => signedRoot (v k d))) ^ 2 =
        |v k d| / ∑ k, ∑ d, |v k d| := by
      intro k d
      rw [div_pow, signedRoot_sq, hsq]
    refine ⟨fun k d => signedRoot (v k d) / norm2 (fun k d => signedRoot (v k d)), by unfold normalize; exact if_neg hn,
      ?_, hent, ?_⟩
    · simp only [hent, ← Finset.sum_div]
      exact div_self (by rw [← hsq]; exact (pow_pos hp 2).ne')
    · intro k d
      constructor
      · rw [div_pos_iff_of_pos_right hp]; exact (signedRoot_sign _).1
      · rw [div_neg_iff]
        constructor
        · rintro (⟨-, h⟩ | ⟨h, -⟩)
          · exact absurd h (not_lt.2 hp.le)
          · exact (signedRoot_sign _).2.1 h
        · intro h
          exact .inr ⟨(signedRoot_sign _).2.2 h, hp⟩

/-- A multiple of a vector has the same normalisation; conversely, equal normalisations are those of multiples. -/
theorem C128_scale (v w : Fin K → Fin D → ℝ) (hv : v ≠ 0) (hw : w ≠ 0) :
    normalize v = normalize w ↔ ∃ c : ℝ, 0 < c ∧ ∀ k d, v k d = c * w k d := by
  have hn : norm2 (fun k d => signedRoot (v k d)) ≠ 0 := fun h => hv (root_zero.1 h)
  have hn' : norm2 (fun k d => signedRoot (w k d)) ≠ 0 := fun h => hw (root_zero.1 h)
  have hp : 0 < norm2 (fun k d => signedRoot (v k d)) := lt_of_le_of_ne (norm2_nonneg _) hn.symm
  have hp' : 0 < norm2 (fun k d => signedRoot (w k d)) := lt_of_le_of_ne (norm2_nonneg _) hn'.symm
  have e : normalize v = .value (fun k d => signedRoot (v k d) / norm2 (fun k d => signedRoot (v k d))) := by
    unfold normalize; exact if_neg hn
  have e' : normalize w = .value (fun k d => signedRoot (w k d) / norm2 (fun k d => signedRoot (w k d))) := by
    unfold normalize; exact if_neg hn'
  rw [e, e']
  constructor
  · intro h
    injection h with h
    refine ⟨(norm2 (fun k d => signedRoot (v k d)) / norm2 (fun k d => signedRoot (w k d))) ^ 2, by positivity, ?_⟩
    intro k d
    have h1 := congrFun (congrFun h k) d
    apply signedRoot_inj
    rw [signedRoot_mul (by positivity), Real.sqrt_sq (by positivity)]
    field_simp at h1 ⊢
    linarith
  · rintro ⟨c, hc, h⟩
    congr 1
    have h1 : ∀ k d, signedRoot (v k d) = Real.sqrt c * signedRoot (w k d) := by
      intro k d
      rw [h, signedRoot_mul hc.le]
    have h2 : norm2 (fun k d => signedRoot (v k d)) = Real.sqrt c * norm2 (fun k d => signedRoot (w k d)) := by
      simp only [h1]
      rw [norm2_smul, abs_of_nonneg (Real.sqrt_nonneg c)]
    funext k d
    rw [h1, h2, mul_div_mul_left _ _ (Real.sqrt_pos.2 hc).ne']

/-- The distance of two images by VLAD is between 0, when the vectors are multiples of each other, and 2; its square is twice
what their inner product lacks to 1. -/
theorem C128_vlad_distance (v w v' w' : Fin K → Fin D → ℝ) (hv : v ≠ 0) (hw : w ≠ 0) (e : normalize v = .value v')
    (e' : normalize w = .value w') :
    distanceL2 v' w' ^ 2 = 2 * (1 - ∑ k, ∑ d, v' k d * w' k d) ∧ 0 ≤ distanceL2 v' w' ∧ distanceL2 v' w' ≤ 2 ∧
      distanceL2 v' w' = distanceL2 w' v' ∧
      (distanceL2 v' w' = 0 ↔ ∃ c : ℝ, 0 < c ∧ ∀ k d, v k d = c * w k d) := by
  obtain ⟨u, eu, s, -, -⟩ := (C128_normalize v).2 hv
  obtain ⟨u', eu', s', -, -⟩ := (C128_normalize w).2 hw
  have : u = v' := by injection (eu.symm.trans e)
  subst this
  have : u' = w' := by injection (eu'.symm.trans e')
  subst this
  have hsq : distanceL2 u u' ^ 2 = 2 * (1 - ∑ k, ∑ d, u k d * u' k d) := by
    unfold distanceL2 norm2
    rw [Real.sq_sqrt (Finset.sum_nonneg (fun k _ => Finset.sum_nonneg (fun d _ => sq_nonneg _)))]
    have : ∀ k d, (u k d - u' k d) ^ 2 = u k d ^ 2 + u' k d ^ 2 - 2 * (u k d * u' k d) := by intro k d; ring
    simp only [this, Finset.sum_sub_distrib, Finset.sum_add_distrib, s, s', ← Finset.mul_sum]
    ring
  have hplus : 0 ≤ 2 * (1 + ∑ k, ∑ d, u k d * u' k d) := by
    have h0 : 0 ≤ ∑ k, ∑ d, (u k d + u' k d) ^ 2 := Finset.sum_nonneg (fun k _ => Finset.sum_nonneg (fun d _ => sq_nonneg _))
    have : ∀ k d, (u k d + u' k d) ^ 2 = u k d ^ 2 + u' k d ^ 2 + 2 * (u k d * u' k d) := by intro k d; ring
    simp only [this, Finset.sum_add_distrib, s, s', ← Finset.mul_sum] at h0
    linarith
  refine ⟨hsq, norm2_nonneg _, ?_, ?_, ?_⟩
  · have h0 := norm2_nonneg (fun k d => u k d - u' k d)
    have : distanceL2 u u' ^ 2 ≤ 2 ^ 2 := by rw [hsq]; linarith
    exact (sq_le_sq₀ h0 (by norm_num)).1 this
  · unfold distanceL2 norm2
    congr 1
    exact Finset.sum_congr rfl (fun k _ => Finset.sum_congr rfl (fun d _ => by ring))
  · rw [← C128_scale v w hv hw, e, e']
    unfold distanceL2
    rw [norm2_zero]
    constructor
    · intro h
      congr 1
      funext k d
      have := congrFun (congrFun h k) d
      simp only [Pi.zero_apply] at this
      linarith
    · intro h
      injection h with h
      rw [h]
      funext k d
      simp

theorem fold_times (centers : Fin K → Fin D → ℝ) (fs : List (Fin D → ℝ)) (n : ℕ) (k : Fin K) (d : Fin D) :
    residuals centers (List.replicate n fs).flatten k d = n * residuals centers fs k d := by
  induction n with
  | zero => simp [residuals]
  | succ n ih =>
    rw [List.replicate_succ, List.flatten_cons]
    have : residuals centers (fs ++ (List.replicate n fs).flatten) k d =
        residuals centers fs k d + residuals centers (List.replicate n fs).flatten k d := by
      simp [residuals, List.filter_append, List.map_append, List.sum_append]
    rw [this, ih]
    push_cast
    ring

/-- Both descriptors are the same when every feature of the image is there several times, in any order. -/
theorem C128_repeated {freq : Fin W → ℝ} (h : Vocabulary freq) {words words' : List ℕ} (hw : Words W words) {n : ℕ} (hn : 0 < n)
    (hp : words'.Perm (List.replicate n words).flatten) (centers : Fin K → Fin D → ℝ) (fs gs : List (Fin D → ℝ))
    (hq : gs.Perm (List.replicate n fs).flatten) :
    histogram freq words' = histogram freq words ∧ vladHistogram centers (some gs) = vladHistogram centers (some fs) := by
  have hn' : (0 : ℝ) < n := by exact_mod_cast hn
  constructor
  · have hw' : Words W words' := by
      constructor
      · rintro rfl
        have := hp.length_eq
        simp at this
        rcases this with h0 | h0
        · omega
        · exact hw.some h0
      · intro w hm
        have := hp.mem_iff.1 hm
        rw [List.mem_flatten] at this
        obtain ⟨l, h1, h2⟩ := this
        rw [List.eq_of_mem_replicate h1] at h2
        exact hw.known w h2
    rw [histogram_value h hw, histogram_value h hw']
    congr 1
    funext i
    refine (same_iff h hw' hw).2 ⟨n, hn', fun w => ?_⟩ i
    rw [hp.count_eq, List.count_flatten, List.map_replicate, List.sum_replicate, smul_eq_mul]
    push_cast
    ring
  · unfold vladHistogram
    simp only
    by_cases hd : K = 0 ∨ D = 0
    · rw [(C128_vlad centers gs).1 hd, (C128_vlad centers fs).1 hd]
    · have hK : 0 < K := by omega
      have hD : 0 < D := by omega
      rw [(C128_vlad centers gs).2.1 hK hD, (C128_vlad centers fs).2.1 hK hD]
      simp only
      congr 1
      have e : ∀ k d, residuals centers gs k d = n * residuals centers fs k d := by
        intro k d
        rw [← fold_times]
        exact ((hq.filter _).map _).sum_eq
      by_cases h0 : residuals centers fs = 0
      · have h1 : residuals centers gs = 0 := by
          funext k d
          rw [e, h0]
          simp
        rw [h0, h1]
      · have h1 : residuals centers gs ≠ 0 := by
          intro h1
          apply h0
          funext k d
          have := congrFun (congrFun h1 k) d
          rw [e] at this
          simpa [hn'.ne'] using this
        exact (C128_scale _ _ h1 h0).2 ⟨n, hn', e⟩

/-! ### Examples -/

/-- A vocabulary of three words and two images, one with the words of the other twice. -/
example : Vocabulary (fun _ : Fin 3 => (1 : ℝ)) ∧ Words 3 [0, 2, 0] ∧ Words 3 [0, 0, 2, 2, 0, 0] ∧
    Proportional [0, 0, 2, 2, 0, 0] [0, 2, 0] ∧ [0, 0, 2, 2, 0, 0].Perm (List.replicate 2 [0, 2, 0]).flatten ∧
    Words 3 [1] ∧ ∀ w ∈ [0, 2, 0], w ∉ [1] := by
  refine ⟨⟨by norm_num, fun _ => one_pos⟩, ⟨by simp, by simp⟩, ⟨by simp, by simp⟩, ⟨2, by norm_num, ?_⟩, by decide,
    ⟨by simp, by simp⟩, by decide⟩
  intro w
  by_cases h0 : w = 0
  · subst h0; norm_num
  by_cases h2 : w = 2
  · subst h2; norm_num
  · rw [List.count_eq_zero.2 (by simp [h0, h2]), List.count_eq_zero.2 (by simp [h0, h2])]
    simp

/-- C128. The VLAD histogram: none exactly without descriptors; with them, and centres of some dimension, it is undefined
exactly if the features cancel out at every centre, and else a vector of norm one with the signs of the sums. -/
theorem C128_vlad_histogram (centers : Fin K → Fin D → ℝ) (descriptors : Option (List (Fin D → ℝ))) :
    (vladHistogram centers descriptors = none ↔ descriptors = none) ∧
    ∀ fs, descriptors = some fs → ∀ v, vlad centers fs = some v →
      (vladHistogram centers descriptors = some .nan ↔ v = 0) ∧
      (v ≠ 0 → ∃ u, vladHistogram centers descriptors = some (.value u) ∧ ∑ k, ∑ d, u k d ^ 2 = 1 ∧
        ∀ k d, (0 < u k d ↔ 0 < v k d) ∧ (u k d < 0 ↔ v k d < 0)) := by
  constructor
  · unfold vladHistogram
    cases descriptors with
    | none => simp
    | some fs => cases h : vlad centers fs <;> simp [h]
  · rintro fs rfl v hv
    have e : vladHistogram centers (some fs) = some (normalize v) := by
      unfold vladHistogram; simp only [hv]
    rw [e]
    obtain ⟨h1, h2⟩ := C128_normalize v
    refine ⟨by rw [Option.some.injEq, h1], fun h => ?_⟩
    obtain ⟨u, a, b, -, c⟩ := h2 h
    exact ⟨u, by rw [a], b, c⟩

/-- Two centres on a line: a feature in the middle belongs to the first. -/
example : IsCentre (fun (k : Fin 2) (_ : Fin 1) => (k.val : ℝ) * 2) (fun _ => 1) 0 ∧
    IsCentre (fun (k : Fin 2) (_ : Fin 1) => (k.val : ℝ) * 2) (fun _ => 3) 1 := by
  constructor
  · refine ⟨fun j => ?_, fun j hj => ?_⟩
    · fin_cases j <;> norm_num
    · exact absurd hj (by simp)
  · refine ⟨fun j => ?_, fun j hj => ?_⟩
    · fin_cases j <;> norm_num
    · have : j = 0 := by omega
      subst this
      norm_num

/-- A vector that is not zero. -/
example : (fun (_ : Fin 2) (_ : Fin 1) => (1 : ℝ)) ≠ 0 := fun h => one_ne_zero (congrFun (congrFun h 0) 0)

end Verif.ImageDescriptors
