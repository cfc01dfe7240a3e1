import Verif.Model.AutoThreshold
import Mathlib.Tactic.Linarith
import Mathlib.Tactic.NormNum
import Mathlib.Tactic.Ring
import Mathlib.Tactic.Positivity

/-!
# C135 — The automatic outlier threshold
-/
namespace Verif.AutoThreshold

/-- `m` is the median of `l`: the mean of the two middle elements (the same one twice if the length is odd) of `l` put in order. -/
def IsMedian (l : List ℝ) (m : ℝ) : Prop :=
  ∃ s : List ℝ, s.Perm l ∧ s.Pairwise (· ≤ ·) ∧
    ∃ x y, s[(l.length - 1) / 2]? = some x ∧ s[l.length / 2]? = some y ∧ m = (x + y) / 2

theorem getD_of {s : List ℝ} {i : ℕ} {x : ℝ} (h : s[i]? = some x) : s.getD i 0 = x := by
  rw [List.getD_eq_getElem?_getD, h, Option.getD_some]

theorem median_of (l s : List ℝ) (hp : s.Perm l) (hs : s.Pairwise (· ≤ ·)) {x y : ℝ}
    (hx : s[(l.length - 1) / 2]? = some x) (hy : s[l.length / 2]? = some y) : median l = (x + y) / 2 := by
  have e : l.insertionSort (· ≤ ·) = s :=
    List.Perm.eq_of_pairwise' (List.pairwise_insertionSort (· ≤ ·) l) hs ((List.perm_insertionSort (· ≤ ·) l).trans hp.symm)
  unfold median
  simp only [e]
  split
  · have h : (l.length - 1) / 2 = l.length / 2 := by omega
    rw [h, hy] at hx
    rw [getD_of hy]
    have := Option.some.inj hx
    rw [this]; ring
  · have h : l.length / 2 - 1 = (l.length - 1) / 2 := by omega
    rw [h, getD_of hx, getD_of hy]

theorem isMedian_median (l : List ℝ) (hl : l ≠ []) : IsMedian l (median l) := by
  have hp := List.perm_insertionSort (· ≤ ·) l
  have hs := List.pairwise_insertionSort (· ≤ ·) l
  have hlen := hp.length_eq
  have hpos : 0 < l.length := List.length_pos_iff.2 hl
  have hx := List.getElem?_eq_getElem (l := l.insertionSort (· ≤ ·)) (i := (l.length - 1) / 2) (by omega)
  have hy := List.getElem?_eq_getElem (l := l.insertionSort (· ≤ ·)) (i := l.length / 2) (by omega)
  exact ⟨_, hp, hs, _, _, hx, hy, median_of l _ hp hs hx hy⟩

/-- C135: the median of a non-empty list of numbers is the mean of the two middle ones of the list in order, whichever way it is put in
order; nothing else is. -/
theorem C135_median (l : List ℝ) (hl : l ≠ []) (m : ℝ) : IsMedian l m ↔ m = median l := by
  constructor
  · rintro ⟨s, hp, hs, x, y, hx, hy, rfl⟩
    exact (median_of l s hp hs hx hy).symm
  · rintro rfl
    exact isMedian_median l hl

theorem median_perm {l l' : List ℝ} (h : l.Perm l') : median l = median l' := by
  by_cases hl : l = []
  · subst hl; rw [h.nil_eq]
  · obtain ⟨s, hp, hs, x, y, hx, hy, e⟩ := isMedian_median l hl
    rw [e]
    rw [h.length_eq] at hx hy
    exact (median_of l' s (hp.trans h) hs hx hy).symm

theorem median_scale (c : ℝ) (hc : 0 ≤ c) (l : List ℝ) (hl : l ≠ []) : median (l.map (c * ·)) = c * median l := by
  obtain ⟨s, hp, hs, x, y, hx, hy, e⟩ := isMedian_median l hl
  rw [e, median_of (l.map (c * ·)) (s.map (c * ·)) (hp.map _)
    (hs.map _ (fun a b h => mul_le_mul_of_nonneg_left h hc)) (x := c * x) (y := c * y)]
  · ring
  · rw [List.length_map, List.getElem?_map, hx]; rfl
  · rw [List.length_map, List.getElem?_map, hy]; rfl

theorem le_of_index {s : List ℝ} (hs : s.Pairwise (· ≤ ·)) {i j : ℕ} {x y : ℝ} (hij : i ≤ j) (hx : s[i]? = some x) (hy : s[j]? = some y) : x ≤ y := by
  obtain ⟨hi, rfl⟩ := List.getElem?_eq_some_iff.1 hx
  obtain ⟨hj, rfl⟩ := List.getElem?_eq_some_iff.1 hy
  rcases Nat.eq_or_lt_of_le hij with rfl | h
  · exact le_refl _
  · exact List.pairwise_iff_getElem.1 hs i j _ hj h

/-- C135: at least half of the numbers are at most their median and at least half are at least their median. -/
theorem C135_median_half (l : List ℝ) (hl : l ≠ []) :
    l.length ≤ 2 * (l.filter (fun x => decide (x ≤ median l))).length ∧
    l.length ≤ 2 * (l.filter (fun x => decide (median l ≤ x))).length := by
  obtain ⟨s, hp, hs, x, y, hx, hy, e⟩ := isMedian_median l hl
  have hxy := le_of_index hs (show (l.length - 1) / 2 ≤ l.length / 2 by omega) hx hy
  have hlen := hp.length_eq
  have hpos : 0 < l.length := List.length_pos_iff.2 hl
  rw [← List.countP_eq_length_filter, ← List.countP_eq_length_filter, ← hp.countP_eq, ← hp.countP_eq]
  constructor
  · have h1 : (s.take ((l.length - 1) / 2 + 1)).countP (fun z => decide (z ≤ median l)) = (s.take ((l.length - 1) / 2 + 1)).length := by
      rw [List.countP_eq_length]
      intro z hz
      obtain ⟨i, hi', rfl⟩ := List.getElem_of_mem hz
      rw [List.length_take] at hi'
      rw [List.getElem_take]
      have := le_of_index hs (show i ≤ (l.length - 1) / 2 by omega) (List.getElem?_eq_getElem (by omega)) hx
      simp only [decide_eq_true_eq]
      linarith
    have h2 := List.Sublist.countP_le (p := fun z => decide (z ≤ median l)) (List.take_sublist ((l.length - 1) / 2 + 1) s)
    rw [h1, List.length_take] at h2
    omega
  · have h1 : (s.drop (l.length / 2)).countP (fun z => decide (median l ≤ z)) = (s.drop (l.length / 2)).length := by
      rw [List.countP_eq_length]
      intro z hz
      obtain ⟨i, hi', rfl⟩ := List.getElem_of_mem hz
      rw [List.length_drop] at hi'
      rw [List.getElem_drop]
      have := le_of_index hs (show l.length / 2 ≤ l.length / 2 + i by omega) hy (List.getElem?_eq_getElem (by omega))
      simp only [decide_eq_true_eq]
      linarith
    have h2 := List.Sublist.countP_le (p := fun z => decide (median l ≤ z)) (List.drop_sublist (l.length / 2) s)
    rw [h1, List.length_drop] at h2
    omega

theorem foldl_append (l : List (List (ℝ × ℝ))) (acc : List (ℝ × ℝ)) : l.foldl (fun a e => a ++ e) acc = acc ++ l.flatten := by
  induction l generalizing acc with
  | nil => simp
  | cons a l ih => rw [List.foldl_cons, ih]; simp

theorem allErrors_eq (points : List (List (ℝ × ℝ))) : allErrors points = points.flatten := by
  unfold allErrors; rw [foldl_append]; rfl

theorem distribution_of (points : List (List (ℝ × ℝ))) (h : points.flatten ≠ []) :
    distribution points = some (robustMean points.flatten, robustStd points.flatten) := by
  unfold distribution
  rw [allErrors_eq]
  cases hh : points.flatten with
  | nil => exact absurd hh h
  | cons a t => rfl

theorem distribution_none (points : List (List (ℝ × ℝ))) (h : points.flatten = []) : distribution points = none := by
  unfold distribution
  rw [allErrors_eq, h]

theorem auto_of (ratio : ℝ) (points : List (List (ℝ × ℝ))) (h : points.flatten ≠ []) :
    autoThreshold ratio points = some (ratio * norm2 ((robustMean points.flatten).1 + robustStd points.flatten,
      (robustMean points.flatten).2 + robustStd points.flatten)) := by
  unfold autoThreshold; rw [distribution_of points h]; rfl

theorem auto_eq (ratio : ℝ) (points : List (List (ℝ × ℝ))) {t : ℝ} (h : autoThreshold ratio points = some t) :
    points.flatten ≠ [] := by
  intro hn
  unfold autoThreshold at h
  rw [distribution_none points hn] at h
  cases h

/-- C135: there is no threshold (an exception is raised) exactly when there is no reprojection error; otherwise it is the ratio times the
length of (mx + s, my + s), (mx, my) being the medians of the two coordinates of the errors of all the points, and s 1.486 times the median of the
distances of the errors to (mx, my). -/
theorem C135_threshold (ratio : ℝ) (points : List (List (ℝ × ℝ))) :
    (autoThreshold ratio points = none ↔ ∀ p ∈ points, p = []) ∧
    (∀ t, autoThreshold ratio points = some t → ∀ mx my d,
      IsMedian (points.flatten.map Prod.fst) mx → IsMedian (points.flatten.map Prod.snd) my →
      IsMedian (points.flatten.map fun e => √((e.1 - mx) ^ 2 + (e.2 - my) ^ 2)) d →
      t = ratio * √((mx + 1.486 * d) ^ 2 + (my + 1.486 * d) ^ 2)) := by
  constructor
  · constructor
    · intro h
      by_contra hc
      have hne : points.flatten ≠ [] := by
        intro he; exact hc (List.flatten_eq_nil_iff.1 he)
      rw [auto_of ratio points hne] at h
      cases h
    · intro h
      have he : points.flatten = [] := List.flatten_eq_nil_iff.2 h
      unfold autoThreshold
      rw [distribution_none points he]; rfl
  · intro t h mx my d h1 h2 h3
    have hne := auto_eq ratio points h
    rw [auto_of ratio points hne] at h
    have e1 := (C135_median _ (by simpa using hne) _).1 h1
    have e2 := (C135_median _ (by simpa using hne) _).1 h2
    have e3 := (C135_median _ (by simpa using hne) _).1 h3
    rw [← Option.some.inj h]
    subst e1 e2
    rw [e3]
    rfl

/-- C135: the threshold does not depend on the order of the points nor of the errors. -/
theorem C135_order (ratio : ℝ) (points points' : List (List (ℝ × ℝ))) (h : points.flatten.Perm points'.flatten) :
    autoThreshold ratio points = autoThreshold ratio points' := by
  by_cases hn : points.flatten = []
  · have hn' : points'.flatten = [] := by rw [hn] at h; exact h.nil_eq.symm
    unfold autoThreshold
    rw [distribution_none _ hn, distribution_none _ hn']
  · have hn' : points'.flatten ≠ [] := by intro he; rw [he] at h; exact hn h.eq_nil
    have hm : robustMean points.flatten = robustMean points'.flatten := by
      unfold robustMean; rw [median_perm (h.map Prod.fst), median_perm (h.map Prod.snd)]
    have hs : robustStd points.flatten = robustStd points'.flatten := by
      unfold robustStd; rw [hm, median_perm (h.map _)]
    rw [auto_of _ _ hn, auto_of _ _ hn', hm, hs]

theorem norm2_scale (c : ℝ) (hc : 0 ≤ c) (x y : ℝ) : norm2 (c * x, c * y) = c * norm2 (x, y) := by
  unfold norm2
  have : (c * x) ^ 2 + (c * y) ^ 2 = c ^ 2 * (x ^ 2 + y ^ 2) := by ring
  simp only [this]
  rw [Real.sqrt_mul (sq_nonneg c), Real.sqrt_sq hc]

/-- C135: errors in another unit give the threshold in that unit. -/
theorem C135_scale (ratio c : ℝ) (hc : 0 ≤ c) (points : List (List (ℝ × ℝ))) :
    autoThreshold ratio (points.map (List.map fun e => (c * e.1, c * e.2))) = (autoThreshold ratio points).map (c * ·) := by
  have hf : (points.map (List.map fun e : ℝ × ℝ => (c * e.1, c * e.2))).flatten = points.flatten.map fun e => (c * e.1, c * e.2) := by
    rw [List.map_flatten]
  by_cases hn : points.flatten = []
  · unfold autoThreshold
    rw [distribution_none _ hn, distribution_none _ (by rw [hf, hn]; rfl)]; rfl
  · have hn' : (points.map (List.map fun e : ℝ × ℝ => (c * e.1, c * e.2))).flatten ≠ [] := by
      rw [hf]; simpa using hn
    rw [auto_of _ _ hn, auto_of _ _ hn', hf]
    generalize points.flatten = es at hn
    have h1 : (robustMean (es.map fun e => (c * e.1, c * e.2))).1 = c * (robustMean es).1 := by
      unfold robustMean
      simp only [List.map_map]
      rw [← median_scale c hc _ (by simpa using hn), List.map_map]; rfl
    have h2 : (robustMean (es.map fun e => (c * e.1, c * e.2))).2 = c * (robustMean es).2 := by
      unfold robustMean
      simp only [List.map_map]
      rw [← median_scale c hc _ (by simpa using hn), List.map_map]; rfl
    have h3 : robustStd (es.map fun e => (c * e.1, c * e.2)) = c * robustStd es := by
      unfold robustStd
      rw [h1, h2, List.map_map]
      have : ((fun e : ℝ × ℝ => norm2 (e.1 - c * (robustMean es).1, e.2 - c * (robustMean es).2)) ∘ fun e : ℝ × ℝ => (c * e.1, c * e.2))
          = (c * ·) ∘ fun e : ℝ × ℝ => norm2 (e.1 - (robustMean es).1, e.2 - (robustMean es).2) := by
        funext e
        simp only [Function.comp]
        rw [← norm2_scale c hc, mul_sub, mul_sub]
      rw [this, ← List.map_map, median_scale c hc _ (by simpa using hn)]
      ring
    rw [h1, h2, h3, ← mul_add, ← mul_add, norm2_scale c hc, Option.map_some]
    congr 1; ring

theorem filter_split {T : Type} (p : T → Bool) (l : List T) : (l.filter p).length + (l.filter fun x => !p x).length = l.length := by
  induction l with
  | nil => rfl
  | cons a l ih => simp only [List.filter_cons]; cases p a <;> simp <;> omega

theorem sq_norm2 (x y : ℝ) : norm2 (x, y) ^ 2 = x ^ 2 + y ^ 2 := Real.sq_sqrt (by positivity)

/-- C135: when both median errors are at least 0 and the ratio at least 1, at least half of the errors are not outliers. -/
theorem C135_half_kept (ratio : ℝ) (points : List (List (ℝ × ℝ))) (t mx my : ℝ) (h : autoThreshold ratio points = some t) (hr : 1 ≤ ratio)
    (h1 : IsMedian (points.flatten.map Prod.fst) mx) (h2 : IsMedian (points.flatten.map Prod.snd) my) (hx : 0 ≤ mx) (hy : 0 ≤ my) :
    2 * (outliers t points).length ≤ points.flatten.length := by
  have hne := auto_eq ratio points h
  rw [auto_of ratio points hne] at h
  have e1 := (C135_median _ (by simpa using hne) _).1 h1
  have e2 := (C135_median _ (by simpa using hne) _).1 h2
  have ht := (Option.some.inj h).symm
  unfold outliers
  rw [allErrors_eq]
  generalize points.flatten = es at *
  have hm : robustMean es = (mx, my) := by unfold robustMean; rw [e1, e2]
  rw [hm] at ht
  have hstd : robustStd es = 1.486 * median (es.map fun e => norm2 (e.1 - mx, e.2 - my)) := by unfold robustStd; rw [hm]
  rw [hstd] at ht
  have hhalf := (C135_median_half (es.map fun e => norm2 (e.1 - mx, e.2 - my)) (by simpa using hne)).1
  generalize median (es.map fun e => norm2 (e.1 - mx, e.2 - my)) = d at *
  rw [List.filter_map, List.length_map, List.length_map] at hhalf
  have hle : (es.filter ((fun x => decide (x ≤ d)) ∘ fun e : ℝ × ℝ => norm2 (e.1 - mx, e.2 - my))).length
      ≤ (es.filter fun e => !decide (t ^ 2 < e.1 ^ 2 + e.2 ^ 2)).length := by
    rw [← List.countP_eq_length_filter, ← List.countP_eq_length_filter]
    apply List.countP_mono_left
    intro e _ he
    simp only [Function.comp, decide_eq_true_eq] at he
    simp only [Bool.not_eq_true', decide_eq_false_iff_not, not_lt]
    have hn0 : 0 ≤ norm2 (e.1 - mx, e.2 - my) := Real.sqrt_nonneg _
    have hd : 0 ≤ d := le_trans hn0 he
    have hsq : (e.1 - mx) ^ 2 + (e.2 - my) ^ 2 ≤ d ^ 2 := by
      rw [← sq_norm2]; exact pow_le_pow_left₀ hn0 he 2
    have hdx : e.1 - mx ≤ d := abs_le_of_sq_le_sq' (by nlinarith [sq_nonneg (e.2 - my)]) hd |>.2
    have hdy : e.2 - my ≤ d := abs_le_of_sq_le_sq' (by nlinarith [sq_nonneg (e.1 - mx)]) hd |>.2
    have hb1 : mx * (e.1 - mx) ≤ mx * d := mul_le_mul_of_nonneg_left hdx hx
    have hb2 : my * (e.2 - my) ≤ my * d := mul_le_mul_of_nonneg_left hdy hy
    have hmd1 : 0 ≤ mx * d := mul_nonneg hx hd
    have hmd2 : 0 ≤ my * d := mul_nonneg hy hd
    have hd2 : 0 ≤ d ^ 2 := sq_nonneg d
    have hE : e.1 ^ 2 + e.2 ^ 2 = mx ^ 2 + my ^ 2 + 2 * (mx * (e.1 - mx)) + 2 * (my * (e.2 - my)) + ((e.1 - mx) ^ 2 + (e.2 - my) ^ 2) := by ring
    have hN : norm2 (mx + 1.486 * d, my + 1.486 * d) ^ 2
        = mx ^ 2 + my ^ 2 + 2 * 1.486 * (mx * d) + 2 * 1.486 * (my * d) + 2 * 1.486 ^ 2 * d ^ 2 := by rw [sq_norm2]; ring
    have hbase : e.1 ^ 2 + e.2 ^ 2 ≤ norm2 (mx + 1.486 * d, my + 1.486 * d) ^ 2 := by
      rw [hE, hN]; norm_num; linarith
    rw [ht, mul_pow]
    have hr2 : 1 ≤ ratio ^ 2 := one_le_pow₀ hr
    nlinarith [sq_nonneg (norm2 (mx + 1.486 * d, my + 1.486 * d))]
  have := filter_split (fun e : ℝ × ℝ => decide (t ^ 2 < e.1 ^ 2 + e.2 ^ 2)) es
  omega

/-- C135: what is removed: exactly the errors longer than the threshold, whatever the sign of the threshold. -/
theorem C135_outliers (t : ℝ) (points : List (List (ℝ × ℝ))) (e : ℝ × ℝ) :
    (e ∈ outliers t points ↔ (∃ p ∈ points, e ∈ p) ∧ |t| < √(e.1 ^ 2 + e.2 ^ 2)) := by
  unfold outliers
  rw [allErrors_eq, List.mem_filter, List.mem_flatten, decide_eq_true_eq, Real.lt_sqrt (abs_nonneg t), sq_abs]

/-- Four errors around (b, b), at the distance a. -/
def four (a b : ℝ) : List (List (ℝ × ℝ)) := [[(b + a, b), (b - a, b)], [(b, b + a), (b, b - a)]]

theorem four_threshold (ratio a b : ℝ) (ha : 0 ≤ a) :
    autoThreshold ratio (four a b) = some (ratio * norm2 (b + 1.486 * a, b + 1.486 * a)) := by
  have hf : (four a b).flatten = [(b + a, b), (b - a, b), (b, b + a), (b, b - a)] := rfl
  have hs : [b - a, b, b, b + a].Pairwise (· ≤ ·) := by
    simp only [List.pairwise_cons, List.mem_cons, List.not_mem_nil, or_false]
    refine ⟨?_, ?_, ?_, ?_, ?_⟩
    · rintro x (rfl | rfl | rfl) <;> linarith
    · rintro x (rfl | rfl) <;> linarith
    · rintro x rfl; linarith
    · rintro x h; exact absurd h (by simp)
    · exact List.Pairwise.nil
  have hm1 : median [b + a, b - a, b, b] = b := by
    rw [median_of _ [b - a, b, b, b + a] ?_ hs (x := b) (y := b) (by simp) (by simp)]
    · ring
    · exact (List.perm_append_comm (l₁ := [b - a, b, b]) (l₂ := [b + a]))
  have hm2 : median [b, b, b + a, b - a] = b := by
    rw [median_of _ [b - a, b, b, b + a] ?_ hs (x := b) (y := b) (by simp) (by simp)]
    · ring
    · exact (List.perm_append_comm (l₁ := [b - a]) (l₂ := [b, b, b + a])).trans (List.Perm.refl _)
  have hmean : robustMean (four a b).flatten = (b, b) := by
    rw [hf]; unfold robustMean; simp only [List.map_cons, List.map_nil, hm1, hm2]
  have hstd : robustStd (four a b).flatten = 1.486 * a := by
    unfold robustStd
    rw [hmean, hf]
    have n1 : norm2 (b + a - b, b - b) = a := by unfold norm2; simp [Real.sqrt_sq ha]
    have n2 : norm2 (b - a - b, b - b) = a := by unfold norm2; simp [Real.sqrt_sq ha]
    have n3 : norm2 (b - b, b + a - b) = a := by unfold norm2; simp [Real.sqrt_sq ha]
    have n4 : norm2 (b - b, b - a - b) = a := by unfold norm2; simp [Real.sqrt_sq ha]
    simp only [List.map_cons, List.map_nil, n1, n2, n3, n4]
    rw [median_of [a, a, a, a] [a, a, a, a] (List.Perm.refl _) (by simp) (x := a) (y := a) (by simp) (by simp)]
    ring
  rw [auto_of _ _ (by rw [hf]; simp), hmean, hstd]

/-- C135 (finding): the threshold depends on the sign of the errors. For every size a > 0 there are four errors for which the threshold is 0 and all
are outliers, whatever the ratio; with the signs of the same errors changed and a ratio of at least 1, none is. -/
theorem C135_sign (ratio a : ℝ) (ha : 0 < a) :
    ∃ points : List (List (ℝ × ℝ)), points.flatten.length = 4 ∧
      (autoThreshold ratio points = some 0 ∧ outliers 0 points = points.flatten) ∧
      (1 ≤ ratio → ∃ t, autoThreshold ratio (points.map (List.map fun e => (-e.1, -e.2))) = some t ∧
        outliers t (points.map (List.map fun e => (-e.1, -e.2))) = []) := by
  refine ⟨four a (-(1.486 * a)), rfl, ⟨?_, ?_⟩, fun hr => ?_⟩
  · rw [four_threshold ratio a _ ha.le]
    simp [norm2]
  · unfold outliers
    rw [allErrors_eq, List.filter_eq_self]
    have hf : (four a (-(1.486 * a))).flatten = [(-(1.486 * a) + a, -(1.486 * a)), (-(1.486 * a) - a, -(1.486 * a)),
      (-(1.486 * a), -(1.486 * a) + a), (-(1.486 * a), -(1.486 * a) - a)] := rfl
    rw [hf]
    have : 0 < a ^ 2 := by positivity
    simp only [List.mem_cons, List.not_mem_nil, or_false]
    rintro e (rfl | rfl | rfl | rfl) <;> rw [decide_eq_true_eq] <;> norm_num <;> nlinarith
  · have hneg : ((four a (-(1.486 * a))).map (List.map fun e : ℝ × ℝ => (-e.1, -e.2))) =
        [[(1.486 * a - a, 1.486 * a), (1.486 * a + a, 1.486 * a)], [(1.486 * a, 1.486 * a - a), (1.486 * a, 1.486 * a + a)]] := by
      unfold four
      simp only [List.map_cons, List.map_nil, neg_neg]
      congr 3 <;> ring_nf
    have hperm : (four a (1.486 * a)).flatten.Perm
        ([[(1.486 * a - a, 1.486 * a), (1.486 * a + a, 1.486 * a)], [(1.486 * a, 1.486 * a - a), (1.486 * a, 1.486 * a + a)]] : List (List (ℝ × ℝ))).flatten := by
      show List.Perm [_, _, _, _] [_, _, _, _]
      exact (List.Perm.swap _ _ _).trans ((List.Perm.swap _ _ _).cons _ |>.cons _)
    refine ⟨ratio * norm2 (1.486 * a + 1.486 * a, 1.486 * a + 1.486 * a), ?_, ?_⟩
    · rw [hneg, ← C135_order ratio _ _ hperm, four_threshold ratio a _ ha.le]
    · rw [hneg]
      unfold outliers
      rw [allErrors_eq, List.filter_eq_nil_iff]
      have h2 : 0 < a ^ 2 := by positivity
      have hr2 : 1 ≤ ratio ^ 2 := one_le_pow₀ hr
      have hthr : 17 * a ^ 2 ≤ (ratio * norm2 (1.486 * a + 1.486 * a, 1.486 * a + 1.486 * a)) ^ 2 := by
        rw [mul_pow, sq_norm2]
        norm_num
        nlinarith
      intro e he
      simp only [List.flatten_cons, List.flatten_nil, List.cons_append, List.nil_append, List.append_nil, List.mem_cons, List.not_mem_nil, or_false] at he
      rw [decide_eq_true_eq, not_lt]
      refine le_trans ?_ hthr
      rcases he with rfl | rfl | rfl | rfl <;> norm_num <;> nlinarith

/-- Not vacuous: errors around (1, 1): the median errors are positive, so at least half is kept. -/
example : ∃ t, autoThreshold 3 (four 1 1) = some t ∧ 2 * (outliers t (four 1 1)).length ≤ 4 := by
  refine ⟨_, four_threshold 3 1 1 zero_le_one, ?_⟩
  refine C135_half_kept 3 (four 1 1) _ (median ((four 1 1).flatten.map Prod.fst)) (median ((four 1 1).flatten.map Prod.snd))
    (four_threshold 3 1 1 zero_le_one) (by norm_num) (isMedian_median _ (by simp [four])) (isMedian_median _ (by simp [four])) ?_ ?_
  all_goals
    rw [median_of _ [0, 1, 1, 2] ?_ ?_ (x := 1) (y := 1) (by simp [four]) (by simp [four])]
    · norm_num
    · simp [four]; norm_num
      first
        | exact (List.perm_append_comm (l₁ := [(0 : ℝ), 1, 1]) (l₂ := [2]))
        | exact (List.perm_append_comm (l₁ := [(0 : ℝ)]) (l₂ := [1, 1, 2]))
    · simp

end Verif.AutoThreshold
