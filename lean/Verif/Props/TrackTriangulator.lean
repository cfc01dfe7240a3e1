import Verif.Model.TrackTriangulator
import Verif.Props.Triangulation

/-!
# C86: triangulation of tracks
-/
set_option linter.unusedSectionVars false
set_option linter.unusedSimpArgs false
namespace Verif.TrackTriangulator
open Verif.Depthmap Verif.Triangulation Matrix
variable {S T : Type} [DecidableEq S] [DecidableEq T]

/-! ### One track, all observations -/

/-- With all observations: a point is stored exactly when two rays form an angle and the point of least squares agrees with
every ray; then it is stored with every shot, after the refinement, which is not tested again. -/
theorem C86_full (refine : List Ray → V3 → V3) (p : Params) (obs : List (S × Ray))
    (hu : ∀ o ∈ obs, o.2.b ⬝ᵥ o.2.b = 1) (ha : 0 < p.minAngle) (hd : 0 < p.minDepth) (r : V3 × List S) :
    full refine p obs = some r ↔ ∃ X, Separated p.minAngle (obs.map (fun o => o.2.b)) ∧
      (∀ y, cost (obs.map (·.2)) X ≤ cost (obs.map (·.2)) y) ∧
      (∀ o ∈ obs, Agrees p.minDepth p.threshold (X - o.2.c) o.2.b) ∧
      r = (refine (obs.map (·.2)) X, obs.map (·.1)) := by
  have hm : ∀ X, midpoint (obs.map (·.2)) (List.replicate obs.length p.threshold) p.minAngle p.minDepth = some X ↔
      Separated p.minAngle (obs.map (fun o => o.2.b)) ∧ (∀ y, cost (obs.map (·.2)) X ≤ cost (obs.map (·.2)) y) ∧
      (∀ o ∈ obs, Agrees p.minDepth p.threshold (X - o.2.c) o.2.b) := by
    intro X
    rw [C85_accept (obs.map (·.2)) (by
      intro r hr
      obtain ⟨o, ho, rfl⟩ := List.mem_map.1 hr
      exact hu o ho) _ (by simp) _ _ ha hd, List.map_map]
    refine and_congr Iff.rfl (and_congr Iff.rfl ?_)
    constructor
    · intro h o ho
      obtain ⟨i, hi⟩ := List.getElem?_of_mem ho
      have hl : i < obs.length := (List.getElem?_eq_some_iff.1 hi).1
      exact h i o.2 p.threshold (by rw [List.getElem?_map, hi]; rfl) (by simp [hl])
    · intro h i r t h1 h2
      rw [List.getElem?_map] at h1
      obtain ⟨o, ho, rfl⟩ := Option.map_eq_some_iff.1 h1
      have e : t = p.threshold := by
        have := List.mem_of_getElem? h2
        exact (List.mem_replicate.1 this).2
      rw [e]
      exact h o (List.mem_of_getElem? ho)
  unfold full
  by_cases hl : obs.length ≥ 2
  · rw [if_pos hl]
    constructor
    · intro h
      cases hmid : midpoint (obs.map (·.2)) (List.replicate obs.length p.threshold) p.minAngle p.minDepth with
      | none => rw [hmid] at h; exact absurd h (by simp)
      | some X =>
        rw [hmid] at h
        obtain ⟨h1, h2, h3⟩ := (hm X).1 hmid
        exact ⟨X, h1, h2, h3, (Option.some.inj h).symm⟩
    · rintro ⟨X, h1, h2, h3, rfl⟩
      rw [(hm X).2 ⟨h1, h2, h3⟩]
  · rw [if_neg hl]
    constructor
    · intro h; exact absurd h (by simp)
    · rintro ⟨X, h1, h2, h3, -⟩
      have := (hm X).2 ⟨h1, h2, h3⟩
      rw [C85_refuses _ _ _ _ (Or.inr (by simp; omega))] at this
      exact absurd this (by simp)

/-! ### One track, robust -/

/-- The distance between a bearing and the direction of a point, both of length one. -/
noncomputable def directionError (X : V3) (r : Ray) : ℝ := ‖(‖pt (X - r.c)‖⁻¹ • pt (X - r.c)) - pt r.b‖

theorem chordError_eq (X : V3) (r : Ray) : chordError X r = directionError X r := by
  unfold chordError directionError norm3
  rw [← norm_pt]
  congr 1
  unfold normalized norm3
  rw [← norm_pt, one_div]
  rfl

theorem inliersAt_eq (threshold : ℝ) (rays : List Ray) (X : V3) (i : ℕ) :
    i ∈ inliersAt threshold rays X ↔ ∃ r, rays[i]? = some r ∧ directionError X r < threshold := by
  unfold inliersAt
  rw [List.mem_filter, List.mem_range]
  constructor
  · rintro ⟨h1, h2⟩
    rw [List.getElem?_eq_getElem h1] at h2 ⊢
    exact ⟨_, rfl, by rw [← chordError_eq]; simpa using h2⟩
  · rintro ⟨r, h1, h2⟩
    refine ⟨(List.getElem?_eq_some_iff.1 h1).1, ?_⟩
    rw [h1]
    simpa [chordError_eq] using h2

/-- What the loop keeps: nothing, or a point with its inliers. -/
def Kept (threshold : ℝ) (rays : List Ray) (s : Robust) : Prop :=
  s.inliers = [] ∨ s.inliers = inliersAt threshold rays s.point

theorem improve_kept (refine : List Ray → V3 → V3) (threshold : ℝ) (rays : List Ray) (s : Robust) (i : ℕ) (X : V3)
    (h : Kept threshold rays s) : Kept threshold rays (improve refine threshold rays s i X) := by
  unfold improve
  simp only
  split
  · split
    · exact Or.inr rfl
    · exact Or.inr rfl
  · exact h

theorem robustStep_kept (refine : List Ray → V3 → V3) (p : Params) (rays : List Ray) (s : Robust) (u : ℝ)
    (h : Kept p.threshold rays s) : Kept p.threshold rays (robustStep refine p rays s u) := by
  unfold robustStep
  split
  · exact h
  · split
    · exact h
    · split
      · exact h
      · simp only
        split
        · exact h
        · exact improve_kept _ _ _ _ _ _ h

theorem fold_kept (refine : List Ray → V3 → V3) (p : Params) (rays : List Ray) (draws : List ℝ) (s : Robust)
    (h : Kept p.threshold rays s) : Kept p.threshold rays (draws.foldl (robustStep refine p rays) s) := by
  induction draws generalizing s with
  | nil => exact h
  | cons u us ih => exact ih _ (robustStep_kept refine p rays s u h)

theorem filterMap_range {α β : Type} (l : List α) (f : α → β) (c : ℕ → Bool) (d : α → Bool)
    (hcd : ∀ i a, l[i]? = some a → c i = d a) :
    ((List.range l.length).filter c).filterMap (fun i => (l.map f)[i]?) = (l.filter d).map f := by
  induction l generalizing c with
  | nil => rfl
  | cons a l ih =>
    rw [List.length_cons, List.range_succ_eq_map, List.filter_cons, List.filter_cons, hcd 0 a rfl]
    have := ih (fun i => c (i + 1)) (fun i b hb => hcd (i + 1) b (by simpa using hb))
    have e : ((List.map Nat.succ (List.range l.length)).filter c).filterMap (fun i => (List.map f (a :: l))[i]?)
        = (l.filter d).map f := by
      rw [← this, List.filter_map, List.filterMap_map]
      rfl
    split
    · rw [List.filterMap_cons, e]
      rfl
    · exact e

theorem filterMap_length {α β : Type} (l : List α) (f : α → Option β) (h : ∀ a ∈ l, (f a).isSome) :
    (l.filterMap f).length = l.length := by
  induction l with
  | nil => rfl
  | cons a l ih =>
    obtain ⟨b, hb⟩ := Option.isSome_iff_exists.1 (h a (by simp))
    rw [List.filterMap_cons_some hb, List.length_cons, List.length_cons, ih (fun x hx => h x (by simp [hx]))]

open Classical in
/-- Whatever the random numbers and the refinement: a stored point has at least two shots, and they are exactly the shots in
which the bearing is within the threshold of the direction of the stored point. -/
theorem C86_robust_sound (refine : List Ray → V3 → V3) (p : Params) (draws : List ℝ) (obs : List (S × Ray))
    (r : V3 × List S) (h : robust refine p draws obs = some r) :
    2 ≤ r.2.length ∧ r.2 = (obs.filter (fun o => decide (directionError r.1 o.2 < p.threshold))).map (·.1) := by
  unfold robust at h
  split at h
  · exact absurd h (by simp)
  · have hk := fold_kept refine p (obs.map (·.2)) draws ⟨0, [], [], false⟩ (Or.inl rfl)
    simp only at h
    split at h
    · rename_i hlen
      set s := draws.foldl (robustStep refine p (obs.map (·.2))) ⟨0, [], [], false⟩
      have e := Option.some.inj h
      rcases hk with hk | hk
      · rw [hk] at hlen; simp at hlen
      · have e1 : s.inliers.filterMap (fun i => (obs.map (·.1))[i]?)
            = (obs.filter (fun o => decide (directionError s.point o.2 < p.threshold))).map (·.1) := by
          rw [hk]
          unfold inliersAt
          rw [List.length_map]
          apply filterMap_range
          intro i a ha
          rw [List.getElem?_map, ha]
          simp [chordError_eq]
        have e2 : (s.inliers.filterMap (fun i => (obs.map (·.1))[i]?)).length = s.inliers.length := by
          apply filterMap_length
          intro i hi
          rw [hk, inliersAt_eq] at hi
          obtain ⟨r, hr, -⟩ := hi
          have := (List.getElem?_eq_some_iff.1 hr).1
          simp at this
          simp [this]
        rw [← e]
        exact ⟨by rw [e2]; omega, e1⟩
    · exact absurd h (by simp)

/-- With unit bearings and a threshold of at most one, a stored point is in front of every shot it is stored with. -/
theorem C86_robust_front (refine : List Ray → V3 → V3) (p : Params) (draws : List ℝ) (obs : List (S × Ray))
    (hu : ∀ o ∈ obs, o.2.b ⬝ᵥ o.2.b = 1) (ht : p.threshold ≤ 1) (r : V3 × List S)
    (h : robust refine p draws obs = some r) (s : S) (hs : s ∈ r.2) :
    ∃ ray, (s, ray) ∈ obs ∧ 0 < inner ℝ (pt (r.1 - ray.c)) (pt ray.b) := by
  rw [(C86_robust_sound refine p draws obs r h).2] at hs
  obtain ⟨o, ho, rfl⟩ := List.mem_map.1 hs
  obtain ⟨h1, h2⟩ := List.mem_filter.1 ho
  refine ⟨o.2, h1, ?_⟩
  rw [inner_pt]
  apply chord (hu o h1) ht
  have := of_decide_eq_true h2
  rwa [← chordError_eq] at this

/-! #### Pairs -/

theorem mem_combinations (n i j : ℕ) : (i, j) ∈ combinations n ↔ i < j ∧ j < n := by
  unfold combinations
  simp only [List.mem_flatMap, List.mem_range, List.mem_map, List.mem_filter, decide_eq_true_eq, Prod.mk.injEq]
  constructor
  · rintro ⟨a, ha, b, ⟨hb, hab⟩, rfl, rfl⟩; exact ⟨hab, hb⟩
  · rintro ⟨h1, h2⟩; exact ⟨i, by omega, j, ⟨h2, h1⟩, rfl, rfl⟩

theorem combinations_last (m : ℕ) : ∃ l, combinations (m + 2) = l ++ [(m, m + 1)] ∧ ∀ x ∈ l, x.1 < m := by
  have e1 : ((List.range (m + 2)).filter (fun j => decide (m < j))) = [m + 1] := by
    rw [List.range_succ, List.range_succ, List.filter_append, List.filter_append]
    have : (List.range m).filter (fun j => decide (m < j)) = [] := by
      rw [List.filter_eq_nil_iff]
      intro j hj
      rw [List.mem_range] at hj
      simp; omega
    rw [this]
    simp
  have e2 : ((List.range (m + 2)).filter (fun j => decide (m + 1 < j))) = [] := by
    rw [List.filter_eq_nil_iff]
    intro j hj
    rw [List.mem_range] at hj
    simp; omega
  refine ⟨(List.range m).flatMap (fun i => ((List.range (m + 2)).filter (fun j => i < j)).map (fun j => (i, j))), ?_, ?_⟩
  · unfold combinations
    have hr : List.range (m + 2) = List.range m ++ [m, m + 1] := by
      rw [List.range_succ, List.range_succ]; simp
    have hg : ∀ g : ℕ → List (ℕ × ℕ), (List.range (m + 2)).flatMap g = (List.range m).flatMap g ++ (g m ++ g (m + 1)) := by
      intro g
      rw [hr, List.flatMap_append]
      simp
    rw [hg, e1, e2]
    rfl
  · intro x hx
    simp only [List.mem_flatMap, List.mem_range, List.mem_map] at hx
    obtain ⟨a, ha, b, -, rfl⟩ := hx
    exact ha

/-- The pairs a random number in `[0, 1)` can choose. -/
theorem chosen_pair {n : ℕ} (hn : 3 ≤ n) {u : ℝ} (h0 : 0 ≤ u) (h1 : u < 1) (ij : ℕ × ℕ)
    (h : (combinations n)[chosen n u]? = some ij) : ij.1 < ij.2 ∧ ij.2 < n ∧ ij ≠ (n - 2, n - 1) := by
  have hm := (mem_combinations n ij.1 ij.2).1 (List.mem_of_getElem? h)
  refine ⟨hm.1, hm.2, ?_⟩
  rintro rfl
  obtain ⟨m, rfl⟩ : ∃ m, n = m + 2 := ⟨n - 2, by omega⟩
  obtain ⟨l, hl, hx⟩ := combinations_last m
  have hlen : (combinations (m + 2)).length = l.length + 1 := by rw [hl]; simp
  have hne : l ≠ [] := by
    rintro rfl
    have := (mem_combinations (m + 2) 0 1).2 ⟨by omega, by omega⟩
    rw [hl] at this
    simp at this
    omega
  have hpos : 0 < (l.length : ℝ) := by
    have := List.length_pos_iff.2 hne
    exact_mod_cast this
  have hlt : chosen (m + 2) u < l.length := by
    unfold chosen
    rw [hlen]
    push_cast
    rw [add_sub_cancel_right]
    have h2 : u * (l.length : ℝ) < ((l.length : ℤ) : ℝ) := by push_cast; nlinarith
    have h3 := Int.floor_lt.2 h2
    have h4 : 0 ≤ ⌊u * (l.length : ℝ)⌋ := Int.floor_nonneg.2 (by positivity)
    omega
  rw [hl, List.getElem?_append_left hlt] at h
  have := hx _ (List.mem_of_getElem? h)
  simp at this

theorem fold_none (refine : List Ray → V3 → V3) (p : Params) (rays : List Ray) (draws : List ℝ) (s : Robust)
    (h0 : s.inliers = []) (h : ∀ u ∈ draws, ∀ ij, (combinations rays.length)[chosen rays.length u]? = some ij →
      midpoint (pick rays [ij.1, ij.2]) (List.replicate rays.length p.threshold) p.minAngle p.minDepth = none) :
    (draws.foldl (robustStep refine p rays) s).inliers = [] := by
  induction draws generalizing s with
  | nil => exact h0
  | cons u us ih =>
    apply ih _ _ (fun v hv => h v (List.mem_cons_of_mem _ hv))
    unfold robustStep
    split
    · exact h0
    · split
      · exact h0
      · split
        · exact h0
        · rename_i ij hij
          simp only
          rw [h u (by simp) ij hij]
          exact h0

/-- The pair of the last two observations is never tried when there are three or more: if no other pair has a valid point,
nothing is stored, for all random numbers. -/
theorem C86_last_pair (refine : List Ray → V3 → V3) (p : Params) (draws : List ℝ) (obs : List (S × Ray))
    (hn : 3 ≤ obs.length) (hd : ∀ u ∈ draws, 0 ≤ u ∧ u < 1)
    (h : ∀ (i j : ℕ) (a b : S × Ray), i < j → obs[i]? = some a → obs[j]? = some b →
      ¬ (i + 2 = obs.length ∧ j + 1 = obs.length) →
      midpoint [a.2, b.2] (List.replicate obs.length p.threshold) p.minAngle p.minDepth = none) :
    robust refine p draws obs = none := by
  unfold robust
  rw [if_neg (by omega)]
  simp only
  have := fold_none refine p (obs.map (·.2)) draws ⟨0, [], [], false⟩ rfl (by
    intro u hu ij hij
    rw [List.length_map] at hij ⊢
    obtain ⟨h1, h2, h3⟩ := chosen_pair hn (hd u hu).1 (hd u hu).2 ij hij
    have e1 : obs[ij.1]? = some obs[ij.1] := List.getElem?_eq_getElem (by omega)
    have e2 : obs[ij.2]? = some obs[ij.2] := List.getElem?_eq_getElem (by omega)
    have := h ij.1 ij.2 _ _ h1 e1 e2 (by
      rintro ⟨a, b⟩
      exact h3 (Prod.ext (by simp only; omega) (by simp only; omega)))
    rw [← this]
    congr 1
    unfold pick
    simp [List.getElem?_map, e1, e2])
  rw [this]
  rfl

/-- Three rays of which the last two meet. -/
noncomputable def threeRays : List (ℕ × Ray) :=
  [(0, ⟨![0, 1, 0], ![0, 1, 0]⟩), (1, ⟨![0, 0, 0], ![0, 0, 1]⟩), (2, ⟨![1, 0, 0], ![-3 / 5, 0, 4 / 5]⟩)]

theorem first_ray_refused (r : Ray) (hu : r.b ⬝ᵥ r.b = 1) (hc : r.c 1 = 0) (hb : r.b 1 = 0) (thresholds : List ℝ)
    (minAngle minDepth : ℝ) (ha : 0 < minAngle) (hd : 0 < minDepth) (hl : 2 ≤ thresholds.length) :
    midpoint [⟨![0, 1, 0], ![0, 1, 0]⟩, r] thresholds minAngle minDepth = none := by
  rw [Option.eq_none_iff_forall_ne_some]
  intro X hX
  have hcut : midpoint [⟨![0, 1, 0], ![0, 1, 0]⟩, r] (thresholds.take 2) minAngle minDepth = some X := by
    rw [← hX]
    unfold Triangulation.midpoint
    have : ([(⟨![0, 1, 0], ![0, 1, 0]⟩ : Ray), r].zip (thresholds.take 2))
        = [(⟨![0, 1, 0], ![0, 1, 0]⟩ : Ray), r].zip thresholds := by
      match thresholds, hl with
      | a :: b :: l, _ => rfl
    have h1 : ¬ (thresholds.take 2).length < [(⟨![0, 1, 0], ![0, 1, 0]⟩ : Ray), r].length := by simp; omega
    have h2 : ¬ thresholds.length < [(⟨![0, 1, 0], ![0, 1, 0]⟩ : Ray), r].length := by simp; omega
    rw [this, if_neg h1, if_neg h2]
  have hun : ∀ r' ∈ [(⟨![0, 1, 0], ![0, 1, 0]⟩ : Ray), r], r'.b ⬝ᵥ r'.b = 1 := by
    intro r' hr'
    simp only [List.mem_cons, List.not_mem_nil, or_false] at hr'
    rcases hr' with rfl | rfl
    · simp [dot3]
    · exact hu
  obtain ⟨-, h2, h3⟩ := (C85_accept _ hun _ (by simp; omega) _ _ ha hd X).1 hcut
  have h4 := (h3 0 _ ((thresholds.take 2)[0]'(by simp; omega)) rfl (List.getElem?_eq_getElem (by simp; omega))).1
  rw [inner_pt, dot3] at h4
  simp at h4
  have h5 := h2 ![X 0, 0, X 2]
  rw [cost_eq hun, cost_eq hun] at h5
  unfold f q at h5
  have e0 : ![X 0, 0, X 2] 0 = X 0 := rfl
  have e1 : ![X 0, 0, X 2] 1 = 0 := rfl
  have e2 : ![X 0, 0, X 2] 2 = X 2 := rfl
  have f0 : (![0, 1, 0] : V3) 0 = 0 := rfl
  have f1 : (![0, 1, 0] : V3) 1 = 1 := rfl
  have f2 : (![0, 1, 0] : V3) 2 = 0 := rfl
  simp only [List.map_cons, List.map_nil, List.sum_cons, List.sum_nil, dot3, Pi.sub_apply, e0, e1, e2, f0, f1, f2, hc, hb] at h5
  nlinarith

/-- Two good views and a bad one, in this order, are never triangulated, although the good views alone are. -/
theorem C86_last_pair_lost (refine : List Ray → V3 → V3) (p : Params) (ht : 0 ≤ p.threshold) (ha : 0 < p.minAngle)
    (ha1 : p.minAngle ≤ 1 / 2) (hd : 0 < p.minDepth) (hd1 : p.minDepth ≤ 1) :
    (∀ draws : List ℝ, (∀ u ∈ draws, 0 ≤ u ∧ u < 1) → robust refine p draws threeRays = none) ∧
    midpoint ((threeRays.drop 1).map (·.2)) [p.threshold, p.threshold] p.minAngle p.minDepth = some ![0, 0, 4 / 3] := by
  constructor
  · intro draws hdr
    apply C86_last_pair refine p draws threeRays (by simp [threeRays]) hdr
    intro i j a b hij hi hj hne
    have hl : threeRays.length = 3 := rfl
    have hi' := (List.getElem?_eq_some_iff.1 hi).1
    have hj' := (List.getElem?_eq_some_iff.1 hj).1
    rw [hl] at hi' hj' hne
    have hi0 : i = 0 := by omega
    subst hi0
    have e : a = (0, ⟨![0, 1, 0], ![0, 1, 0]⟩) := by
      simpa [threeRays, eq_comm] using hi
    rw [e]
    have hj2 : j = 1 ∨ j = 2 := by omega
    rcases hj2 with rfl | rfl
    · have e2 : b = (1, ⟨![0, 0, 0], ![0, 0, 1]⟩) := by simpa [threeRays, eq_comm] using hj
      rw [e2]
      exact first_ray_refused _ (by simp [dot3]) (by simp) (by simp) _ _ _ ha hd (by simp [hl])
    · have e2 : b = (2, ⟨![1, 0, 0], ![-3 / 5, 0, 4 / 5]⟩) := by simpa [threeRays, eq_comm] using hj
      rw [e2]
      exact first_ray_refused _ (by simp [dot3]; norm_num) (by simp) (by simp) _ _ _ ha hd (by simp [hl])
  · apply C85_complete _ _ _ (by simp [threeRays]) (by simp [ht]) _ _ ha hd
    · refine ⟨![0, 0, 1], by simp [threeRays], ![-3 / 5, 0, 4 / 5], by simp [threeRays], ?_, ?_⟩
      · unfold InnerProductGeometry.angle
        rw [inner_pt, norm_pt, norm_pt]
        simp only [dot3]
        simp
        rw [show (-3 / 5 * (-3 / 5) + 4 / 5 * (4 / 5) : ℝ) = 1 by norm_num]
        simp
        have h1 : Real.arccos (Real.cos (1 / 2)) = 1 / 2 := Real.arccos_cos (by norm_num) (by linarith [Real.pi_gt_three])
        have h2 := Real.one_sub_sq_div_two_le_cos (x := 1 / 2)
        have h3 : Real.arccos (Real.cos (1 / 2)) ≤ Real.arccos (4 / 5) := Real.arccos_le_arccos (by linarith)
        linarith
      · unfold InnerProductGeometry.angle
        rw [inner_pt, norm_pt, norm_pt]
        simp only [dot3]
        simp
        rw [show (-3 / 5 * (-3 / 5) + 4 / 5 * (4 / 5) : ℝ) = 1 by norm_num]
        simp
        have h1 : Real.arccos (4 / 5) ≤ Real.pi / 2 := Real.arccos_le_pi_div_two.2 (by norm_num)
        linarith [Real.pi_gt_three]
    · intro r hr
      simp only [threeRays, List.drop_succ_cons, List.drop_zero, List.map_cons, List.map_nil, List.mem_cons,
        List.not_mem_nil, or_false] at hr
      rcases hr with rfl | rfl
      · refine ⟨4 / 3, by linarith, ?_⟩
        simp
      · refine ⟨5 / 3, by linarith, ?_⟩
        ext i
        fin_cases i <;> simp <;> norm_num
    · intro r hr
      simp only [threeRays, List.drop_succ_cons, List.drop_zero, List.map_cons, List.map_nil, List.mem_cons,
        List.not_mem_nil, or_false] at hr
      rcases hr with rfl | rfl
      · simp [dot3]
      · simp [dot3]; norm_num

/-- Exact observations of which every two form an angle: whatever the random numbers, the exact point is stored with every
shot, if the refinement keeps a point without error. -/
theorem C86_robust_complete (refine : List Ray → V3 → V3) (p : Params) (u : ℝ) (draws : List ℝ) (obs : List (S × Ray))
    (hn : 2 ≤ obs.length) (h0 : 0 ≤ u) (h1 : u < 1) (hu : ∀ o ∈ obs, o.2.b ⬝ᵥ o.2.b = 1) (ha : 0 < p.minAngle)
    (hd : 0 < p.minDepth) (ht : 0 < p.threshold) (X : V3)
    (hX : ∀ o ∈ obs, ∃ d : ℝ, p.minDepth ≤ d ∧ X = o.2.c + d • o.2.b)
    (hw : ∀ (i j : ℕ) (a b : S × Ray), i < j → obs[i]? = some a → obs[j]? = some b → Wide p.minAngle a.2.b b.2.b)
    (hr : ∀ (rays : List Ray), bearingCost rays X = 0 → refine rays X = X) :
    robust refine p (u :: draws) obs = some (X, obs.map (·.1)) := by
  have hexact : ∀ o ∈ obs, directionError X o.2 = 0 := by
    intro o ho
    obtain ⟨d, hd1, hd2⟩ := hX o ho
    rw [← chordError_eq]
    unfold chordError
    rw [show X - o.2.c = d • o.2.b by rw [hd2]; simp, normalized_smul (by linarith) (hu o ho)]
    simp [norm3]
  have hcost : ∀ rays : List Ray, (∀ r ∈ rays, ∃ o ∈ obs, o.2 = r) → bearingCost rays X = 0 := by
    intro rays hrs
    unfold bearingCost
    apply List.sum_eq_zero
    intro x hx
    obtain ⟨r, hr1, rfl⟩ := List.mem_map.1 hx
    obtain ⟨o, ho, rfl⟩ := hrs r hr1
    have := hexact o ho
    rw [← chordError_eq] at this
    unfold chordError norm3 at this
    exact (Real.sqrt_eq_zero (dot_self_nonneg _)).1 this
  have hall : inliersAt p.threshold (obs.map (·.2)) X = List.range obs.length := by
    unfold inliersAt
    rw [List.length_map, List.filter_eq_self]
    intro i hi
    have hi' := List.mem_range.1 hi
    rw [List.getElem?_map, List.getElem?_eq_getElem hi']
    simp only [Option.map_some, decide_eq_true_eq]
    rw [chordError_eq, hexact _ (List.getElem_mem hi')]
    exact ht
  have hstep : robustStep refine p (obs.map (·.2)) ⟨0, [], [], false⟩ u
      = ⟨X, List.range obs.length, [chosen obs.length u], true⟩ := by
    unfold robustStep
    simp only [Bool.false_eq_true, if_false, List.not_mem_nil, List.length_map]
    have hmem : ∃ ij, (combinations obs.length)[chosen obs.length u]? = some ij := by
      have hpos : 0 < (combinations obs.length).length :=
        List.length_pos_of_mem ((mem_combinations obs.length 0 1).2 ⟨by omega, by omega⟩)
      have hlt : chosen obs.length u < (combinations obs.length).length := by
        unfold chosen
        set L := (combinations obs.length).length
        have hL : (1 : ℝ) ≤ L := by exact_mod_cast hpos
        have h2 : u * ((L : ℝ) - 1) < ((L : ℤ) : ℝ) := by push_cast; nlinarith
        have h3 := Int.floor_lt.2 h2
        have h4 : 0 ≤ ⌊u * ((L : ℝ) - 1)⌋ := Int.floor_nonneg.2 (mul_nonneg h0 (by linarith))
        omega
      exact ⟨_, List.getElem?_eq_getElem hlt⟩
    obtain ⟨ij, hij⟩ := hmem
    rw [hij]
    simp only
    obtain ⟨h2, h3⟩ := (mem_combinations _ ij.1 ij.2).1 (List.mem_of_getElem? hij)
    have e1 : obs[ij.1]? = some obs[ij.1] := List.getElem?_eq_getElem (by omega)
    have e2 : obs[ij.2]? = some obs[ij.2] := List.getElem?_eq_getElem (by omega)
    have hm1 : obs[ij.1] ∈ obs := List.mem_of_getElem? e1
    have hm2 : obs[ij.2] ∈ obs := List.mem_of_getElem? e2
    have epick : pick (obs.map (·.2)) [ij.1, ij.2] = [obs[ij.1].2, obs[ij.2].2] := by
      unfold pick
      simp [List.getElem?_map, e1, e2]
    rw [epick, C85_complete _ (by simp [hu _ hm1, hu _ hm2]) _ (by simpa using hn) (by simp [ht.le]) _ _ ha hd
      ⟨_, by simp, _, by simp, hw _ _ _ _ h2 e1 e2⟩ X (by
        intro r hr'
        simp only [List.mem_cons, List.not_mem_nil, or_false] at hr'
        rcases hr' with rfl | rfl
        · exact hX _ hm1
        · exact hX _ hm2)]
    simp only
    rw [hr _ (hcost _ (by
      intro r hr'
      simp only [List.mem_cons, List.not_mem_nil, or_false] at hr'
      rcases hr' with rfl | rfl
      · exact ⟨_, hm1, rfl⟩
      · exact ⟨_, hm2, rfl⟩))]
    unfold improve
    simp only
    rw [hall, if_pos (by simp; omega)]
    have e3 : refine (pick (obs.map (·.2)) (List.range obs.length)) X = X := by
      apply hr
      apply hcost
      intro r hr'
      unfold pick at hr'
      obtain ⟨i, -, hi⟩ := List.mem_filterMap.1 hr'
      rw [List.getElem?_map] at hi
      obtain ⟨o, ho, rfl⟩ := Option.map_eq_some_iff.1 hi
      exact ⟨o, List.mem_of_getElem? ho, rfl⟩
    rw [e3, hall, if_neg (by omega)]
    have hne : (obs.length : ℝ) ≠ 0 := by
      have : obs.length ≠ 0 := by omega
      exact_mod_cast this
    simp [stops, hne]
  have hstop : ∀ (us : List ℝ) (s : Robust), s.stop = true → us.foldl (robustStep refine p (obs.map (·.2))) s = s := by
    intro us
    induction us with
    | nil => intro s _; rfl
    | cons v us ih =>
      intro s hs
      rw [List.foldl_cons]
      have : robustStep refine p (obs.map (·.2)) s v = s := by unfold robustStep; rw [if_pos hs]
      rw [this, ih s hs]
  have hfold : (u :: draws).foldl (robustStep refine p (obs.map (·.2))) ⟨0, [], [], false⟩
      = ⟨X, List.range obs.length, [chosen obs.length u], true⟩ := by
    rw [List.foldl_cons, hstep, hstop _ _ rfl]
  unfold robust
  rw [if_neg (by omega)]
  simp only [hfold, List.length_range]
  rw [if_pos (by omega)]
  have := filterMap_range obs (·.1) (fun _ => true) (fun _ => true) (fun _ _ _ => rfl)
  simp only [List.filter_true] at this
  rw [this]

/-! #### The best pair and the end of the search -/

theorem improve_len (refine : List Ray → V3 → V3) (threshold : ℝ) (rays : List Ray) (s : Robust) (i : ℕ) (X : V3) :
    s.inliers.length ≤ (improve refine threshold rays s i X).inliers.length ∧
    (inliersAt threshold rays X).length ≤ (improve refine threshold rays s i X).inliers.length ∧
    (improve refine threshold rays s i X).tried = s.tried := by
  unfold improve
  simp only
  split
  · split
    · exact ⟨by simp only; omega, by simp only; omega, rfl⟩
    · exact ⟨by simp only; omega, le_refl _, rfl⟩
  · exact ⟨le_refl _, by omega, rfl⟩

/-- The number of inliers of the valid point of a pair is at most `n`. -/
def Beats (refine : List Ray → V3 → V3) (p : Params) (rays : List Ray) (n k : ℕ) : Prop :=
  ∀ ij X, (combinations rays.length)[k]? = some ij →
    midpoint (pick rays [ij.1, ij.2]) (List.replicate rays.length p.threshold) p.minAngle p.minDepth = some X →
    (inliersAt p.threshold rays (refine (pick rays [ij.1, ij.2]) X)).length ≤ n

theorem Beats.mono {refine : List Ray → V3 → V3} {p : Params} {rays : List Ray} {n n' k : ℕ} (h : Beats refine p rays n k)
    (hn : n ≤ n') : Beats refine p rays n' k := fun ij X h1 h2 => (h ij X h1 h2).trans hn

theorem robustStep_beats (refine : List Ray → V3 → V3) (p : Params) (rays : List Ray) (s : Robust) (u : ℝ)
    (h : ∀ k ∈ s.tried, Beats refine p rays s.inliers.length k) :
    s.inliers.length ≤ (robustStep refine p rays s u).inliers.length ∧
    (s.stop = true → (robustStep refine p rays s u).stop = true) ∧
    (∀ k ∈ (robustStep refine p rays s u).tried, Beats refine p rays (robustStep refine p rays s u).inliers.length k) ∧
    ((robustStep refine p rays s u).stop = true ∨
      Beats refine p rays (robustStep refine p rays s u).inliers.length (chosen rays.length u)) := by
  unfold robustStep
  split
  · rename_i hs; exact ⟨le_refl _, fun _ => hs, h, Or.inl hs⟩
  · rename_i hs
    split
    · rename_i ht; exact ⟨le_refl _, fun h => absurd h hs, h, Or.inr (h _ ht)⟩
    · split
      · rename_i hnone
        refine ⟨le_refl _, fun h => absurd h hs, h, Or.inr ?_⟩
        intro ij X h1
        rw [hnone] at h1
        exact absurd h1 (by simp)
      · rename_i ij hij
        simp only
        split
        · rename_i hmid
          have hb : Beats refine p rays s.inliers.length (chosen rays.length u) := by
            intro ij' X h1 h2
            rw [hij] at h1
            cases h1
            rw [hmid] at h2
            exact absurd h2 (by simp)
          refine ⟨le_refl _, fun h => absurd h hs, ?_, Or.inr hb⟩
          intro k hk
          rcases List.mem_cons.1 hk with rfl | hk
          · exact hb
          · exact h k hk
        · rename_i X hmid
          obtain ⟨h1, h2, h3⟩ := improve_len refine p.threshold rays
            { s with tried := chosen rays.length u :: s.tried } ij.1 (refine (pick rays [ij.1, ij.2]) X)
          have hb : Beats refine p rays (improve refine p.threshold rays
              { s with tried := chosen rays.length u :: s.tried } ij.1 (refine (pick rays [ij.1, ij.2]) X)).inliers.length
              (chosen rays.length u) := by
            intro ij' X' h4 h5
            rw [hij] at h4
            cases h4
            rw [hmid] at h5
            cases h5
            exact h2
          refine ⟨h1, fun h => absurd h hs, ?_, Or.inr hb⟩
          intro k hk
          rw [h3] at hk
          rcases List.mem_cons.1 hk with rfl | hk
          · exact hb
          · exact (h k hk).mono h1

theorem fold_beats (refine : List Ray → V3 → V3) (p : Params) (rays : List Ray) (draws : List ℝ) (s : Robust)
    (h : ∀ k ∈ s.tried, Beats refine p rays s.inliers.length k) :
    s.inliers.length ≤ (draws.foldl (robustStep refine p rays) s).inliers.length ∧
    (s.stop = true → (draws.foldl (robustStep refine p rays) s).stop = true) ∧
    ((draws.foldl (robustStep refine p rays) s).stop = true ∨ ∀ u ∈ draws,
      Beats refine p rays (draws.foldl (robustStep refine p rays) s).inliers.length (chosen rays.length u)) := by
  induction draws generalizing s with
  | nil => exact ⟨le_refl _, id, Or.inr (by simp)⟩
  | cons u us ih =>
    obtain ⟨h1, h2, h3, h4⟩ := robustStep_beats refine p rays s u h
    obtain ⟨i1, i2, i3⟩ := ih _ h3
    rw [List.foldl_cons]
    refine ⟨h1.trans i1, fun hs => i2 (h2 hs), ?_⟩
    rcases i3 with i3 | i3
    · exact Or.inl i3
    · rcases h4 with h4 | h4
      · exact Or.inl (i2 h4)
      · refine Or.inr ?_
        intro v hv
        rcases List.mem_cons.1 hv with rfl | hv
        · exact h4.mono i1
        · exact i3 v hv

/-- Unless the search ends early, no pair that was drawn would have given more shots than what was stored: for every draw, the
point of the pair is refused or has at most as many inliers. -/
theorem C86_robust_best (refine : List Ray → V3 → V3) (p : Params) (draws : List ℝ) (obs : List (S × Ray))
    (hstop : (draws.foldl (robustStep refine p (obs.map (·.2))) ⟨0, [], [], false⟩).stop = false)
    (r : V3 × List S) (h : robust refine p draws obs = some r) (u : ℝ) (hu : u ∈ draws) (ij : ℕ × ℕ) (X : V3)
    (h1 : (combinations obs.length)[chosen obs.length u]? = some ij)
    (h2 : midpoint (pick (obs.map (·.2)) [ij.1, ij.2]) (List.replicate obs.length p.threshold) p.minAngle p.minDepth = some X) :
    (inliersAt p.threshold (obs.map (·.2)) (refine (pick (obs.map (·.2)) [ij.1, ij.2]) X)).length ≤ r.2.length := by
  have hb := (fold_beats refine p (obs.map (·.2)) draws ⟨0, [], [], false⟩ (by simp)).2.2
  rw [hstop] at hb
  have hb := (hb.resolve_left (by simp)) u hu ij X (by rw [List.length_map]; exact h1) (by rw [List.length_map]; exact h2)
  refine hb.trans ?_
  have hk := fold_kept refine p (obs.map (·.2)) draws ⟨0, [], [], false⟩ (Or.inl rfl)
  unfold robust at h
  split at h
  · exact absurd h (by simp)
  · simp only at h
    split at h
    · set s := draws.foldl (robustStep refine p (obs.map (·.2))) ⟨0, [], [], false⟩
      rw [← Option.some.inj h]
      apply le_of_eq
      symm
      apply filterMap_length
      intro i hi
      rcases hk with hk | hk
      · rw [hk] at hi; simp at hi
      · rw [hk, inliersAt_eq] at hi
        obtain ⟨r, hr, -⟩ := hi
        have := (List.getElem?_eq_some_iff.1 hr).1
        simp at this
        simp [this]
    · exact absurd h (by simp)

/-- When the search ends: all shots are inliers, or `(1 - ratio²)` to the power of the first index of the pair (not of the
number of rounds) is at most one in a hundred. A pair with the first shot ends it only if all are inliers. -/
theorem C86_stops (best n i : ℕ) (h0 : 0 < best) (h1 : best ≤ n) :
    (stops best n i = true ↔ best = n ∨ (1 - (best / n : ℝ) ^ 2) ^ i ≤ 1 / 100) ∧
    (stops best n 0 = true ↔ best = n) := by
  have hn : (0 : ℝ) < n := by exact_mod_cast (by omega : 0 < n)
  have key : ∀ i : ℕ, stops best n i = true ↔ best = n ∨ (1 - (best / n : ℝ) ^ 2) ^ i ≤ 1 / 100 := by
    intro i
    unfold stops
    simp only
    by_cases he : best = n
    · subst he
      rw [if_pos (div_self hn.ne')]
      simp
    · have hr : (best / n : ℝ) ≠ 1 := by
        intro h
        rw [div_eq_one_iff_eq hn.ne'] at h
        exact he (by exact_mod_cast h)
      have hr1 : (best / n : ℝ) < 1 := lt_of_le_of_ne ((div_le_one hn).2 (by exact_mod_cast h1)) hr
      have hr0 : 0 < (best / n : ℝ) := div_pos (by exact_mod_cast h0) hn
      rw [if_neg hr]
      simp only [decide_eq_true_eq, he, false_or]
      set q := (best / n : ℝ)
      have hq0 : 0 < 1 - q ^ 2 := by nlinarith
      have hq1 : 1 - q ^ 2 < 1 := by nlinarith
      have hlog : Real.log (1 - q ^ 2) < 0 := Real.log_neg hq0 hq1
      rw [show q * q = q ^ 2 by ring, show (1 - 99 / 100 : ℝ) = 1 / 100 by norm_num, div_le_iff_of_neg hlog,
        ← Real.log_pow, Real.log_le_log_iff (pow_pos hq0 i) (by norm_num)]
  refine ⟨key i, ?_⟩
  rw [key 0]
  simp
  norm_num

/-- The case of two exact observations. -/
example : ∃ (p : Params) (obs : List (ℕ × Ray)) (X : V3), 2 ≤ obs.length ∧ (∀ o ∈ obs, o.2.b ⬝ᵥ o.2.b = 1) ∧
    0 < p.minAngle ∧ 0 < p.minDepth ∧ 0 < p.threshold ∧ (∀ o ∈ obs, ∃ d : ℝ, p.minDepth ≤ d ∧ X = o.2.c + d • o.2.b) := by
  refine ⟨⟨1, 1, 1⟩, [(0, ⟨0, ![0, 0, 1]⟩), (1, ⟨![-2, 0, 2], ![1, 0, 0]⟩)], ![0, 0, 2], by simp, ?_, by norm_num, by norm_num,
    by norm_num, ?_⟩
  · intro o ho
    simp only [List.mem_cons, List.not_mem_nil, or_false] at ho
    rcases ho with rfl | rfl <;> simp [dot3]
  · intro o ho
    simp only [List.mem_cons, List.not_mem_nil, or_false] at ho
    rcases ho with rfl | rfl
    · exact ⟨2, by norm_num, by simp⟩
    · exact ⟨2, by norm_num, by simp⟩

/-! ### All tracks -/

/-- A track is seen in one of the shots. -/
def SeenIn (m : TM S T Coord) (shotIds : List S) (t : T) : Prop :=
  ∃ s ∈ shotIds, ∃ obs : Dict T Coord, m.getShotObservations s = .ok obs ∧ t ∈ obs.keys

theorem mem_tracksOf (order : List T → List T) (ho : ∀ l t, t ∈ order l ↔ t ∈ l) (m : TM S T Coord) (shotIds : List S) (t : T) :
    t ∈ tracksOf order m shotIds ↔ SeenIn m shotIds t := by
  unfold tracksOf SeenIn
  rw [ho, List.mem_dedup, List.mem_flatMap]
  constructor
  · rintro ⟨s, hs, h⟩
    cases hg : m.getShotObservations s with
    | ok obs => rw [hg] at h; exact ⟨s, hs, obs, hg, h⟩
    | error e => rw [hg] at h; exact absurd h (by simp)
  · rintro ⟨s, hs, obs, hg, h⟩
    exact ⟨s, hs, by rw [hg]; exact h⟩

theorem get?_storeNew (tri : T → Option (V3 × List S)) (ts : List T) (points : Points T S) (t : T) :
    (ts.foldl (storeNewStep tri) points).get? t
      = match points.get? t with
        | some r => some r
        | none => if t ∈ ts then tri t else none := by
  induction ts generalizing points with
  | nil => cases h : points.get? t <;> simp [h]
  | cons a ts ih =>
    rw [List.foldl_cons, ih]
    have hstep : (storeNewStep tri points a).get? t
        = match points.get? t with
          | some r => some r
          | none => if t = a then tri t else none := by
      unfold storeNewStep storeStep
      by_cases hta : t = a
      · subst hta
        cases hp : points.get? t with
        | some r => rw [if_pos (by unfold Dict.has; rw [hp]; rfl), hp]
        | none =>
          rw [if_neg (by unfold Dict.has; rw [hp]; simp)]
          cases htr : tri t with
          | some r => simp [htr]
          | none => simp [hp, htr]
      · split
        · cases hp : points.get? t <;> simp [hta]
        · split
          · rw [Dict.get?_set_ne _ _ (Ne.symm hta)]
            cases hp : points.get? t <;> simp [hta]
          · cases hp : points.get? t <;> simp [hta]
    rw [hstep]
    cases hp : points.get? t with
    | some r => rfl
    | none =>
      simp only
      by_cases hta : t = a
      · subst hta
        simp only [if_true, List.mem_cons, true_or]
        cases htr : tri t <;> simp [htr]
      · simp only [hta, if_false, List.mem_cons, false_or]

theorem get?_store (tri : T → Option (V3 × List S)) (ts : List T) (points : Points T S) (t : T)
    (h0 : points.get? t = none ∨ points.get? t = tri t) :
    (ts.foldl (storeStep tri) points).get? t = if t ∈ ts then tri t else points.get? t := by
  induction ts generalizing points with
  | nil => simp
  | cons a ts ih =>
    rw [List.foldl_cons]
    by_cases hta : t = a
    · subst hta
      have e : (storeStep tri points t).get? t = tri t := by
        unfold storeStep
        cases htr : tri t with
        | some r => simp
        | none => rcases h0 with h0 | h0
                  · exact h0
                  · rw [h0, htr]
      rw [ih _ (Or.inr e), e]
      simp
    · have e : (storeStep tri points a).get? t = points.get? t := by
        unfold storeStep
        split
        · rw [Dict.get?_set_ne _ _ (Ne.symm hta)]
        · rfl
      rw [ih _ (by rw [e]; exact h0), e]
      simp [hta]

/-- What `triangulate_shot_features` leaves, in whatever order the set of tracks is visited: points that existed are as they
were, and the tracks seen in the given shots get the result of their triangulation. -/
theorem C86_shot_features (order : List T → List T) (ho : ∀ l t, t ∈ order l ↔ t ∈ l) (kind : String)
    (refine : List Ray → V3 → V3) (p : Params) (draws : T → List ℝ) (m : TM S T Coord) (shots : S → Option GShot)
    (shotIds : List S) (points : Points T S) (t : T) :
    ((∃ r, points.get? t = some r) →
      (triangulateShotFeatures order kind refine p draws m shots shotIds points).get? t = points.get? t) ∧
    (points.get? t = none → SeenIn m shotIds t →
      (triangulateShotFeatures order kind refine p draws m shots shotIds points).get? t
        = byType kind refine p (draws t) (raysOf shots m t)) ∧
    (points.get? t = none → ¬ SeenIn m shotIds t →
      (triangulateShotFeatures order kind refine p draws m shots shotIds points).get? t = none) := by
  unfold triangulateShotFeatures
  rw [get?_storeNew]
  refine ⟨?_, ?_, ?_⟩
  · rintro ⟨r, hr⟩; rw [hr]
  · intro h1 h2
    rw [h1]
    exact if_pos ((mem_tracksOf order ho m shotIds t).2 h2)
  · intro h1 h2
    rw [h1]
    exact if_neg (fun h => h2 ((mem_tracksOf order ho m shotIds t).1 h))

/-- With all observations nothing is left to do: a second call changes no point. -/
theorem C86_again (order order' : List T → List T) (ho : ∀ l t, t ∈ order l ↔ t ∈ l) (ho' : ∀ l t, t ∈ order' l ↔ t ∈ l)
    (refine : List Ray → V3 → V3) (p : Params) (draws draws' : T → List ℝ) (m : TM S T Coord) (shots : S → Option GShot)
    (shotIds : List S) (points : Points T S) (t : T) :
    (triangulateShotFeatures order' "FULL" refine p draws' m shots shotIds
      (triangulateShotFeatures order "FULL" refine p draws m shots shotIds points)).get? t
      = (triangulateShotFeatures order "FULL" refine p draws m shots shotIds points).get? t := by
  unfold triangulateShotFeatures
  rw [get?_storeNew, get?_storeNew]
  have hk : ∀ ds : List ℝ, ∀ o : List (S × Ray), byType "FULL" refine p ds o = full refine p o := by
    intro ds o
    unfold byType
    rw [if_neg (by decide), if_pos rfl]
  cases h : points.get? t with
  | some r => rfl
  | none =>
    simp only [hk]
    have e : t ∈ tracksOf order' m shotIds ↔ t ∈ tracksOf order m shotIds := by
      rw [mem_tracksOf order' ho', mem_tracksOf order ho]
    by_cases hm : t ∈ tracksOf order m shotIds
    · rw [if_pos hm, if_pos (e.2 hm)]
      split
      · rename_i r hr; exact hr.symm
      · rfl
    · rw [if_neg hm]
      simp only
      exact if_neg (fun h => hm (e.1 h))

/-- What `retriangulate` leaves: exactly the triangulated tracks seen in the shots of the reconstruction. No earlier point
survives, whether its track can be triangulated again or not. -/
theorem C86_retriangulate (order : List T → List T) (ho : ∀ l t, t ∈ order l ↔ t ∈ l) (kind : String)
    (refine : List Ray → V3 → V3) (p : Params) (draws : T → List ℝ) (m : TM S T Coord) (shots : S → Option GShot)
    (shotIds : List S) (points : Points T S) (t : T) :
    (SeenIn m shotIds t → (retriangulate order kind refine p draws m shots shotIds points).get? t
        = byType kind refine p (draws t) (raysOf shots m t)) ∧
    (¬ SeenIn m shotIds t → (retriangulate order kind refine p draws m shots shotIds points).get? t = none) := by
  unfold retriangulate
  rw [get?_store _ _ _ _ (Or.inl rfl)]
  constructor
  · intro h; exact if_pos ((mem_tracksOf order ho m shotIds t).2 h)
  · intro h; rw [if_neg (fun h2 => h ((mem_tracksOf order ho m shotIds t).1 h2))]; rfl

theorem storeStep_none (tri : T → Option (V3 × List S)) (h : ∀ t, tri t = none) (ts : List T) (points : Points T S) :
    ts.foldl (storeStep tri) points = points := by
  induction ts generalizing points with
  | nil => rfl
  | cons a ts ih =>
    rw [List.foldl_cons]
    have : storeStep tri points a = points := by unfold storeStep; rw [h a]
    rw [this, ih]

theorem storeNewStep_none (tri : T → Option (V3 × List S)) (h : ∀ t, tri t = none) (ts : List T) (points : Points T S) :
    ts.foldl (storeNewStep tri) points = points := by
  induction ts generalizing points with
  | nil => rfl
  | cons a ts ih =>
    rw [List.foldl_cons]
    have : storeNewStep tri points a = points := by
      unfold storeNewStep storeStep
      rw [h a]
      split <;> rfl
    rw [this, ih]

/-- A `triangulation_type` that is neither `ROBUST` nor `FULL` raises nothing: no track is ever triangulated, and
`retriangulate` deletes all points. -/
theorem C86_unknown_type (order : List T → List T) (kind : String) (h1 : kind ≠ "ROBUST") (h2 : kind ≠ "FULL")
    (refine : List Ray → V3 → V3) (p : Params) (draws : T → List ℝ) (m : TM S T Coord) (shots : S → Option GShot)
    (shotIds : List S) (points : Points T S) :
    triangulateShotFeatures order kind refine p draws m shots shotIds points = points ∧
      retriangulate order kind refine p draws m shots shotIds points = [] := by
  have hk : ∀ t, byType kind refine p (draws t) (raysOf shots m t) = none := by
    intro t
    unfold byType
    rw [if_neg h1, if_neg h2]
  exact ⟨storeNewStep_none _ hk _ _, storeStep_none _ hk _ _⟩

/-- The observations a track is triangulated from: those of the tracks manager in shots of the reconstruction, with the
centre of the shot and the bearing turned into the world frame. -/
theorem C86_rays (shots : S → Option GShot) (m : TM S T Coord) (t : T) (obs : Dict S Coord)
    (h : m.getTrackObservations t = .ok obs) (s : S) (r : Ray) :
    (s, r) ∈ raysOf shots m t ↔ ∃ (xy : Coord) (g : GShot), (s, xy) ∈ obs ∧ shots s = some g ∧
      r = ⟨g.center, g.Rᵀ *ᵥ g.bearing xy⟩ := by
  unfold raysOf trackRays
  rw [h]
  simp only [List.mem_filterMap, Option.map_eq_some_iff, Prod.mk.injEq]
  constructor
  · rintro ⟨⟨s', xy⟩, he, g, hg, hs, hr⟩
    cases hs
    exact ⟨xy, g, he, hg, hr.symm⟩
  · rintro ⟨xy, g, he, hg, rfl⟩
    exact ⟨(s, xy), he, g, hg, rfl, rfl⟩

/-! ### The linear method -/

/-- Two cameras turned the same way, and the point in front of them. -/
noncomputable def turned : M3 := !![4 / 5, 0, 3 / 5; 0, 1, 0; -3 / 5, 0, 4 / 5]

/-- `triangulate_dlt` refines with the bearings of the camera frames: two cameras that see a point exactly, for which the
linear method is exact, and for which the refinement prefers another point: its error is zero there and not at the point. -/
theorem C86_dlt_frame : ∃ (shots : ℕ → Option GShot) (obs : Dict ℕ Coord) (X Y : V3),
    (∀ s g, shots s = some g → g.R * g.Rᵀ = 1 ∧ ∀ xy, g.bearing xy ⬝ᵥ g.bearing xy = 1) ∧ obs.length = 2 ∧
    (∀ e ∈ obs, ∃ g, shots e.1 = some g ∧ ∃ d : ℝ, 0 < d ∧ g.R *ᵥ (X - g.center) = d • g.bearing e.2) ∧
    dltCost (dltObs shots obs) (X, 1) = 0 ∧ bearingCost ((trackRays shots obs).map (·.2)) X = 0 ∧
    bearingCost (dltRefineRays shots obs) Y = 0 ∧ 0 < bearingCost (dltRefineRays shots obs) X := by
  have hR : turned * turnedᵀ = 1 := by
    unfold turned
    ext i j
    fin_cases i <;> fin_cases j <;> simp [Matrix.mul_apply, Fin.sum_univ_three] <;> norm_num
  have hn1 : ∀ v : V3, ∀ d : ℝ, 0 < d → ∀ b : V3, b ⬝ᵥ b = 1 → v = d • b → normalized v - b = 0 := by
    intro v d hd b hb hv
    rw [hv, normalized_smul hd hb, sub_self]
  have hb1 : (![3 / 5, 0, 4 / 5] : V3) ⬝ᵥ ![3 / 5, 0, 4 / 5] = 1 := by simp [dot3]; norm_num
  have hb2 : (![0, 0, 1] : V3) ⬝ᵥ ![0, 0, 1] = 1 := by simp [dot3]
  have hw1 : turnedᵀ *ᵥ ![3 / 5, 0, 4 / 5] = ![0, 0, 1] := by
    unfold turned
    ext i
    fin_cases i <;> simp [Matrix.mulVec, dot3] <;> norm_num
  have hw2 : turnedᵀ *ᵥ ![0, 0, 1] = ![-3 / 5, 0, 4 / 5] := by
    unfold turned
    ext i
    fin_cases i <;> simp [Matrix.mulVec, dot3]
  have hb3 : (![-3 / 5, 0, 4 / 5] : V3) ⬝ᵥ ![-3 / 5, 0, 4 / 5] = 1 := by simp [dot3]; norm_num
  have hp1 : turned *ᵥ ![0, 0, 4] = (4 : ℝ) • ![3 / 5, 0, 4 / 5] := by
    unfold turned
    ext i
    fin_cases i <;> simp [Matrix.mulVec, dot3] <;> norm_num
  have hp2 : turned *ᵥ ![-3, 0, 4] = (5 : ℝ) • ![0, 0, 1] := by
    unfold turned
    ext i
    fin_cases i <;> simp [Matrix.mulVec, dot3] <;> norm_num
  have hsub : (![0, 0, 4] : V3) - ![3, 0, 0] = ![-3, 0, 4] := by
    ext i
    fin_cases i <;> simp
  refine ⟨fun s => if s = 0 then some ⟨0, turned, fun _ => ![3 / 5, 0, 4 / 5]⟩ else if s = 1 then
    some ⟨![3, 0, 0], turned, fun _ => ![0, 0, 1]⟩ else none, [(0, (0, 0)), (1, (0, 0))], ![0, 0, 4], ![3, 0, 4], ?_, rfl, ?_,
    ?_, ?_, ?_, ?_⟩
  · intro s g hg
    simp only at hg
    split at hg
    · cases hg; exact ⟨hR, fun _ => hb1⟩
    · split at hg
      · cases hg; exact ⟨hR, fun _ => hb2⟩
      · exact absurd hg (by simp)
  · intro e he
    simp only [List.mem_cons, List.not_mem_nil, or_false] at he
    rcases he with rfl | rfl
    · exact ⟨_, rfl, 4, by norm_num, by simpa using hp1⟩
    · refine ⟨_, rfl, 5, by norm_num, ?_⟩
      simp only
      rw [hsub]
      exact hp2
  · have ha1 : Cam.apply ⟨turned, -(turned *ᵥ 0)⟩ ![0, 0, 4] 1 = (4 : ℝ) • ![3 / 5, 0, 4 / 5] := by
      unfold Cam.apply
      simp only [mulVec_zero, neg_zero, smul_zero, add_zero]
      exact hp1
    have ha2 : Cam.apply ⟨turned, -(turned *ᵥ ![3, 0, 0])⟩ ![0, 0, 4] 1 = (5 : ℝ) • ![0, 0, 1] := by
      unfold Cam.apply
      simp only [one_smul]
      rw [← hp2, ← hsub, mulVec_sub, sub_eq_add_neg]
    unfold dltCost dltObs
    simp only [List.filterMap_cons, List.filterMap_nil, if_true, Option.map_some, one_ne_zero, if_false, List.map_cons,
      List.map_nil, List.sum_cons, List.sum_nil]
    unfold dltRows
    simp only
    rw [ha1, ha2]
    simp
    norm_num
  · unfold bearingCost trackRays
    simp only [List.filterMap_cons, List.filterMap_nil, if_true, Option.map_some, one_ne_zero, if_false, List.map_cons,
      List.map_nil, List.sum_cons, List.sum_nil]
    rw [hw1, hw2, hsub, hn1 (![0, 0, 4] - 0) 4 (by norm_num) ![0, 0, 1] hb2 (by simp),
      hn1 ![-3, 0, 4] 5 (by norm_num) ![-3 / 5, 0, 4 / 5] hb3 (by ext i; fin_cases i <;> simp <;> norm_num)]
    simp
  · unfold bearingCost dltRefineRays
    simp only [List.filterMap_cons, List.filterMap_nil, if_true, Option.map_some, one_ne_zero, if_false, List.map_cons,
      List.map_nil, List.sum_cons, List.sum_nil]
    rw [hn1 (![3, 0, 4] - 0) 5 (by norm_num) ![3 / 5, 0, 4 / 5] hb1 (by ext i; fin_cases i <;> simp <;> norm_num),
      hn1 (![3, 0, 4] - ![3, 0, 0]) 4 (by norm_num) ![0, 0, 1] hb2 (by ext i; fin_cases i <;> simp)]
    simp
  · unfold bearingCost dltRefineRays
    simp only [List.filterMap_cons, List.filterMap_nil, if_true, Option.map_some, one_ne_zero, if_false, List.map_cons,
      List.map_nil, List.sum_cons, List.sum_nil]
    have h1 : normalized ((![0, 0, 4] : V3) - 0) = ![0, 0, 1] := by
      rw [show (![0, 0, 4] : V3) - 0 = (4 : ℝ) • ![0, 0, 1] by simp]
      exact normalized_smul (by norm_num) hb2
    rw [h1]
    have h2 := dot_self_nonneg (normalized ((![0, 0, 4] : V3) - ![3, 0, 0]) - ![0, 0, 1])
    have h3 : 0 < ((![0, 0, 1] : V3) - ![3 / 5, 0, 4 / 5]) ⬝ᵥ (![0, 0, 1] - ![3 / 5, 0, 4 / 5]) := by
      simp [dot3]; norm_num
    linarith

end Verif.TrackTriangulator
