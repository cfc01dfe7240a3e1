import Verif.Model.BundleAlign
import Verif.Props.Align
import Verif.Model.Pose

/-!
C96: ground control points and the alignment method in the full bundle adjustment.
-/
set_option linter.unusedSectionVars false
set_option linter.unusedSimpArgs false
namespace Verif.BundleAlign
open Matrix Verif.Superimpose
open Verif.Align (IsEig OnLine)
variable {Id Px : Type} [DecidableEq Id]

/-! ### Specification -/

/-- The rays of a list of observations: those in shots that are not in the map are left out. -/
inductive Rays (shots : Dict Id (MShot Px)) : List (Id × Px) → List (Vec 3 × Vec 3) → Prop
  | nil : Rays shots [] []
  | skip {s : Id} {p : Px} {o : List (Id × Px)} {l : List (Vec 3 × Vec 3)} (h : shots.get? s = none) (hl : Rays shots o l) :
      Rays shots ((s, p) :: o) l
  | take {s : Id} {p : Px} {o : List (Id × Px)} {l : List (Vec 3 × Vec 3)} {sh : MShot Px} (h : shots.get? s = some sh)
      (hl : Rays shots o l) : Rays shots ((s, p) :: o) ((sh.origin, sh.ray p) :: l)

/-- The control point is seen by two or more shots of the map, and their rays meet in `x`. -/
def Tri (mid : List (Vec 3 × Vec 3) → Option (Vec 3)) (shots : Dict Id (MShot Px)) (g : Gcp Id Px) (x : Vec 3) : Prop :=
  ∃ l : List (Vec 3 × Vec 3), Rays shots g.obs l ∧ 2 ≤ l.length ∧ mid l = some x

/-- The matrix of the scatter of some points. -/
noncomputable def scatter (l : List (Vec 3)) : Mat 3 :=
  (l.map (fun x => vecMulVec (x - (1 / (l.length : ℝ)) • l.sum) (x - (1 / (l.length : ℝ)) • l.sum))).sum

/-! ### Helpers -/

theorem rays_spec (shots : Dict Id (MShot Px)) : ∀ (o : List (Id × Px)),
    Rays shots o (o.filterMap (fun o => (shots.get? o.1).map (fun s => (s.origin, s.ray o.2))))
  | [] => .nil
  | (s, p) :: o => by
    rcases h : shots.get? s with _ | sh
    · simp only [List.filterMap_cons, h, Option.map_none]
      exact .skip h (rays_spec shots o)
    · simp only [List.filterMap_cons, h, Option.map_some]
      exact .take h (rays_spec shots o)

theorem rays_unique (shots : Dict Id (MShot Px)) {o : List (Id × Px)} {l l' : List (Vec 3 × Vec 3)} (h : Rays shots o l)
    (h' : Rays shots o l') : l = l' := by
  induction h generalizing l' with
  | nil => cases h'; rfl
  | skip h _ ih =>
    cases h' with
    | skip _ h2 => exact ih h2
    | take h1 _ => rw [h] at h1; exact absurd h1 (by simp)
  | take h _ ih =>
    cases h' with
    | skip h1 _ => rw [h] at h1; exact absurd h1 (by simp)
    | take h1 h2 =>
      rw [h] at h1
      obtain rfl := Option.some.inj h1
      rw [ih h2]

theorem triangulate_iff (mid : List (Vec 3 × Vec 3) → Option (Vec 3)) (shots : Dict Id (MShot Px)) (g : Gcp Id Px) (x : Vec 3) :
    triangulate mid shots g = some x ↔ Tri mid shots g x := by
  have hr : Rays shots g.obs (rays shots g) := rays_spec shots g.obs
  unfold triangulate
  constructor
  · intro h
    split at h
    · exact ⟨_, hr, by assumption, h⟩
    · exact absurd h (by simp)
  · rintro ⟨l, h1, h2, h3⟩
    obtain rfl := rays_unique shots h1 hr
    rw [if_pos h2]
    exact h3

theorem triangulate_none (mid : List (Vec 3 × Vec 3) → Option (Vec 3)) (shots : Dict Id (MShot Px)) (g : Gcp Id Px) :
    triangulate mid shots g = none ↔ ∀ x, ¬ Tri mid shots g x := by
  constructor
  · intro h x hx
    rw [(triangulate_iff mid shots g x).2 hx] at h
    exact absurd h (by simp)
  · intro h
    rcases ht : triangulate mid shots g with _ | x
    · rfl
    · exact absurd ((triangulate_iff mid shots g x).1 ht) (h x)

theorem gcpRows_length (mid : List (Vec 3 × Vec 3) → Option (Vec 3)) (shots : Dict Id (MShot Px)) (gcp : List (Gcp Id Px)) :
    (gcpRows mid shots gcp).length ≤ gcp.length := List.length_filterMap_le _ _

theorem gpsRows_length (shots : Dict Id (MShot Px)) : (gpsRows shots).length = (shots.filter (fun e => e.2.gps.isSome)).length := by
  unfold gpsRows
  induction shots with
  | nil => rfl
  | cons e l ih =>
    rcases h : e.2.gps with _ | p
    · simp only [List.filterMap_cons, List.filter_cons, h, Option.map_none, Option.isSome_none]
      exact ih
    · simp only [List.filterMap_cons, List.filter_cons, h, Option.map_some, Option.isSome_some, if_true, List.length_cons, ih]

theorem detect_eq (eig : Mat 3 → Vec 3) (X : List (Vec 3)) :
    detect eig X = if Align.wellConditioned eig (X.map (fun x => (x, x))) = true then "naive" else "orientation_prior" := by
  have hm : (X.map (fun x => (x, x))).map Prod.fst = X := by
    rw [List.map_map]; exact List.map_id X
  have h2 : ((X.map (fun x => (x, x))).map (fun p => p.1 - mean X)).map (fun x => vecMulVec x x) =
      X.map (fun x => vecMulVec (x - mean X) (x - mean X)) := by
    rw [List.map_map, List.map_map]; rfl
  unfold detect Align.wellConditioned
  rw [List.length_map]
  split
  · simp
  · simp only [hm, h2]
    generalize eig ((X.map (fun x => vecMulVec (x - mean X) (x - mean X))).sum) = e
    generalize ((if e 0 < 1 / 10 ^ 10 then 1 else 0) + (if e 1 < 1 / 10 ^ 10 then 1 else 0) +
      (if e 2 < 1 / 10 ^ 10 then 1 else 0) : ℕ) = n
    by_cases h : n > 1 ∨ |e 2 / e 1| > 5000
    · rw [if_pos h, decide_eq_true h]
      rfl
    · rw [if_neg h, decide_eq_false h]
      rfl

theorem mean_eq (l : List (Vec 3)) : mean l = (1 / (l.length : ℝ)) • l.sum := by
  unfold mean
  rw [one_div]

theorem mem_gcpRows (mid : List (Vec 3 × Vec 3) → Option (Vec 3)) (shots : Dict Id (MShot Px)) (gcp : List (Gcp Id Px)) (x m : Vec 3) :
    (x, m) ∈ gcpRows mid shots gcp ↔ ∃ g ∈ gcp, g.lla = some m ∧ Tri mid shots g x := by
  unfold gcpRows
  rw [List.mem_filterMap]
  constructor
  · rintro ⟨g, hg, h⟩
    rcases hl : g.lla with _ | m'
    · rw [hl] at h; exact absurd h (by simp)
    · rw [hl] at h
      simp only [Option.map_eq_some_iff, Prod.mk.injEq] at h
      obtain ⟨y, hy, rfl, rfl⟩ := h
      exact ⟨g, hg, hl, (triangulate_iff _ _ _ _).1 hy⟩
  · rintro ⟨g, hg, hl, ht⟩
    refine ⟨g, hg, ?_⟩
    rw [hl, (triangulate_iff _ _ _ _).2 ht]
    rfl

theorem mem_gpsRows (shots : Dict Id (MShot Px)) (x m : Vec 3) :
    (x, m) ∈ gpsRows shots ↔ ∃ e ∈ shots, e.2.gps = some m ∧ e.2.origin = x := by
  unfold gpsRows
  rw [List.mem_filterMap]
  constructor
  · rintro ⟨e, he, h⟩
    simp only [Option.map_eq_some_iff, Prod.mk.injEq] at h
    obtain ⟨y, hy, rfl, rfl⟩ := h
    exact ⟨e, he, hy, rfl⟩
  · rintro ⟨e, he, h, rfl⟩
    exact ⟨e, he, by rw [h]; rfl⟩

theorem gcpRows_full (mid : List (Vec 3 × Vec 3) → Option (Vec 3)) (shots : Dict Id (MShot Px)) (gcp : List (Gcp Id Px)) :
    (gcpRows mid shots gcp).length = gcp.length ↔ ∀ g ∈ gcp, g.lla.isSome ∧ ∃ x, Tri mid shots g x := by
  induction gcp with
  | nil => simp [gcpRows]
  | cons g l ih =>
    have hle := gcpRows_length mid shots l
    have hc : gcpRows mid shots (g :: l) = (match g.lla with
        | none => none
        | some m => (triangulate mid shots g).map (fun x => (x, m))).toList ++ gcpRows mid shots l := by
      unfold gcpRows
      rcases hl : g.lla with _ | m
      · simp [List.filterMap_cons, hl]
      · rcases ht : triangulate mid shots g with _ | x
        · simp [List.filterMap_cons, hl, ht]
        · simp [List.filterMap_cons, hl, ht]
    rw [hc, List.length_append, List.length_cons]
    rcases hl : g.lla with _ | m
    · simp only [Option.toList_none, List.length_nil, List.mem_cons, forall_eq_or_imp, hl, Option.isSome_none]
      constructor
      · omega
      · rintro ⟨⟨h, -⟩, -⟩; exact absurd h (by simp)
    · rcases ht : triangulate mid shots g with _ | x
      · simp only [Option.map_none, Option.toList_none, List.length_nil, List.mem_cons, forall_eq_or_imp, hl]
        constructor
        · omega
        · rintro ⟨⟨-, x, hx⟩, -⟩
          exact absurd hx ((triangulate_none _ _ _).1 ht x)
      · simp only [Option.map_some, Option.toList_some, List.length_cons, List.length_nil, List.mem_cons, forall_eq_or_imp, hl,
          Option.isSome_some, true_and]
        rw [← ih]
        constructor
        · intro h
          exact ⟨⟨x, (triangulate_iff _ _ _ _).1 ht⟩, by omega⟩
        · rintro ⟨-, h⟩; omega

/-! ### Alignment -/

/-- The table from which the method is chosen has one row for every control point and one for every shot with a GPS position, as far as
they are used. The first rows are the reconstructed positions of the control points that have a measured position and can be
triangulated, and of the shots with a GPS position. The other rows are not initialised: there is one for every control point that has no
measured position or cannot be triangulated. -/
theorem C96_rows (junk : ℕ → Vec 3) (mid : List (Vec 3 × Vec 3) → Option (Vec 3)) (cfg : Cfg) (shots : Dict Id (MShot Px))
    (gcp : List (Gcp Id Px)) :
    ∃ located rest : List (Vec 3), matrixX junk mid cfg shots gcp = located ++ rest ∧
      (located ++ rest).length = (if cfg.useGcp then gcp.length else 0) +
        (if cfg.useGps then (shots.filter (fun e => e.2.gps.isSome)).length else 0) ∧
      (∀ x, x ∈ located ↔ (cfg.useGcp = true ∧ ∃ g ∈ gcp, ∃ m, g.lla = some m ∧ Tri mid shots g x) ∨
        (cfg.useGps = true ∧ ∃ e ∈ shots, ∃ p, e.2.gps = some p ∧ e.2.origin = x)) ∧
      (∀ (k : ℕ) (x : Vec 3), rest[k]? = some x → x = junk (located.length + k)) ∧
      (rest = [] ↔ (cfg.useGcp = true → ∀ g ∈ gcp, g.lla.isSome ∧ ∃ x, Tri mid shots g x)) := by
  have hA : (if gcp ≠ [] ∧ cfg.useGcp then gcp.length else 0) = (if cfg.useGcp then gcp.length else 0) := by
    rcases gcp with _ | ⟨g, l⟩
    · simp
    · simp
  have hB : (if gcp ≠ [] ∧ cfg.useGcp then gcpRows mid shots gcp else []) = (if cfg.useGcp then gcpRows mid shots gcp else []) := by
    rcases gcp with _ | ⟨g, l⟩
    · simp [gcpRows]
    · simp
  have hg := gcpRows_length mid shots gcp
  have hs := gpsRows_length shots
  have hw : (written mid cfg shots gcp).length = (if cfg.useGcp then (gcpRows mid shots gcp).length else 0) +
      (if cfg.useGps then (gpsRows shots).length else 0) := by
    unfold written
    rw [hB, List.length_append]
    congr 1 <;> split <;> rfl
  have hr : reserve cfg shots gcp = (if cfg.useGcp then gcp.length else 0) +
      (if cfg.useGps then (gpsRows shots).length else 0) := by
    unfold reserve
    rw [hA, hs]
  refine ⟨(written mid cfg shots gcp).map (·.1), (List.range (reserve cfg shots gcp - (written mid cfg shots gcp).length)).map
    (fun k => junk ((written mid cfg shots gcp).length + k)), rfl, ?_, ?_, ?_, ?_⟩
  · rw [List.length_append, List.length_map, List.length_map, List.length_range, hr, hw, ← hs]
    split <;> split <;> omega
  · intro x
    unfold written
    rw [hB, List.map_append, List.mem_append, List.mem_map, List.mem_map]
    apply or_congr
    · constructor
      · rintro ⟨⟨x', m⟩, hm, rfl⟩
        split at hm
        · rename_i hu
          obtain ⟨g, hg, hl, ht⟩ := (mem_gcpRows _ _ _ _ _).1 hm
          exact ⟨hu, g, hg, m, hl, ht⟩
        · exact absurd hm (by simp)
      · rintro ⟨hu, g, hg, m, hl, ht⟩
        exact ⟨(x, m), by rw [if_pos hu]; exact (mem_gcpRows _ _ _ _ _).2 ⟨g, hg, hl, ht⟩, rfl⟩
    · constructor
      · rintro ⟨⟨x', m⟩, hm, rfl⟩
        split at hm
        · rename_i hu
          obtain ⟨e, he, hl, ht⟩ := (mem_gpsRows _ _ _).1 hm
          exact ⟨hu, e, he, m, hl, ht⟩
        · exact absurd hm (by simp)
      · rintro ⟨hu, e, he, m, hl, ht⟩
        exact ⟨(x, m), by rw [if_pos hu]; exact (mem_gpsRows _ _ _).2 ⟨e, he, hl, ht⟩, rfl⟩
  · intro k x h
    rw [List.getElem?_map, Option.map_eq_some_iff] at h
    obtain ⟨j, hj, rfl⟩ := h
    obtain ⟨hk, rfl⟩ := List.getElem?_eq_some_iff.1 hj
    rw [List.length_map, List.getElem_range]
  · rw [List.map_eq_nil_iff, List.range_eq_nil, hr, hw, ← gcpRows_full]
    by_cases hu : cfg.useGcp = true
    · simp only [hu, if_true, forall_const]
      split <;> omega
    · simp only [hu]
      simp

/-- If no row is missing, the automatic choice is "naive" exactly if there are at least three rows, the second largest eigenvalue of their
scatter is at least 1e-10 and the largest is at most 5000 times it; else it is "orientation_prior". A configured method is taken as it
is. -/
theorem C96_choice (junk : ℕ → Vec 3) (mid : List (Vec 3 × Vec 3) → Option (Vec 3)) (eig : Mat 3 → Vec 3)
    (he : ∀ M, M.IsSymm → IsEig M (eig M)) (cfg : Cfg) (shots : Dict Id (MShot Px)) (gcp : List (Gcp Id Px)) :
    (cfg.method ≠ "auto" → methodOf junk mid eig cfg shots gcp = cfg.method) ∧
    (cfg.method = "auto" → ∀ X, X = matrixX junk mid cfg shots gcp → ∀ e : Vec 3, e = eig (scatter X) →
      (methodOf junk mid eig cfg shots gcp = "naive" ∨ methodOf junk mid eig cfg shots gcp = "orientation_prior") ∧
      (methodOf junk mid eig cfg shots gcp = "naive" ↔ 3 ≤ X.length ∧ 1 / 10 ^ 10 ≤ e 1 ∧ e 2 ≤ 5000 * e 1) ∧
      (methodOf junk mid eig cfg shots gcp = "naive" → ¬ OnLine X)) := by
  refine ⟨fun h => by unfold methodOf; rw [if_neg h], fun h X hX e hee => ?_⟩
  have hm : methodOf junk mid eig cfg shots gcp = detect eig X := by unfold methodOf; rw [if_pos h, hX]
  have hfst : (X.map (fun x => (x, x))).map Prod.fst = X := by rw [List.map_map]; exact List.map_id X
  have hsc : ((X.map (fun x => (x, x))).map (fun p => vecMulVec (p.1 - mean ((X.map (fun x => (x, x))).map (·.1)))
      (p.1 - mean ((X.map (fun x => (x, x))).map (·.1))))).sum = scatter X := by
    rw [hfst, List.map_map]
    unfold scatter
    rw [← mean_eq]
    rfl
  have hiff := Align.C89_auto_iff eig he (X.map (fun x => (x, x))) e (by rw [hee, hsc])
  rw [List.length_map] at hiff
  rw [hm, detect_eq, ← hiff]
  refine ⟨?_, ?_, ?_⟩
  · split
    · exact Or.inl rfl
    · exact Or.inr rfl
  · split
    · rename_i h1; simp [h1]
    · rename_i h1; simp [h1]
  · intro h1
    split at h1
    · rename_i h2
      have := (Align.C89_auto eig he _ h2).2
      rwa [hfst] at this
    · exact absurd h1 (by decide)

/-- With the method "orientation_prior" every shot gets one term that wants its up vector to be that of a camera looking at the horizon
(`horizontal`) or straight down (`vertical`), with standard deviation 1e-3; with any other method, or another configured prior such as
`no_roll`, no shot gets one. -/
theorem C96_up (junk : ℕ → Vec 3) (mid : List (Vec 3 × Vec 3) → Option (Vec 3)) (eig : Mat 3 → Vec 3) (cfg : Cfg)
    (shots : Dict Id (MShot Px)) (gcp : List (Gcp Id Px)) :
    (∀ (s : Id) (u : Vec 3) (sd : ℝ), (s, u, sd) ∈ upTerms junk mid eig cfg shots gcp ↔
      s ∈ shots.map Prod.fst ∧ sd = 1 / 1000 ∧ methodOf junk mid eig cfg shots gcp = "orientation_prior" ∧
        (cfg.orientationPrior = "vertical" ∧ u = ![0, 0, -1] ∨ cfg.orientationPrior = "horizontal" ∧ u = ![0, -1, 0])) ∧
    (upTerms junk mid eig cfg shots gcp ≠ [] → (upTerms junk mid eig cfg shots gcp).map Prod.fst = shots.map Prod.fst) := by
  have key : ∀ o : Option (Vec 3), upVector cfg (methodOf junk mid eig cfg shots gcp) = o →
      upTerms junk mid eig cfg shots gcp = (match o with | none => [] | some u => shots.map (fun e => (e.1, u, (1 / 1000 : ℝ)))) := by
    intro o ho; unfold upTerms; rw [ho]; cases o <;> rfl
  have hu : ∀ u : Vec 3, upVector cfg (methodOf junk mid eig cfg shots gcp) = some u ↔
      methodOf junk mid eig cfg shots gcp = "orientation_prior" ∧
        (cfg.orientationPrior = "vertical" ∧ u = ![0, 0, -1] ∨ cfg.orientationPrior = "horizontal" ∧ u = ![0, -1, 0]) := by
    intro u
    unfold upVector
    generalize methodOf junk mid eig cfg shots gcp = mth
    by_cases h1 : mth = "orientation_prior"
    · rw [if_pos h1]
      by_cases h2 : cfg.orientationPrior = "vertical"
      · rw [if_pos h2]
        have h3 : cfg.orientationPrior ≠ "horizontal" := by rw [h2]; decide
        simp only [Option.some.injEq, h1, h2, true_and]
        constructor
        · intro h; exact Or.inl h.symm
        · rintro (h | ⟨h, -⟩)
          · exact h.symm
          · exact absurd h (by decide)
      · rw [if_neg h2]
        by_cases h3 : cfg.orientationPrior = "horizontal"
        · rw [if_pos h3]
          simp only [Option.some.injEq, h1, true_and]
          constructor
          · intro h; exact Or.inr ⟨h3, h.symm⟩
          · rintro (⟨h, -⟩ | ⟨-, h⟩)
            · exact absurd h h2
            · exact h.symm
        · rw [if_neg h3]
          simp [h2, h3]
    · rw [if_neg h1]
      simp [h1]
  rcases ho : upVector cfg (methodOf junk mid eig cfg shots gcp) with _ | u'
  · have := key none ho
    simp only at this
    rw [this]
    refine ⟨fun s u sd => ?_, fun h => absurd rfl h⟩
    simp only [List.not_mem_nil, false_iff]
    rintro ⟨-, -, h⟩
    have := (hu u).2 h
    rw [ho] at this
    exact absurd this (by simp)
  · have := key (some u') ho
    simp only at this
    rw [this]
    refine ⟨fun s u sd => ?_, fun _ => by rw [List.map_map]; rfl⟩
    rw [← hu u, ho, List.mem_map, List.mem_map]
    constructor
    · rintro ⟨e, he, h⟩
      simp only [Prod.mk.injEq] at h
      obtain ⟨rfl, rfl, rfl⟩ := h
      exact ⟨⟨e, he, rfl⟩, rfl, rfl⟩
    · rintro ⟨⟨e, he, rfl⟩, rfl, h⟩
      obtain rfl := Option.some.inj h
      exact ⟨e, he, rfl⟩

/-! ### Weights -/

/-- The number of residual terms of a control point that count for the weight: one for the point if it can be triangulated or has a
measured position, and one for every observation in a shot of the map. -/
noncomputable def counted (mid : List (Vec 3 × Vec 3) → Option (Vec 3)) (shots : Dict Id (MShot Px)) (g : Gcp Id Px) : ℕ :=
  open Classical in
  (if (∃ x, Tri mid shots g x) ∨ g.lla ≠ none then 1 else 0) + (g.obs.filter (fun o => decide (o.1 ∈ shots.map Prod.fst))).length

theorem has_iff (shots : Dict Id (MShot Px)) (s : Id) : shots.has s = true ↔ s ∈ shots.map Prod.fst := by
  exact Dict.has_iff_mem shots s

theorem countPoint_eq (mid : List (Vec 3 × Vec 3) → Option (Vec 3)) (shots : Dict Id (MShot Px)) (g : Gcp Id Px) :
    countPoint mid shots g = counted mid shots g := by
  unfold countPoint counted
  congr 1
  · congr 1
    simp only [Bool.or_eq_true, eq_iff_iff]
    apply or_congr
    · rw [Option.isSome_iff_exists]
      exact exists_congr (fun x => triangulate_iff _ _ _ _)
    · rw [Option.isSome_iff_ne_none]
  · congr 1
    apply List.filter_congr
    intro o _
    rw [Bool.eq_iff_iff, has_iff, decide_eq_true_eq]

theorem weight_eq (mid : List (Vec 3 × Vec 3) → Option (Vec 3)) (cfg : Cfg) (shots : Dict Id (MShot Px)) (gcp : List (Gcp Id Px))
    (dominant : ℕ) : weight mid cfg shots gcp dominant =
      cfg.globalWeight * dominant / ((max 1 ((gcp.map (counted mid shots)).sum) : ℕ) : ℝ) := by
  unfold weight
  rw [show countPoint mid shots = counted mid shots from funext (countPoint_eq mid shots)]

/-- Every term of a control point gets the same weight `w`: the weights of all counted terms together are the configured fraction of the
number of the other terms. -/
theorem C96_weight (mid : List (Vec 3 × Vec 3) → Option (Vec 3)) (cfg : Cfg) (shots : Dict Id (MShot Px)) (gcp : List (Gcp Id Px))
    (dominant : ℕ) :
    ∃ w : ℝ, (0 < (gcp.map (counted mid shots)).sum → (gcp.map (counted mid shots)).sum * w = cfg.globalWeight * dominant) ∧
      ((gcp.map (counted mid shots)).sum = 0 → gcpTerms mid cfg shots gcp dominant = []) ∧
      (∀ (i : Id) (x : Vec 3), .point i x ∈ gcpTerms mid cfg shots gcp dominant ↔ ∃ g ∈ gcp, g.id = i ∧
        (Tri mid shots g x ∨ (∀ y, ¬ Tri mid shots g y) ∧ g.lla = some x)) ∧
      (∀ (i : Id) (p sd : Vec 3) (a : Bool), .prior i p sd a ∈ gcpTerms mid cfg shots gcp dominant ↔ ∃ g ∈ gcp, g.id = i ∧
        g.lla = some p ∧ a = g.hasAltitude ∧ sd = ![cfg.horizontalSd / w, cfg.horizontalSd / w, cfg.verticalSd / w]) ∧
      (∀ (s i : Id) (px : Px) (scale : ℝ), .obs s i px scale ∈ gcpTerms mid cfg shots gcp dominant ↔ ∃ g ∈ gcp, g.id = i ∧
        (s, px) ∈ g.obs ∧ s ∈ shots.map Prod.fst ∧ scale = 0.001 / w ∧ ((∃ x, Tri mid shots g x) ∨ g.lla ≠ none)) := by
  have hsd : ∀ w : ℝ, (1 / w) • ![cfg.horizontalSd, cfg.horizontalSd, cfg.verticalSd] =
      ![cfg.horizontalSd / w, cfg.horizontalSd / w, cfg.verticalSd / w] := by
    intro w
    funext k
    fin_cases k <;> simp [div_eq_inv_mul]
  have hsc : ∀ w : ℝ, (1 / 1000 / w : ℝ) = 0.001 / w := by intro w; norm_num
  refine ⟨weight mid cfg shots gcp dominant, ?_, ?_, ?_, ?_, ?_⟩
  · intro h
    rw [weight_eq, max_eq_right h]
    have : (((gcp.map (counted mid shots)).sum : ℕ) : ℝ) ≠ 0 := by positivity
    field_simp
  · intro h
    unfold gcpTerms
    rw [List.flatMap_eq_nil_iff]
    intro g hg
    have h0 : counted mid shots g = 0 := List.sum_eq_zero_iff.1 h _ (List.mem_map_of_mem hg)
    unfold counted at h0
    split at h0
    · omega
    · rename_i hn
      push Not at hn
      unfold pointTerms
      rw [(triangulate_none _ _ _).2 hn.1, hn.2]
  all_goals
    unfold gcpTerms
    generalize weight mid cfg shots gcp dominant = w
  · intro i x
    rw [List.mem_flatMap]
    refine exists_congr fun g => and_congr_right fun _ => ?_
    unfold pointTerms
    simp only
    rcases ht : triangulate mid shots g with _ | y
    · have hn := (triangulate_none _ _ _).1 ht
      rcases hl : g.lla with _ | m
      · simp only [List.not_mem_nil, false_iff]
        rintro ⟨-, h | ⟨-, h⟩⟩
        · exact hn _ h
        · exact absurd h (by simp)
      · simp only [List.mem_cons, Term.point.injEq, List.cons_append, List.nil_append, List.mem_map, reduceCtorEq, and_false,
          exists_false, or_false]
        constructor
        · rintro ⟨rfl, rfl⟩; exact ⟨rfl, Or.inr ⟨hn, rfl⟩⟩
        · rintro ⟨rfl, h | ⟨-, h⟩⟩
          · exact absurd h (hn _)
          · exact ⟨rfl, (Option.some.inj h).symm⟩
    · have hy := (triangulate_iff _ _ _ _).1 ht
      have : (∀ x', Tri mid shots g x' → x' = y) := fun x' hx' => by
        rw [(triangulate_iff _ _ _ _).2 hx'] at ht; exact Option.some.inj ht
      constructor
      · intro h
        rcases hl : g.lla with _ | m <;> rw [hl] at h <;>
          simp only [List.mem_cons, Term.point.injEq, List.cons_append, List.nil_append, List.mem_map, reduceCtorEq, and_false,
            exists_false, or_false, false_or] at h
        all_goals
          obtain ⟨rfl, rfl⟩ := h
          exact ⟨rfl, Or.inl hy⟩
      · rintro ⟨rfl, h | ⟨h, -⟩⟩
        · rw [this x h]; exact List.mem_cons_self
        · exact absurd hy (h y)
  · intro i p sd a
    rw [List.mem_flatMap]
    refine exists_congr fun g => and_congr_right fun _ => ?_
    unfold pointTerms
    simp only [hsd]
    rcases ht : triangulate mid shots g with _ | y
    all_goals
      rcases hl : g.lla with _ | m
      · simp
      · simp only [List.mem_cons, Term.prior.injEq, List.cons_append, List.nil_append, List.mem_map, reduceCtorEq, and_false,
          exists_false, or_false, false_or, Option.some.injEq]
        constructor
        · rintro ⟨rfl, rfl, rfl, rfl⟩; exact ⟨rfl, rfl, rfl, rfl⟩
        · rintro ⟨rfl, rfl, rfl, rfl⟩; exact ⟨rfl, rfl, rfl, rfl⟩
  · intro s i px scale
    rw [List.mem_flatMap]
    refine exists_congr fun g => and_congr_right fun _ => ?_
    have hobs : .obs s i px scale ∈ ((g.obs.filter (fun o => shots.has o.1)).map
        (fun o => (Term.obs o.1 g.id o.2 (1 / 1000 / w) : Term Id Px))) ↔ g.id = i ∧
          (s, px) ∈ g.obs ∧ s ∈ shots.map Prod.fst ∧ scale = 0.001 / w := by
      rw [List.mem_map]
      constructor
      · rintro ⟨o, ho, h⟩
        simp only [Term.obs.injEq] at h
        obtain ⟨rfl, rfl, rfl, rfl⟩ := h
        rw [List.mem_filter, has_iff] at ho
        exact ⟨rfl, ho.1, ho.2, hsc w⟩
      · rintro ⟨rfl, h1, h2, rfl⟩
        exact ⟨(s, px), List.mem_filter.2 ⟨h1, (has_iff _ _).2 h2⟩, by rw [hsc]⟩
    unfold pointTerms
    simp only
    rcases ht : triangulate mid shots g with _ | y
    · have hn := (triangulate_none _ _ _).1 ht
      rcases hl : g.lla with _ | m
      · simp [hn]
      · simp only [List.mem_cons, reduceCtorEq, List.cons_append, List.nil_append, false_or, hobs, ne_eq, not_false_eq_true, or_true,
          and_true]
    · have hy : ∃ x, Tri mid shots g x := ⟨y, (triangulate_iff _ _ _ _).1 ht⟩
      rcases hl : g.lla with _ | m
      · simp only [List.mem_cons, reduceCtorEq, List.nil_append, false_or, hobs, hy, true_or, and_true]
      · simp only [List.mem_cons, reduceCtorEq, List.cons_append, List.nil_append, false_or, hobs, hy, true_or, and_true]

/-- The number of residual blocks in a list of terms: priors and observations. -/
def blocks (l : List (Term Id Px)) : ℕ :=
  (l.filter (fun t => match t with | .point _ _ => false | _ => true)).length

theorem blocks_append (a b : List (Term Id Px)) : blocks (a ++ b) = blocks a + blocks b := by
  unfold blocks; rw [List.filter_append, List.length_append]

theorem blocks_obs (l : List (Id × Px)) (i : Id) (c : ℝ) : blocks (l.map (fun o => (Term.obs o.1 i o.2 c : Term Id Px))) = l.length := by
  unfold blocks
  rw [List.filter_eq_self.2, List.length_map]
  intro t ht
  obtain ⟨o, -, rfl⟩ := List.mem_map.1 ht
  rfl

/-- The counted terms are at least as many as the residual blocks that are added, so the control points never weigh more than
configured. They weigh less as soon as some point can be triangulated but has no measured position, or some point cannot be used at all
although it is seen in a shot of the map. -/
theorem C96_count (mid : List (Vec 3 × Vec 3) → Option (Vec 3)) (cfg : Cfg) (shots : Dict Id (MShot Px)) (gcp : List (Gcp Id Px))
    (dominant : ℕ) :
    blocks (gcpTerms mid cfg shots gcp dominant) ≤ (gcp.map (counted mid shots)).sum ∧
    (blocks (gcpTerms mid cfg shots gcp dominant) = (gcp.map (counted mid shots)).sum ↔
      ∀ g ∈ gcp, g.lla = none → (∀ x, ¬ Tri mid shots g x) ∧ ∀ o ∈ g.obs, o.1 ∉ shots.map Prod.fst) := by
  unfold gcpTerms
  generalize weight mid cfg shots gcp dominant = w
  have one : ∀ g : Gcp Id Px, blocks (pointTerms mid cfg shots w g) ≤ counted mid shots g ∧
      (blocks (pointTerms mid cfg shots w g) = counted mid shots g ↔
        (g.lla = none → (∀ x, ¬ Tri mid shots g x) ∧ ∀ o ∈ g.obs, o.1 ∉ shots.map Prod.fst)) := by
    intro g
    rw [← countPoint_eq]
    unfold countPoint pointTerms
    have hb : blocks ((g.obs.filter (fun o => shots.has o.1)).map (fun o => (Term.obs o.1 g.id o.2 (1 / 1000 / w) : Term Id Px))) =
      (g.obs.filter (fun o => shots.has o.1)).length := blocks_obs _ _ _
    have hp : ∀ (i : Id) (x : Vec 3) (l : List (Term Id Px)), blocks (.point i x :: l) = blocks l := fun i x l => rfl
    have hq : ∀ (i : Id) (x sd : Vec 3) (a : Bool) (l : List (Term Id Px)), blocks (.prior i x sd a :: l) = blocks l + 1 :=
      fun i x sd a l => rfl
    rcases ht : triangulate mid shots g with _ | y
    · have hn := (triangulate_none _ _ _).1 ht
      rcases hl : g.lla with _ | m
      · simp only [Option.isSome_none, Bool.or_false, Bool.false_eq_true, if_false, zero_add, forall_const]
        refine ⟨Nat.zero_le _, ?_⟩
        rw [show blocks ([] : List (Term Id Px)) = 0 from rfl, eq_comm, List.length_eq_zero_iff, List.filter_eq_nil_iff]
        simp only [hn, not_false_eq_true, implies_true, true_and]
        refine forall₂_congr fun o _ => ?_
        rw [has_iff]
      · simp only [Option.isSome_none, Option.isSome_some, Bool.false_or, if_true, hp, List.cons_append, List.nil_append, hq, hb]
        exact ⟨by omega, by simp; omega⟩
    · rcases hl : g.lla with _ | m
      · simp only [Option.isSome_some, Bool.true_or, if_true, hp, List.nil_append, hb, forall_const]
        refine ⟨by omega, ?_⟩
        constructor
        · intro h; omega
        · rintro ⟨h, -⟩; exact absurd ((triangulate_iff _ _ _ _).1 ht) (h y)
      · simp only [Option.isSome_some, Bool.true_or, if_true, hp, List.cons_append, List.nil_append, hq, hb]
        exact ⟨by omega, by simp; omega⟩
  induction gcp with
  | nil => simp [blocks]
  | cons g l ih =>
    rw [List.flatMap_cons, blocks_append, List.map_cons, List.sum_cons]
    have := one g
    refine ⟨by omega, ?_⟩
    simp only [List.mem_cons, forall_eq_or_imp]
    rw [← this.2, ← ih.2]
    omega

/-- The residuals of the prior of a point whose standard deviations are not below the machine epsilon: the differences to the measured
position divided by the standard deviations, for a point without altitude of the two horizontal coordinates only. -/
theorem C96_residual (p sd x : Vec 3) (hs : ∀ k, 1 / 2 ^ 52 ≤ sd k) :
    priorResidual p sd true x = [(x 0 - p 0) / sd 0, (x 1 - p 1) / sd 1, (x 2 - p 2) / sd 2] ∧
    priorResidual p sd false x = [(x 0 - p 0) / sd 0, (x 1 - p 1) / sd 1] := by
  have : ∀ k, 1 / max (sd k) (1 / 2 ^ 52) * (x k - p k) = (x k - p k) / sd k := by
    intro k
    rw [max_eq_left (hs k)]
    ring
  constructor <;> simp only [priorResidual, this, if_true, Bool.false_eq_true, if_false, List.map_cons, List.map_nil]

/-! ### Comparison with `align.py`, and the rows that are not initialised -/

theorem sorted_roots {a b : Vec 3} (ha : a 0 ≤ a 1) (ha' : a 1 ≤ a 2) (hb : b 0 ≤ b 1) (hb' : b 1 ≤ b 2)
    (h : ∀ l : ℝ, (l - a 0) * (l - a 1) * (l - a 2) = (l - b 0) * (l - b 1) * (l - b 2)) : a = b := by
  have root : ∀ {x : ℝ} {c : Vec 3}, (x - c 0) * (x - c 1) * (x - c 2) = 0 → x = c 0 ∨ x = c 1 ∨ x = c 2 := by
    intro x c hx
    rcases mul_eq_zero.1 hx with h1 | h1
    · rcases mul_eq_zero.1 h1 with h2 | h2
      · exact Or.inl (by linarith)
      · exact Or.inr (Or.inl (by linarith))
    · exact Or.inr (Or.inr (by linarith))
  have h2 : a 2 = b 2 := by
    apply le_antisymm
    · rcases root (c := b) (x := a 2) (by rw [← h]; ring) with h1 | h1 | h1 <;> linarith
    · rcases root (c := a) (x := b 2) (by rw [h]; ring) with h1 | h1 | h1 <;> linarith
  have h0 : a 0 = b 0 := by
    apply le_antisymm
    · rcases root (c := a) (x := b 0) (by rw [h]; ring) with h1 | h1 | h1 <;> linarith
    · rcases root (c := b) (x := a 0) (by rw [← h]; ring) with h1 | h1 | h1 <;> linarith
  have hs : a 0 + a 1 + a 2 = b 0 + b 1 + b 2 := by
    have e1 := h 1
    have e2 := h (-1)
    have e0 := h 0
    linear_combination (-1 / 2) * e1 + (-1 / 2) * e2 + e0
  funext k
  fin_cases k
  · exact h0
  · show a 1 = b 1
    linarith
  · exact h2

theorem eig_diagonal (eig : Mat 3 → Vec 3) (he : ∀ M, M.IsSymm → IsEig M (eig M)) (d : Vec 3) (h : d 0 ≤ d 1) (h' : d 1 ≤ d 2)
    (M : Mat 3) (hM : M.IsSymm) (hd : ∀ l : ℝ, (l • (1 : Mat 3) - M).det = (l - d 0) * (l - d 1) * (l - d 2)) : eig M = d := by
  obtain ⟨h0, h1, h2⟩ := he M hM
  exact sorted_roots h0 h1 h h' (fun l => by rw [← h2, hd])

/-- Two shots with GPS positions, and a control point without a measured position. -/
def twoShots : Dict ℕ (MShot Unit) := [(1, ⟨![-1, 0, 0], fun _ => 0, some 0⟩), (2, ⟨![1, 0, 0], fun _ => 0, some ![1, 0, 0]⟩)]

def autoCfg : Cfg := ⟨"auto", "horizontal", true, true, 0.01, 0.01, 0.1⟩

theorem scatter_bent : scatter [![-1, 0, 0], ![1, 0, 0], ![0, 3, 0]] = !![2, 0, 0; 0, 6, 0; 0, 0, 0] := by
  unfold scatter
  ext i j
  fin_cases i <;> fin_cases j <;> simp [vecMulVec_apply, Matrix.of_apply] <;> norm_num

/-- With a control point that has no measured position the choice depends on memory that was never written: two cameras cannot fix the
orientation, and depending on that memory the bundle adjustment adds up vectors or not. -/
theorem C96_junk (mid : List (Vec 3 × Vec 3) → Option (Vec 3)) (eig : Mat 3 → Vec 3) (he : ∀ M, M.IsSymm → IsEig M (eig M)) :
    (∀ junk : ℕ → Vec 3, junk 2 = ![0, 3, 0] → methodOf junk mid eig autoCfg twoShots [⟨5, none, true, []⟩] = "naive" ∧
      upTerms junk mid eig autoCfg twoShots [⟨5, none, true, []⟩] = []) ∧
    (∀ junk : ℕ → Vec 3, junk 2 = 0 → methodOf junk mid eig autoCfg twoShots [⟨5, none, true, []⟩] = "orientation_prior" ∧
      upTerms junk mid eig autoCfg twoShots [⟨5, none, true, []⟩] = [(1, ![0, -1, 0], 1 / 1000), (2, ![0, -1, 0], 1 / 1000)]) ∧
    (∀ junk : ℕ → Vec 3, methodOf junk mid eig autoCfg twoShots [] = "orientation_prior") := by
  have hX : ∀ junk : ℕ → Vec 3, matrixX junk mid autoCfg twoShots [⟨5, none, true, []⟩] = [![-1, 0, 0], ![1, 0, 0], junk 2] := by
    intro junk
    simp [matrixX, written, gcpRows, gpsRows, reserve, twoShots, autoCfg, List.filterMap_cons, List.filterMap_nil, List.filter_cons]
  have hup : ∀ (junk : ℕ → Vec 3) (gcp : List (Gcp ℕ Unit)) (o : Option (Vec 3)),
      upVector autoCfg (methodOf junk mid eig autoCfg twoShots gcp) = o →
      upTerms junk mid eig autoCfg twoShots gcp = (match o with | none => [] | some u => twoShots.map (fun e => (e.1, u, (1 / 1000 : ℝ)))) := by
    intro junk gcp o ho; unfold upTerms; rw [ho]; cases o <;> rfl
  have hc := fun junk gcp => (C96_choice junk mid eig he autoCfg twoShots gcp).2 rfl
  refine ⟨fun junk hj => ?_, fun junk hj => ?_, fun junk => ?_⟩
  · have h := hc junk [⟨5, none, true, []⟩] _ rfl _ rfl
    have hn : methodOf junk mid eig autoCfg twoShots [⟨5, none, true, []⟩] = "naive" := by
      rw [h.2.1, hX, hj, scatter_bent]
      have : eig !![2, 0, 0; 0, 6, 0; 0, 0, 0] = ![0, 2, 6] := by
        apply eig_diagonal eig he
        · simp
        · simp; norm_num
        · unfold Matrix.IsSymm; ext i j; fin_cases i <;> fin_cases j <;> simp
        · intro l
          rw [det_fin_three]
          simp
          ring
      rw [this]
      refine ⟨by simp, ?_, ?_⟩
      · simp; norm_num
      · simp; norm_num
    exact ⟨hn, hup junk _ none (by rw [hn]; rfl)⟩
  · have h := hc junk [⟨5, none, true, []⟩] _ rfl _ rfl
    have hn : methodOf junk mid eig autoCfg twoShots [⟨5, none, true, []⟩] = "orientation_prior" := by
      rcases h.1 with h1 | h1
      · refine absurd ?_ (h.2.2 h1)
        rw [hX, hj]
        refine ⟨0, ![1, 0, 0], fun x hx => ?_⟩
        simp only [List.mem_cons, List.not_mem_nil, or_false] at hx
        rcases hx with rfl | rfl | rfl
        · exact ⟨-1, by simp⟩
        · exact ⟨1, by simp⟩
        · exact ⟨0, by simp⟩
      · exact h1
    refine ⟨hn, ?_⟩
    rw [hup junk _ (some ![0, -1, 0]) (by rw [hn]; simp [upVector, autoCfg])]
    rfl
  · have h := hc junk [] _ rfl _ rfl
    rcases h.1 with h1 | h1
    · have := (h.2.1.1 h1).1
      exfalso
      revert this
      simp [matrixX, written, gcpRows, gpsRows, reserve, twoShots, autoCfg, List.filterMap_cons, List.filterMap_nil, List.filter_cons]
    · exact h1

open Verif.Align in
/-- Without control points, and with one shot per rig instance at the position of the instance, the bundle adjustment chooses the same
method as `align.py`. -/
theorem C96_agrees (junk : ℕ → Vec 3) (mid : List (Vec 3 × Vec 3) → Option (Vec 3)) (eig : Mat 3 → Vec 3) (cfg : Cfg)
    (hauto : cfg.method = "auto") (pcfg : Align.Cfg) (hp : pcfg.useGps = cfg.useGps) (a : ARec Id) (shotOf camOf : Id → Id)
    (hw : a.r.rigInstances.Wf)
    (hs : a.r.shots = a.r.rigInstances.map (fun e => (shotOf e.1, (e.1, camOf e.1)))) (ray : Id → Px → Vec 3) :
    methodOf junk mid eig cfg (a.r.rigInstances.map (fun e => (shotOf e.1, ⟨e.2.getOrigin, ray e.1, a.gps (shotOf e.1)⟩))) [] =
      (if wellConditioned eig (Align.constraints pcfg a [] true) = true then "naive" else "orientation_prior") := by
  have hgps : ∀ e ∈ a.r.rigInstances, instanceGps a e.1 = (a.gps (shotOf e.1)).toList := by
    intro e he
    unfold instanceGps
    rw [hs, List.filterMap_map]
    have hw' : (a.r.rigInstances.map Prod.fst).Nodup := hw
    revert he hw'
    clear hw hs
    induction a.r.rigInstances with
    | nil => intro he; exact absurd he (by simp)
    | cons f l ih =>
      intro he hw'
      rw [List.map_cons, List.nodup_cons] at hw'
      rw [List.filterMap_cons]
      have hne : ∀ e' ∈ l, e'.1 ≠ f.1 := fun e' he' hc => hw'.1 (hc ▸ List.mem_map_of_mem he')
      rcases List.mem_cons.1 he with rfl | he'
      · have : l.filterMap ((fun e' => if e'.2.1 = e.1 then a.gps e'.1 else none) ∘ fun e => (shotOf e.1, e.1, camOf e.1)) = [] := by
          rw [List.filterMap_eq_nil_iff]
          intro e' he'
          simp only [Function.comp_apply]
          rw [if_neg (hne e' he')]
        rw [this]
        simp only [Function.comp_apply, if_true]
        rcases a.gps (shotOf e.1) with _ | g <;> rfl
      · simp only [Function.comp_apply]
        rw [if_neg (fun h => hne e he' h.symm)]
        exact ih he' hw'.2
  have hrows : matrixX junk mid cfg (a.r.rigInstances.map (fun e => (shotOf e.1, (⟨e.2.getOrigin, ray e.1, a.gps (shotOf e.1)⟩ : MShot Px)))) [] =
      (Align.constraints pcfg a [] true).map (·.1) := by
    have hcon : (Align.constraints pcfg a [] true) = if cfg.useGps then a.r.rigInstances.filterMap (instancePair a) else [] := by
      unfold Align.constraints
      rw [hp]
      simp
    have hL : gpsRows (a.r.rigInstances.map (fun e => (shotOf e.1, (⟨e.2.getOrigin, ray e.1, a.gps (shotOf e.1)⟩ : MShot Px)))) =
        a.r.rigInstances.filterMap (instancePair a) := by
      unfold gpsRows
      rw [List.filterMap_map]
      apply List.filterMap_congr
      intro e he
      unfold instancePair
      rw [hgps e he]
      simp only [Function.comp_apply]
      rcases a.gps (shotOf e.1) with _ | g
      · rfl
      · simp only [Option.map_some, Option.toList_some, List.length_cons, List.length_nil, zero_add, gt_iff_lt, zero_lt_one, if_true]
        rw [show mean [g] = g by simp [mean]]
    unfold matrixX
    have hwr : written mid cfg (a.r.rigInstances.map (fun e => (shotOf e.1, (⟨e.2.getOrigin, ray e.1, a.gps (shotOf e.1)⟩ : MShot Px)))) [] =
        Align.constraints pcfg a [] true := by
      rw [hcon]
      unfold written
      rw [hL]
      simp
    have hres : reserve cfg (a.r.rigInstances.map (fun e => (shotOf e.1, (⟨e.2.getOrigin, ray e.1, a.gps (shotOf e.1)⟩ : MShot Px)))) [] =
        (Align.constraints pcfg a [] true).length := by
      rw [hcon]
      unfold reserve
      rw [← gpsRows_length, hL]
      simp
      split <;> rfl
    simp only [hwr, hres, Nat.sub_self, List.range_zero, List.map_nil, List.append_nil]
  unfold methodOf
  rw [if_pos hauto, hrows, detect_eq]
  congr 2
  unfold wellConditioned
  simp only [List.length_map, List.map_map, Function.comp_def]

open Verif.Align Verif.Pose in
/-- Two rig instances with two cameras each; the four cameras are the corners of a square. -/
noncomputable def squareRig : ARec ℕ :=
  { r := { points := []
           rigInstances := [(10, Pose.ofWorldToCamera 1 ![1, 0, 0]), (20, Pose.ofWorldToCamera 1 ![-1, 0, 0])]
           rigCameras := [(7, Pose.ofWorldToCamera 1 ![0, -1, 0]), (8, Pose.ofWorldToCamera 1 ![0, 1, 0])]
           shots := [(1, (10, 7)), (2, (10, 8)), (3, (20, 7)), (4, (20, 8))] }
    gps := fun _ => some 0 }

/-- The same for the bundle adjustment. -/
def squareShots : Dict ℕ (MShot Unit) :=
  [(1, ⟨![-1, 1, 0], fun _ => 0, some 0⟩), (2, ⟨![-1, -1, 0], fun _ => 0, some 0⟩), (3, ⟨![1, 1, 0], fun _ => 0, some 0⟩),
    (4, ⟨![1, -1, 0], fun _ => 0, some 0⟩)]

theorem scatter_square : scatter [![-1, 1, 0], ![-1, -1, 0], ![1, 1, 0], ![1, -1, 0]] = !![4, 0, 0; 0, 4, 0; 0, 0, 0] := by
  unfold scatter
  ext i j
  fin_cases i <;> fin_cases j <;> simp [vecMulVec_apply, Matrix.of_apply] <;> norm_num

/-- With rigs the two choices differ: `align.py` looks at the rig instances, the bundle adjustment at the shots. Two instances of a rig
with two cameras are aligned with the orientation prior, but the bundle adjustment then adds no up vector. -/
theorem C96_differs (junk : ℕ → Vec 3) (mid : List (Vec 3 × Vec 3) → Option (Vec 3)) (eig : Mat 3 → Vec 3)
    (he : ∀ M, M.IsSymm → IsEig M (eig M)) :
    (∀ s : ℕ, (squareShots.get? s).map (fun x => (x.origin, x.gps)) =
      (squareRig.r.shotPose s).map (fun p => (p.getOrigin, squareRig.gps s))) ∧
    Align.wellConditioned eig (Align.constraints ⟨"auto", true, true⟩ squareRig [] true) = false ∧
    methodOf junk mid eig autoCfg squareShots [] = "naive" ∧ upTerms junk mid eig autoCfg squareShots [] = [] := by
  have hX : matrixX junk mid autoCfg squareShots [] = [![-1, 1, 0], ![-1, -1, 0], ![1, 1, 0], ![1, -1, 0]] := by
    simp [matrixX, written, gcpRows, gpsRows, reserve, squareShots, autoCfg, List.filterMap_cons, List.filterMap_nil, List.filter_cons]
  have hn : methodOf junk mid eig autoCfg squareShots [] = "naive" := by
    have h := (C96_choice junk mid eig he autoCfg squareShots []).2 rfl _ rfl _ rfl
    rw [h.2.1, hX, scatter_square]
    have : eig !![4, 0, 0; 0, 4, 0; 0, 0, 0] = ![0, 4, 4] := by
      apply eig_diagonal eig he
      · simp
      · simp
      · unfold Matrix.IsSymm; ext i j; fin_cases i <;> fin_cases j <;> simp
      · intro l
        rw [det_fin_three]
        simp
        ring
    rw [this]
    refine ⟨by simp, ?_, ?_⟩
    · simp; norm_num
    · simp
  refine ⟨?_, ?_, hn, ?_⟩
  · intro s
    by_cases h1 : s = 1
    · subst h1
      simp [squareShots, squareRig, Pose.Recon.shotPose, Dict.get?, Pose.Pose.compose, Pose.Pose.ofWorldToCamera, Pose.Pose.getOrigin]
    by_cases h2 : s = 2
    · subst h2
      simp [squareShots, squareRig, Pose.Recon.shotPose, Dict.get?, Pose.Pose.compose, Pose.Pose.ofWorldToCamera, Pose.Pose.getOrigin]
    by_cases h3 : s = 3
    · subst h3
      simp [squareShots, squareRig, Pose.Recon.shotPose, Dict.get?, Pose.Pose.compose, Pose.Pose.ofWorldToCamera, Pose.Pose.getOrigin]
    by_cases h4 : s = 4
    · subst h4
      simp [squareShots, squareRig, Pose.Recon.shotPose, Dict.get?, Pose.Pose.compose, Pose.Pose.ofWorldToCamera, Pose.Pose.getOrigin]
    simp [squareShots, squareRig, Pose.Recon.shotPose, Dict.get?, h1, h2, h3, h4, Ne.symm h1, Ne.symm h2, Ne.symm h3, Ne.symm h4]
  · unfold Align.wellConditioned
    rw [if_pos]
    have : (Align.constraints ⟨"auto", true, true⟩ squareRig [] true).length ≤ squareRig.r.rigInstances.length := by
      simp [Align.constraints]
      exact List.length_filterMap_le _ _
    refine lt_of_le_of_lt this ?_
    simp [squareRig]
  · unfold upTerms
    rw [hn]
    rfl

/-! ### Examples -/

/-- A control point seen in two shots. -/
def exGcp : Gcp ℕ Unit := ⟨5, some ![0, 0, 2], false, [(1, ()), (2, ()), (9, ())]⟩

/-- The points of `C96_weight`: a control point seen in two of the shots has three terms, each of weight a third of the fraction. -/
example : (∃ x, Tri (fun _ => some ![0, 0, 1]) twoShots exGcp x) ∧ counted (fun _ => some ![0, 0, 1]) twoShots exGcp = 3 ∧
    weight (fun _ => some ![0, 0, 1]) autoCfg twoShots [exGcp] 600 = 2 ∧
    Term.prior 5 ![0, 0, 2] ![0.005, 0.005, 0.05] false ∈ gcpTerms (fun _ => some ![0, 0, 1]) autoCfg twoShots [exGcp] 600 := by
  have ht : triangulate (fun _ => some ![0, 0, 1]) twoShots exGcp = some ![0, 0, 1] := by
    simp [triangulate, rays, twoShots, exGcp, Dict.get?, List.filterMap_cons, List.filterMap_nil]
  have hc : counted (fun _ => some ![0, 0, 1]) twoShots exGcp = 3 := by
    rw [← countPoint_eq]
    unfold countPoint
    rw [ht]
    simp [exGcp, twoShots, Dict.has, Dict.get?]
  have hw : weight (fun _ => some ![0, 0, 1]) autoCfg twoShots [exGcp] 600 = 2 := by
    rw [weight_eq]
    simp [hc, autoCfg]
    norm_num
  refine ⟨⟨_, (triangulate_iff _ _ _ _).1 ht⟩, hc, hw, ?_⟩
  unfold gcpTerms
  rw [hw]
  simp only [List.flatMap_cons, List.flatMap_nil, List.append_nil, pointTerms, ht]
  refine List.mem_cons_of_mem _ ?_
  simp [exGcp, autoCfg]
  norm_num

/-- The eigenvalue routine that the theorems assume exists. -/
example : ∃ eig : Mat 3 → Vec 3, ∀ M, M.IsSymm → IsEig M (eig M) := Align.C89_eig

end Verif.BundleAlign
