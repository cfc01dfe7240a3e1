import Verif.Model.PairOrder
import Verif.Props.RotationPair
import Verif.Props.Tracking
import Verif.Props.TracksManager
import Verif.Lemmas.MapCopy

/-! # C124: the first pairs of images do not depend on the number of processes -/
set_option linter.unusedSectionVars false
set_option linter.unusedSimpArgs false
set_option linter.unusedVariables false
namespace Verif.PairOrder
open Verif.Depthmap Verif.RotationPair Verif.Tracking Verif.TM
open Verif.Superimpose (IsRot)
open Verif.Triangulation (pt)

variable {S T O P : Type} [DecidableEq S] [DecidableEq T]

/-! ### Lists of options -/

theorem mapM_bind_mapM {α β γ : Type} (f : α → Option β) (h : β → Option γ) (l : List α) :
    (l.mapM f).bind (fun r => r.mapM h) = l.mapM (fun x => (f x).bind h) := by
  induction l with
  | nil => rfl
  | cons x l ih =>
    rw [List.mapM_cons, List.mapM_cons, ← ih]
    cases hx : f x with
    | none => rfl
    | some y =>
      cases hl : l.mapM f with
      | none =>
        show none = (h y).bind (fun z => none)
        cases h y <;> rfl
      | some ys =>
        show (y :: ys).mapM h = _
        rw [List.mapM_cons]
        rfl

theorem mapM_map {α β γ : Type} (f : α → β) (h : β → Option γ) (l : List α) :
    (l.map f).mapM h = l.mapM (fun x => h (f x)) := by
  induction l with
  | nil => rfl
  | cons x l ih => rw [List.map_cons, List.mapM_cons, List.mapM_cons, ih]

/-- The loop of the sequential method. -/
theorem seq_fold {α : Type} (g : α → Option ℤ) (skip : ℕ → Bool) (l : List (α × ℕ)) (acc : List (α × ℤ)) :
    l.foldlM (fun acc q => if skip q.2 then some acc else (g q.1).map fun r => if 0 < r then acc ++ [(q.1, r)] else acc) acc =
    (((l.filter (fun q => !skip q.2)).mapM (fun q => (g q.1).map fun r => (q.1, r))).map
      fun res => acc ++ res.filter (fun e => 0 < e.2)) := by
  induction l generalizing acc with
  | nil => simp
  | cons q l ih =>
    rw [List.foldlM_cons, List.filter_cons]
    cases hs : skip q.2 with
    | true =>
      simp only [if_true, Bool.not_true, Bool.false_eq_true, if_false]
      exact ih acc
    | false =>
      simp only [Bool.false_eq_true, if_false, Bool.not_false, if_true]
      rw [List.mapM_cons]
      cases hg : g q.1 with
      | none => rfl
      | some r =>
        simp only [Option.map_some, Option.bind_eq_bind, Option.bind_some, ih]
        cases hm : (l.filter (fun q => !skip q.2)).mapM (fun q => (g q.1).map fun r => (q.1, r)) with
        | none => rfl
        | some res =>
          simp only [Option.map_some, Option.bind_some, Option.pure_def, List.filter_cons]
          by_cases hr : 0 < r
          · simp [hr]
          · simp [hr]

/-! ### The table of common tracks -/

/-- The entry of a pair. -/
def entryOf (point : O → P) (m : TM S T O) (q : S × S) : List T × List P × List P :=
  match m.getAllCommonObservations q.1 q.2 with
  | .error _ => ([], [], [])
  | .ok l => (l.map (·.1), l.map (fun x => point x.2.1), l.map (fun x => point x.2.2))

theorem connectivity_wf (lt : S → S → Bool) (ops : List (Op S T O)) :
    ((run ops).getAllPairsConnectivity lt [] []).Wf := by
  rw [connectivity_eq]
  generalize allPairs lt (run ops) _ _ = l
  suffices h : ∀ acc : Dict (S × S) Nat, acc.Wf → (l.foldl incr acc).Wf from h [] Dict.wf_nil
  induction l with
  | nil => intro acc h; exact h
  | cons x l ih => intro acc h; exact ih _ (Dict.wf_set h _ _)

theorem connectivity_ok (lt : S → S → Bool) (ops : List (Op S T O)) (q : (S × S) × ℕ)
    (hq : q ∈ (run ops).getAllPairsConnectivity lt [] []) :
    ∃ l, (run ops).getAllCommonObservations q.1.1 q.1.2 = .ok l := by
  have h := (C05_connectivity lt ops ([] : List S) ([] : List T) q.1.1 q.1.2 q.2).1
    (Dict.get?_of_mem (connectivity_wf lt ops) hq)
  obtain ⟨_, h2, _⟩ := h
  have hab : q.1.1 ∈ addedShots ops ∧ q.1.2 ∈ addedShots ops := by
    rcases h2 with ⟨_, a, b⟩ | ⟨a, _⟩
    · exact ⟨a, b⟩
    · cases a
  cases hg : (run ops).getAllCommonObservations q.1.1 q.1.2 with
  | ok l => exact ⟨l, rfl⟩
  | error e =>
    rcases ((C04_common ops q.1.1 q.1.2).2).1 ⟨e, hg⟩ with h | h
    · exact absurd hab.1 h
    · exact absurd hab.2 h

theorem common_fold (point : O → P) (m : TM S T O) (minCommon : ℕ) (l : List ((S × S) × ℕ))
    (acc : Dict (S × S) (List T × List P × List P)) (hw : (Dict.keys acc ++ l.map (·.1)).Nodup)
    (hok : ∀ q ∈ l, ∃ r, m.getAllCommonObservations q.1.1 q.1.2 = .ok r) :
    l.foldl (allCommonStep point m minCommon) (.ok acc) =
      .ok (acc ++ (l.filter (fun q => !decide (q.2 < minCommon))).map (fun q => (q.1, entryOf point m q.1))) := by
  induction l generalizing acc with
  | nil => simp
  | cons q l ih =>
    obtain ⟨r, hr⟩ := hok q (by simp)
    rw [List.foldl_cons, List.filter_cons]
    have hnot : q.1 ∉ Dict.keys acc := by
      intro h
      have := (List.nodup_append.1 hw).2.2 q.1 h q.1 (by simp)
      exact this rfl
    unfold allCommonStep
    simp only
    by_cases hs : q.2 < minCommon
    · simp only [hs, if_true, decide_true, Bool.not_true, Bool.false_eq_true, if_false]
      refine ih acc ?_ (fun x hx => hok x (List.mem_cons_of_mem _ hx))
      refine hw.sublist ?_
      rw [List.map_cons]
      exact List.Sublist.append_left (List.sublist_cons_self _ _) _
    · simp only [hs, if_false, decide_false, Bool.not_false, if_true, hr]
      rw [Verif.MapCopy.set_fresh _ _ _ hnot]
      have := ih (acc ++ [(q.1, entryOf point m q.1)]) (by
        rw [Verif.MapCopy.keys_append]
        simpa [Dict.keys] using hw) (fun x hx => hok x (List.mem_cons_of_mem _ hx))
      rw [show (r.map (·.1), r.map (fun x => point x.2.1), r.map (fun x => point x.2.2)) = entryOf point m q.1 by
        unfold entryOf; rw [hr]]
      refine this.trans ?_
      rw [List.map_cons, List.append_assoc]
      rfl

/-- The pairs that are looked at. -/
def enough (lt : S → S → Bool) (m : TM S T O) (minCommon : ℕ) : List ((S × S) × ℕ) :=
  (m.getAllPairsConnectivity lt [] []).filter (fun q => !decide (q.2 < minCommon))

theorem common_table (point : O → P) (lt : S → S → Bool) (ops : List (Op S T O)) (minCommon : ℕ) :
    allCommonTracks point lt (run ops) minCommon =
      .ok ((enough lt (run ops) minCommon).map (fun q => (q.1, entryOf point (run ops) q.1))) := by
  unfold allCommonTracks
  rw [common_fold point (run ops) minCommon _ [] (connectivity_wf lt ops) (connectivity_ok lt ops)]
  rfl

/-- The scores. -/
noncomputable def results (ransac : ℝ → List (V3 × V3) → M3) (threshold : ℝ) (camera : S → Option (P → V3)) (point : O → P)
    (lt : S → S → Bool) (m : TM S T O) (minCommon : ℕ) : Option (List ((S × S) × ℤ)) :=
  (enough lt m minCommon).mapM (fun q => (scoreOf ransac threshold camera point m q.1).map fun r => (q.1, r))

theorem sequential_eq (ransac : ℝ → List (V3 × V3) → M3) (threshold : ℝ) (camera : S → Option (P → V3)) (point : O → P)
    (lt : S → S → Bool) (m : TM S T O) (minCommon : ℕ) :
    sequential ransac threshold camera point lt m minCommon =
      (results ransac threshold camera point lt m minCommon).map
        fun res => (sortDown (res.filter (fun e => 0 < e.2))).map (·.1) := by
  unfold sequential results enough
  have := seq_fold (scoreOf ransac threshold camera point m) (fun n => decide (n < minCommon))
    (m.getAllPairsConnectivity lt [] []) []
  have e : (m.getAllPairsConnectivity lt [] []).foldlM (seqStep ransac threshold camera point m minCommon) [] =
      (m.getAllPairsConnectivity lt [] []).foldlM (fun acc q => if decide (q.2 < minCommon) = true then some acc
        else (scoreOf ransac threshold camera point m q.1).map fun r => if 0 < r then acc ++ [(q.1, r)] else acc) [] := by
    congr 1
    funext acc q
    unfold seqStep
    simp only [decide_eq_true_eq]
  rw [e, this, Option.map_map]
  rfl

theorem parallel_eq (ransac : ℝ → List (V3 × V3) → M3) (argsort : List ℤ → List ℕ) (threshold : ℝ)
    (camera : S → Option (P → V3)) (point : O → P) (lt : S → S → Bool) (ops : List (Op S T O)) (minCommon : ℕ) :
    parallel ransac argsort threshold camera point lt (run ops) minCommon =
      (results ransac threshold camera point lt (run ops) minCommon).map (sorted argsort) := by
  unfold parallel
  rw [common_table]
  simp only
  unfold imagePairs
  rw [mapM_map]
  have : ∀ x : Option (List ((S × S) × List (V3 × V3))), (x.bind fun t => (scores ransac threshold t).map (sorted argsort)) =
      (x.bind fun t => scores ransac threshold t).map (sorted argsort) := by
    intro x; cases x <;> rfl
  rw [this]
  congr 1
  unfold scores
  rw [mapM_bind_mapM]
  unfold results
  have key : ∀ q ∈ enough lt (run ops) minCommon,
      ((argumentOf camera (q.1, entryOf point (run ops) q.1)).bind fun e =>
        (reconstructability e.2.length (rotationOnly ransac e.2 (4 * threshold)).2.length).map fun r => (e.1, r)) =
      (scoreOf ransac threshold camera point (run ops) q.1).map fun r => (q.1, r) := by
    intro q hq
    obtain ⟨l, hl⟩ := connectivity_ok lt ops q (List.mem_filter.1 hq).1
    unfold argumentOf scoreOf commonFeatures entryOf
    rw [hl]
    simp only
    cases bearings camera q.1.1 q.1.2 (l.map fun x => point x.2.1) (l.map fun x => point x.2.2) <;> rfl
  revert key
  generalize enough lt (run ops) minCommon = L
  intro key
  induction L with
  | nil => rfl
  | cons q L ih =>
    rw [List.mapM_cons, List.mapM_cons, ih (fun x hx => key x (List.mem_cons_of_mem _ hx)), key q (by simp)]

theorem sortDown_spec (l : List ((S × S) × ℤ)) :
    (sortDown l).Perm l ∧ (sortDown l).Pairwise (fun a b => b.2 ≤ a.2) := by
  unfold sortDown
  refine ⟨List.mergeSort_perm _ _, ?_⟩
  have := List.pairwise_mergeSort (le := fun a b : (S × S) × ℤ => decide (b.2 ≤ a.2))
    (fun a b c h1 h2 => by simp only [decide_eq_true_eq] at *; omega)
    (fun a b => by simp only [Bool.or_eq_true, decide_eq_true_eq]; omega) l
  exact this.imp (fun h => by simpa using h)

/-- Two orders of one list, both with the large values first, have the same values at the same places. -/
theorem same_values {α : Type} {a b : List (α × ℤ)} (hp : a.Perm b) (ha : a.Pairwise (fun x y => y.2 ≤ x.2))
    (hb : b.Pairwise (fun x y => y.2 ≤ x.2)) : a.map (·.2) = b.map (·.2) := by
  apply List.Perm.eq_of_pairwise (le := fun x y : ℤ => y ≤ x) (fun x y _ _ h1 h2 => le_antisymm h2 h1)
  · rw [List.pairwise_map]; exact ha
  · rw [List.pairwise_map]; exact hb
  · exact hp.map _

/-- Two orders of one list with different values are the same. -/
theorem same_order {α : Type} {a b : List (α × ℤ)} (hp : a.Perm b) (ha : a.Pairwise (fun x y => y.2 ≤ x.2))
    (hb : b.Pairwise (fun x y => y.2 ≤ x.2)) (hd : (a.map (·.2)).Nodup) : a = b := by
  apply List.Perm.eq_of_pairwise (le := fun x y : α × ℤ => y.2 ≤ x.2) _ ha hb hp
  intro x y hx hy h1 h2
  have hy' := hp.mem_iff.2 hy
  exact List.inj_on_of_nodup_map hd hx hy' (le_antisymm h2 h1)

/-! ### What is looked at and what the scores are -/

theorem mem_enough (lt : S → S → Bool) (ops : List (Op S T O)) (minCommon : ℕ) (a b : S) (k : ℕ) :
    ((a, b), k) ∈ enough lt (run ops) minCommon ↔ lt a b = true ∧ a ∈ addedShots ops ∧ b ∈ addedShots ops ∧ 0 < k ∧
      minCommon ≤ k ∧ k = sharedTracks ops (addedTracks ops).dedup a b := by
  unfold enough
  rw [List.mem_filter, Dict.mem_iff_get? (connectivity_wf lt ops),
    C05_connectivity lt ops ([] : List S) ([] : List T) a b k]
  simp only [Bool.not_eq_true', decide_eq_false_iff_not, not_lt, true_and, if_true, List.not_mem_nil, false_and, or_false]
  constructor
  · rintro ⟨⟨h1, ⟨h2, h3⟩, h4, h5⟩, h6⟩
    exact ⟨h1, h2, h3, h4, h6, h5⟩
  · rintro ⟨h1, h2, h3, h4, h6, h5⟩
    exact ⟨⟨h1, ⟨h2, h3⟩, h4, h5⟩, h6⟩

/-- The bearings of the common tracks. -/
def pairsOf (point : O → P) (f g : P → V3) (obs : List (T × O × O)) : List (V3 × V3) :=
  obs.map (fun x => (f (point x.2.1), g (point x.2.2)))

theorem scoreOf_eq (ransac : ℝ → List (V3 × V3) → M3) (hR : ∀ t l, IsRot (ransac t l)) (thr : ℝ)
    (camera : S → Option (P → V3)) (point : O → P) (m : TM S T O) (a b : S) (obs : List (T × O × O))
    (ho : m.getAllCommonObservations a b = .ok obs) (hne : obs ≠ []) :
    (scoreOf ransac thr camera point m (a, b) = none ↔ camera a = none ∨ camera b = none) ∧
    ∀ f g, camera a = some f → camera b = some g → scoreOf ransac thr camera point m (a, b) =
      some (if 3 * obs.length ≤ 10 * unexplained ransac thr (pairsOf point f g obs)
        then (unexplained ransac thr (pairsOf point f g obs) : ℤ) else 0) := by
  have hz : ∀ f g : P → V3, List.zip ((obs.map fun x => point x.2.1).map f) ((obs.map fun x => point x.2.2).map g) =
      pairsOf point f g obs := by
    intro f g
    unfold pairsOf
    rw [List.map_map, List.map_map, List.zip_map']
    rfl
  have hs : ∀ f g : P → V3, pairScore ransac thr (pairsOf point f g obs) =
      some (if 3 * obs.length ≤ 10 * unexplained ransac thr (pairsOf point f g obs)
        then (unexplained ransac thr (pairsOf point f g obs) : ℤ) else 0) := by
    intro f g
    unfold pairScore
    have hl : (pairsOf point f g obs).length = obs.length := by unfold pairsOf; simp
    rw [score_eq (inliers_count ransac thr _ (hR _ _)) (by rw [hl]; simpa using hne), hl]
  unfold scoreOf commonFeatures bearings
  rw [ho]
  simp only
  constructor
  · cases ha : camera a with
    | none => simp
    | some f =>
      cases hb : camera b with
      | none => simp
      | some g =>
        simp only [Option.bind_some, hz, hs]
        simp
  · intro f g hf hg
    rw [hf, hg]
    simp only [Option.bind_some, hz, hs]

theorem mapM_none {α β : Type} (f : α → Option β) (l : List α) : l.mapM f = none ↔ ∃ x ∈ l, f x = none := by
  induction l with
  | nil => simp
  | cons x l ih =>
    rw [List.mapM_cons]
    cases hx : f x with
    | none => simp [hx]
    | some y =>
      cases hl : l.mapM f with
      | none =>
        obtain ⟨z, hz, hz'⟩ := ih.1 hl
        simp only [Option.bind_eq_bind, Option.bind_some, Option.bind_none, true_iff]
        exact ⟨z, List.mem_cons_of_mem _ hz, hz'⟩
      | some ys =>
        rw [hl] at ih
        simp only [Option.bind_eq_bind, Option.bind_some, Option.pure_def, reduceCtorEq, false_iff]
        rintro ⟨z, hz, hz'⟩
        rcases List.mem_cons.1 hz with rfl | hz
        · rw [hx] at hz'; cases hz'
        · exact absurd (ih.2 ⟨z, hz, hz'⟩) (by simp)

theorem mapM_mem {α β : Type} (f : α → Option β) (l : List α) (r : List β) (h : l.mapM f = some r) (y : β) :
    y ∈ r ↔ ∃ x ∈ l, f x = some y := by
  induction l generalizing r with
  | nil => cases h; simp
  | cons x l ih =>
    rw [List.mapM_cons] at h
    obtain ⟨z, h1, h2⟩ := Option.bind_eq_some_iff.1 h
    obtain ⟨zs, h3, h4⟩ := Option.bind_eq_some_iff.1 h2
    cases h4
    rw [List.mem_cons, ih zs h3]
    simp only [List.mem_cons, exists_eq_or_imp, h1, Option.some.injEq]
    rw [eq_comm]

theorem mapM_keys {α β : Type} (f : α → Option β) (l : List (α × ℕ)) (r : List (α × β))
    (h : l.mapM (fun q => (f q.1).map fun y => (q.1, y)) = some r) : r.map (·.1) = l.map (·.1) := by
  induction l generalizing r with
  | nil => cases h; rfl
  | cons x l ih =>
    rw [List.mapM_cons] at h
    obtain ⟨z, h1, h2⟩ := Option.bind_eq_some_iff.1 h
    obtain ⟨zs, h3, h4⟩ := Option.bind_eq_some_iff.1 h2
    cases h4
    obtain ⟨y, _, rfl⟩ := Option.map_eq_some_iff.1 h1
    rw [List.map_cons, List.map_cons, ih zs h3]

section
variable (ransac : ℝ → List (V3 × V3) → M3) (hR : ∀ t l, IsRot (ransac t l)) (argsort : List ℤ → List ℕ)
  (ha : IsArgsort argsort) (thr : ℝ) (camera : S → Option (P → V3)) (point : O → P) (lt : S → S → Bool)
  (ops : List (Op S T O)) (minCommon : ℕ)

/-- The pairs that are looked at: registered shots in order with enough common tracks. -/
def Enough (lt : S → S → Bool) (ops : List (Op S T O)) (minCommon : ℕ) (a b : S) : Prop :=
  lt a b = true ∧ a ∈ addedShots ops ∧ b ∈ addedShots ops ∧ 0 < sharedTracks ops (addedTracks ops).dedup a b ∧
    minCommon ≤ sharedTracks ops (addedTracks ops).dedup a b

theorem enough_obs {a b : S} (h : Enough lt ops minCommon a b) :
    ∃ obs, (run ops).getAllCommonObservations a b = .ok obs ∧ obs ≠ [] := by
  obtain ⟨h1, h2, h3, h4, h5⟩ := h
  have hm := (mem_enough lt ops minCommon a b _).2 ⟨h1, h2, h3, h4, h5, rfl⟩
  obtain ⟨obs, ho⟩ := connectivity_ok lt ops _ (List.mem_filter.1 hm).1
  refine ⟨obs, ho, ?_⟩
  rintro rfl
  have hd := C13_all_common (P := O) id lt ops minCommon
  obtain ⟨d, _, d2, d3⟩ := hd
  have hpos : ∃ t, (lastWrite ops.reverse a t).isSome ∧ (lastWrite ops.reverse b t).isSome := by
    have hs := (d2 a b).2 ⟨h1, h2, h3, h4, h5⟩
    obtain ⟨⟨ts, p1, p2⟩, he⟩ := Option.isSome_iff_exists.1 hs
    obtain ⟨_, k2, _, _, k5, _⟩ := d3 a b ts p1 p2 he
    rw [← k2] at h4
    obtain ⟨t, ht⟩ := List.exists_mem_of_ne_nil ts (by intro h; rw [h] at h4; simp at h4)
    exact ⟨t, (k5 t).1 ht⟩
  obtain ⟨t, ht1, ht2⟩ := hpos
  obtain ⟨o1, ho1⟩ := Option.isSome_iff_exists.1 ht1
  obtain ⟨o2, ho2⟩ := Option.isSome_iff_exists.1 ht2
  have := (((C04_common ops a b).1 [] ho).2 t o1 o2).2 ⟨ho1, ho2⟩
  cases this

include hR in
/-- C124: an exception is raised with one process exactly when it is with more: when an image of a pair with enough common
tracks has no camera. -/
theorem C124_exception :
    (sequential ransac thr camera point lt (run ops) minCommon = none ↔
      ∃ a b, Enough lt ops minCommon a b ∧ (camera a = none ∨ camera b = none)) ∧
    (parallel ransac argsort thr camera point lt (run ops) minCommon = none ↔
      ∃ a b, Enough lt ops minCommon a b ∧ (camera a = none ∨ camera b = none)) := by
  have key : results ransac thr camera point lt (run ops) minCommon = none ↔
      ∃ a b, Enough lt ops minCommon a b ∧ (camera a = none ∨ camera b = none) := by
    unfold results
    rw [mapM_none]
    constructor
    · rintro ⟨⟨⟨a, b⟩, k⟩, hq, hn⟩
      obtain ⟨h1, h2, h3, h4, h5, rfl⟩ := (mem_enough lt ops minCommon a b k).1 hq
      have he : Enough lt ops minCommon a b := ⟨h1, h2, h3, h4, h5⟩
      obtain ⟨obs, ho, hne⟩ := enough_obs lt ops minCommon he
      refine ⟨a, b, he, ((scoreOf_eq ransac hR thr camera point (run ops) a b obs ho hne).1).1 ?_⟩
      simpa using hn
    · rintro ⟨a, b, he, hn⟩
      obtain ⟨obs, ho, hne⟩ := enough_obs lt ops minCommon he
      obtain ⟨h1, h2, h3, h4, h5⟩ := he
      refine ⟨_, (mem_enough lt ops minCommon a b _).2 ⟨h1, h2, h3, h4, h5, rfl⟩, ?_⟩
      simp only [Option.map_eq_none_iff]
      exact ((scoreOf_eq ransac hR thr camera point (run ops) a b obs ho hne).1).2 hn
  rw [sequential_eq, parallel_eq, Option.map_eq_none_iff, Option.map_eq_none_iff]
  exact ⟨key, key⟩

include hR ha in
/-- C124: with one process and with more, the same pairs are proposed, each once, in an order with the same numbers of
unexplained tracks, larger ones first: exactly the pairs of registered images with enough common tracks of which at least
three tenths are not explained by a rotation. -/
theorem C124_pairs (p s : List (S × S)) (hp : parallel ransac argsort thr camera point lt (run ops) minCommon = some p)
    (hs : sequential ransac thr camera point lt (run ops) minCommon = some s) :
    s.Nodup ∧ ∃ lp ls : List ((S × S) × ℕ), p = lp.map (·.1) ∧ s = ls.map (·.1) ∧ lp.Perm ls ∧
      lp.map (·.2) = ls.map (·.2) ∧ ls.Pairwise (fun x y => y.2 ≤ x.2) ∧
      ∀ a b n, ((a, b), n) ∈ ls ↔ Enough lt ops minCommon a b ∧ ∃ obs f g,
        (run ops).getAllCommonObservations a b = .ok obs ∧ camera a = some f ∧ camera b = some g ∧
        n = unexplained ransac thr (obs.map fun x => (f (point x.2.1), g (point x.2.2))) ∧ 0 < n ∧ 3 * obs.length ≤ 10 * n := by
  rw [parallel_eq] at hp
  rw [sequential_eq] at hs
  obtain ⟨res, hres, hp⟩ := Option.map_eq_some_iff.1 hp
  rw [hres] at hs
  obtain rfl := Option.some.inj hs
  obtain ⟨l, k1, k2, k3⟩ := sorted_spec ha res
  obtain ⟨q1, q2⟩ := sortDown_spec (res.filter (fun e => 0 < e.2))
  have hperm : l.Perm (sortDown (res.filter (fun e => 0 < e.2))) := k2.trans q1.symm
  refine ⟨?_, l.map (fun e => (e.1, e.2.toNat)), (sortDown (res.filter (fun e => 0 < e.2))).map (fun e => (e.1, e.2.toNat)),
    ?_, ?_, hperm.map _, ?_, ?_, ?_⟩
  · have hk := mapM_keys _ _ _ hres
    have hn : (res.map (·.1)).Nodup := by
      rw [hk]
      unfold enough
      exact (connectivity_wf lt ops).sublist (List.Sublist.map _ (List.filter_sublist))
    have : ((res.filter (fun e => 0 < e.2)).map (·.1)).Nodup := hn.sublist (List.Sublist.map _ (List.filter_sublist))
    exact ((q1.map (·.1)).nodup_iff).2 this
  · rw [← hp, k1, List.map_map]; rfl
  · rw [List.map_map]; rfl
  · rw [List.map_map, List.map_map]
    have := congrArg (List.map Int.toNat) (same_values hperm k3 q2)
    rw [List.map_map, List.map_map] at this
    exact this
  · rw [List.pairwise_map]
    exact q2.imp (fun h => Int.toNat_le_toNat h)
  · intro a b n
    have hmem : ∀ r : ℤ, ((a, b), r) ∈ res ↔ Enough lt ops minCommon a b ∧
        scoreOf ransac thr camera point (run ops) (a, b) = some r := by
      intro r
      unfold results at hres
      rw [mapM_mem _ _ _ hres]
      constructor
      · rintro ⟨⟨⟨a', b'⟩, k⟩, hq, he⟩
        obtain ⟨r', e1, e2⟩ := Option.map_eq_some_iff.1 he
        obtain ⟨e3, rfl⟩ := Prod.mk.inj e2
        obtain ⟨rfl, rfl⟩ := Prod.mk.inj e3
        obtain ⟨h1, h2, h3, h4, h5, rfl⟩ := (mem_enough lt ops minCommon a' b' k).1 hq
        exact ⟨⟨h1, h2, h3, h4, h5⟩, e1⟩
      · rintro ⟨⟨h1, h2, h3, h4, h5⟩, he⟩
        exact ⟨_, (mem_enough lt ops minCommon a b _).2 ⟨h1, h2, h3, h4, h5, rfl⟩, by simp [he]⟩
    rw [List.mem_map]
    constructor
    · rintro ⟨⟨ab, r⟩, h1, h2⟩
      obtain ⟨rfl, rfl⟩ := Prod.mk.inj h2
      rw [q1.mem_iff, List.mem_filter] at h1
      obtain ⟨h1, h3⟩ := h1
      obtain ⟨he, hsc⟩ := (hmem r).1 h1
      simp only [decide_eq_true_eq] at h3
      obtain ⟨obs, ho, hne⟩ := enough_obs lt ops minCommon he
      obtain ⟨w1, w2⟩ := scoreOf_eq ransac hR thr camera point (run ops) a b obs ho hne
      cases hf : camera a with
      | none => rw [w1.2 (Or.inl hf)] at hsc; cases hsc
      | some f =>
        cases hg : camera b with
        | none => rw [w1.2 (Or.inr hg)] at hsc; cases hsc
        | some g =>
          rw [w2 f g hf hg] at hsc
          have hsc := Option.some.inj hsc
          refine ⟨he, obs, f, g, ho, rfl, rfl, ?_⟩
          unfold pairsOf at hsc
          split at hsc
          · rename_i h6
            rw [← hsc] at h3 ⊢
            refine ⟨by simp, by simpa using h3, by simpa using h6⟩
          · omega
    · rintro ⟨he, obs, f, g, ho, hf, hg, rfl, h0, h3⟩
      have hne : obs ≠ [] := by
        obtain ⟨obs', ho', hne⟩ := enough_obs lt ops minCommon he
        rw [ho] at ho'
        cases ho'
        exact hne
      obtain ⟨_, w2⟩ := scoreOf_eq ransac hR thr camera point (run ops) a b obs ho hne
      have := w2 f g hf hg
      unfold pairsOf at this
      rw [if_pos h3] at this
      refine ⟨((a, b), ((unexplained ransac thr (obs.map fun x => (f (point x.2.1), g (point x.2.2))) : ℕ) : ℤ)), ?_, by simp⟩
      rw [q1.mem_iff, List.mem_filter]
      exact ⟨(hmem _).2 ⟨he, this⟩, by simpa using h0⟩

include hR ha in
/-- C124: when no two pairs have the same number of unexplained tracks, the order is the same too. -/
theorem C124_order (p s : List (S × S)) (hp : parallel ransac argsort thr camera point lt (run ops) minCommon = some p)
    (hs : sequential ransac thr camera point lt (run ops) minCommon = some s)
    (hd : ∀ a b c d obs obs' f g f' g', (a, b) ∈ s → (c, d) ∈ s → (a, b) ≠ (c, d) →
      (run ops).getAllCommonObservations a b = .ok obs → (run ops).getAllCommonObservations c d = .ok obs' →
      camera a = some f → camera b = some g → camera c = some f' → camera d = some g' →
      unexplained ransac thr (obs.map fun x => (f (point x.2.1), g (point x.2.2))) ≠
        unexplained ransac thr (obs'.map fun x => (f' (point x.2.1), g' (point x.2.2)))) : p = s := by
  obtain ⟨hn, lp, ls, rfl, rfl, e3, e4, e5, e6⟩ := C124_pairs ransac hR argsort ha thr camera point lt ops minCommon p s hp hs
  have hinj : ∀ x ∈ ls, ∀ y ∈ ls, x.2 = y.2 → x = y := by
    rintro ⟨⟨a, b⟩, n⟩ hx ⟨⟨c, d⟩, k⟩ hy rfl
    by_cases he : (a, b) = (c, d)
    · rw [he]
    · exfalso
      obtain ⟨_, obs, f, g, o1, o2, o3, o4, _⟩ := (e6 a b n).1 hx
      obtain ⟨_, obs', f', g', o1', o2', o3', o4', _⟩ := (e6 c d n).1 hy
      exact hd a b c d obs obs' f g f' g' (List.mem_map.2 ⟨_, hx, rfl⟩) (List.mem_map.2 ⟨_, hy, rfl⟩) he o1 o1' o2 o3 o2' o3'
        (o4.symm.trans o4')
  have : lp = ls := by
    apply List.Perm.eq_of_pairwise (le := fun x y : (S × S) × ℕ => y.2 ≤ x.2) _ _ e5 e3
    · intro x y hx hy h1 h2
      exact hinj x (e3.mem_iff.1 hx) y hy (le_antisymm h2 h1)
    · have : (lp.map (·.2)).Pairwise (fun x y => y ≤ x) := by
        rw [e4, List.pairwise_map]; exact e5
      rw [List.pairwise_map] at this
      exact this
  rw [this]

/-- C124: the reconstruction starts from the same points of the two images, track by track in the same order. -/
theorem C124_start (a b : S) (he : Enough lt ops minCommon a b) :
    ∃ obs, (run ops).getAllCommonObservations a b = .ok obs ∧ obs ≠ [] ∧
      ∀ many, startPoints many point lt (run ops) minCommon (a, b) =
        some (obs.map (fun x => point x.2.1), obs.map (fun x => point x.2.2)) := by
  obtain ⟨obs, ho, hne⟩ := enough_obs lt ops minCommon he
  refine ⟨obs, ho, hne, fun many => ?_⟩
  unfold startPoints
  cases many with
  | false =>
    simp only [Bool.false_eq_true, if_false]
    unfold commonFeatures
    rw [ho]
  | true =>
    simp only [if_true, common_table]
    obtain ⟨h1, h2, h3, h4, h5⟩ := he
    have hm := (mem_enough lt ops minCommon a b _).2 ⟨h1, h2, h3, h4, h5, rfl⟩
    have hw : Dict.Wf ((enough lt (run ops) minCommon).map (fun q => (q.1, entryOf point (run ops) q.1))) := by
      unfold Dict.Wf Dict.keys
      rw [List.map_map]
      unfold enough
      exact (connectivity_wf lt ops).sublist (List.Sublist.map _ (List.filter_sublist))
    rw [Dict.get?_of_mem hw (List.mem_map.2 ⟨_, hm, rfl⟩)]
    unfold entryOf
    rw [ho]
    rfl

end

/-! ### Equal scores: the order depends on the number of processes -/

/-- An argsort that puts the last of equal values first, as `np.argsort` may. -/
def lastFirst (l : List ℤ) : List ℕ := (List.range l.length).reverse.mergeSort (fun i j => decide (l.getD i 0 ≤ l.getD j 0))

theorem lastFirst_argsort : IsArgsort lastFirst := by
  intro l
  refine ⟨(List.mergeSort_perm _ _).trans (List.reverse_perm _), ?_⟩
  have := List.pairwise_mergeSort (le := fun i j : ℕ => decide (l.getD i 0 ≤ l.getD j 0))
    (fun a b c h1 h2 => by simp only [decide_eq_true_eq] at *; omega)
    (fun a b => by simp only [Bool.or_eq_true, decide_eq_true_eq]; omega) (List.range l.length).reverse
  refine this.imp ?_
  intro i j h a b ha hb
  simp only [List.getD_eq_getElem?_getD, ha, hb, Option.getD_some, decide_eq_true_eq] at h
  exact h

/-- Four images, two pairs with one common track each. -/
def exTie : List (Op ℕ ℕ ℕ) := [.add 0 0 0, .add 1 0 1, .add 2 1 0, .add 3 1 1]

/-- The bearings of two points. -/
noncomputable def exBearing (o : ℕ) : V3 := if o = 0 then ![1, 0, 0] else ![0, 1, 0]

theorem exBearing_far : (4 * (1 / 100 : ℝ)) ≤ dist (pt ((1 : M3).mulVec (exBearing 0))) (pt (exBearing 1)) := by
  rw [Matrix.one_mulVec, Triangulation.dist_pt]
  unfold exBearing
  apply Real.le_sqrt_of_sq_le
  simp [dotProduct, Fin.sum_univ_three]
  norm_num

theorem exTie_results : results (fun _ _ => 1) (1 / 100) (fun _ => some exBearing) id (fun a b => decide (a < b)) (run exTie) 1 =
    some [((0, 1), 1), ((2, 3), 1)] := by
  have he : enough (fun a b => decide (a < b)) (run exTie) 1 = [((0, 1), 1), ((2, 3), 1)] := by decide +kernel
  have hR : ∀ (t : ℝ) (l : List (V3 × V3)), IsRot ((fun _ _ => 1 : ℝ → List (V3 × V3) → M3) t l) :=
    fun _ _ => ⟨by simp, by simp⟩
  have h1 : (run exTie).getAllCommonObservations 0 1 = .ok [(0, 0, 1)] := by rfl
  have h2 : (run exTie).getAllCommonObservations 2 3 = .ok [(1, 0, 1)] := by rfl
  have hu : unexplained (fun _ _ => 1) (1 / 100) [(exBearing 0, exBearing 1)] = 1 := by
    unfold unexplained
    rw [List.filter_cons_of_pos (by simpa using exBearing_far)]
    rfl
  have hs : ∀ a b (t : ℕ), (run exTie).getAllCommonObservations a b = .ok [(t, 0, 1)] →
      scoreOf (fun _ _ => 1) (1 / 100) (fun _ => some exBearing) id (run exTie) (a, b) = some 1 := by
    intro a b t h
    rw [(scoreOf_eq (fun _ _ => 1) hR (1 / 100) (fun _ => some exBearing) id (run exTie) a b _ h (by simp)).2 _ _ rfl rfl]
    unfold pairsOf
    simp only [List.map_cons, List.map_nil, id, hu]
    norm_num
  unfold results
  rw [he, List.mapM_cons, List.mapM_cons, hs 0 1 0 h1, hs 2 3 1 h2]
  rfl

/-- The hypothesis of `C124_start` is met. -/
example : Enough (fun a b => decide (a < b)) exTie 1 0 1 ∧ ¬ Enough (fun a b => decide (a < b)) exTie 1 0 2 := by
  unfold Enough; decide +kernel

/-- C124: the order of pairs with the same number of unexplained tracks does depend on the number of processes: with four images
of which two pairs have one common track each, not explained by a rotation, the two methods propose the pairs in opposite orders,
and so the reconstruction starts from another pair. -/
theorem C124_tie : ∃ (ransac : ℝ → List (V3 × V3) → M3) (argsort : List ℤ → List ℕ) (ops : List (Op ℕ ℕ ℕ))
    (camera : ℕ → Option (ℕ → V3)), (∀ t l, IsRot (ransac t l)) ∧ IsArgsort argsort ∧ (∀ s f o, camera s = some f → f o ⬝ᵥ f o = 1) ∧
    sequential ransac (1 / 100) camera id (fun a b => decide (a < b)) (run ops) 1 = some [(0, 1), (2, 3)] ∧
    parallel ransac argsort (1 / 100) camera id (fun a b => decide (a < b)) (run ops) 1 = some [(2, 3), (0, 1)] := by
  refine ⟨fun _ _ => 1, lastFirst, exTie, fun _ => some exBearing, fun _ _ => ⟨by simp, by simp⟩, lastFirst_argsort, ?_, ?_, ?_⟩
  · intro s f o h
    obtain rfl := Option.some.inj h
    unfold exBearing
    split <;> simp [dotProduct, Fin.sum_univ_three]
  · rw [sequential_eq, exTie_results]
    have hf : [(((0 : ℕ), (1 : ℕ)), (1 : ℤ)), ((2, 3), 1)].filter (fun e => 0 < e.2) = [((0, 1), 1), ((2, 3), 1)] := by decide +kernel
    simp only [Option.map_some, hf]
    unfold sortDown
    rw [List.mergeSort_of_pairwise (by decide +kernel)]
    rfl
  · rw [parallel_eq, exTie_results]
    have ho : lastFirst [-1, -1] = [1, 0] := by
      unfold lastFirst
      rw [List.mergeSort_of_pairwise (by decide +kernel)]
      rfl
    unfold sorted
    have hf : [(((0 : ℕ), (1 : ℕ)), (1 : ℤ)), ((2, 3), 1)].filter (fun e => 0 < e.2) = [((0, 1), 1), ((2, 3), 1)] := by decide +kernel
    simp only [Option.map_some, hf, List.map_cons, List.map_nil, ho]
    rfl

end Verif.PairOrder
