import Verif.Model.Neighborhood
import Verif.Props.SfmMap
import Mathlib.Data.List.Perm.Subperm
import Mathlib.Data.List.TakeWhile

/-!
# C36: shot neighbourhoods are bounded, connected and disjoint
-/
set_option linter.unusedSectionVars false
set_option linter.unusedSimpArgs false
namespace Verif.Nbh
variable {S L : Type} [DecidableEq S] [DecidableEq L]

/-! ## Specification -/

/-- A reconstruction graph: shots and landmarks point at each other. -/
structure Graph.Ok (G : Graph S L) : Prop where
  sym : ∀ s l, l ∈ G.lms s ↔ s ∈ G.shotsOf l
  isShot : ∀ s l, s ∈ G.shotsOf l → s ∈ G.shots
  nodup : ∀ l, (G.shotsOf l).Nodup

/-- Shots are partitioned into rig instances. -/
structure Graph.RigOk (G : Graph S L) : Prop where
  self : ∀ s ∈ G.shots, s ∈ G.rig s
  sub : ∀ s, ∀ t ∈ G.rig s, t ∈ G.shots
  same : ∀ s t, t ∈ G.rig s → ∀ u, u ∈ G.rig t ↔ u ∈ G.rig s

/-- `ord` returns the elements it is given, in some order. -/
def Reorders {α : Type} (ord : List α → List α) : Prop := ∀ l, (ord l).Perm l

/-- Number of distinct landmarks seen both by `s` and by some shot of `ids`. -/
def shared (G : Graph S L) (ids : List S) (s : S) : Nat :=
  ((ids.flatMap G.lms).dedup).countP (fun l => decide (l ∈ G.lms s))

/-- `N` are the best neighbours of `ids`: at most `maxN` shots outside `ids`, each sharing at least
`minCommon` (and one) landmarks with `ids`; a shot left out shares too few, or else `maxN` shots
sharing at least as many were taken. -/
structure Best (G : Graph S L) (ids : List S) (minCommon maxN : Nat) (N : List S) : Prop where
  nodup : N.Nodup
  outside : ∀ s ∈ N, s ∈ G.shots ∧ s ∉ ids
  enough : ∀ s ∈ N, 1 ≤ shared G ids s ∧ minCommon ≤ shared G ids s
  size : N.length ≤ maxN
  best : ∀ s ∈ G.shots, s ∉ ids → s ∉ N → 1 ≤ shared G ids s →
    shared G ids s < minCommon ∨
      (N.length = maxN ∧ ∀ n ∈ N, shared G ids s ≤ shared G ids n)

/-- Interiors obtained from `start` by adding layers of best neighbours, one per unit of distance,
as long as there is room. `mates` is what a chosen shot brings with it. -/
inductive Layers (G : Graph S L) (mates : S → List S) (minCommon maxInterior : Nat)
    (start : List S) : Nat → List S → Prop
  | start : Layers G mates minCommon maxInterior start 0 start
  | grow (k : Nat) (I N J : List S) (h : Layers G mates minCommon maxInterior start k I)
      (room : I.length < maxInterior)
      (layer : Best G I minCommon (maxInterior - I.length) N) (nodup : J.Nodup)
      (mem : ∀ s, s ∈ J ↔ s ∈ I ∨ ∃ n ∈ N, s ∈ mates n) :
      Layers G mates minCommon maxInterior start (k + 1) J

/-! ## Proofs -/

theorem get?_incr (ks : List S) (d : Dict S Nat) (k : S) :
    (Dict.get? (ks.foldl incr d) k).getD 0 = (Dict.get? d k).getD 0 + ks.count k := by
  induction ks generalizing d with
  | nil => simp
  | cons a t ih =>
    rw [List.foldl_cons, ih, incr, Dict.get?_set, List.count_cons]
    by_cases h : a = k
    · subst h; simp; omega
    · simp [h]

theorem mem_keys_incr (ks : List S) (d : Dict S Nat) (k : S) :
    k ∈ Dict.keys (ks.foldl incr d) ↔ k ∈ Dict.keys d ∨ k ∈ ks := by
  induction ks generalizing d with
  | nil => simp
  | cons a t ih =>
    rw [List.foldl_cons, ih, incr, Dict.mem_keys_set, List.mem_cons]
    constructor
    · rintro ((h | h) | h)
      · first
          | exact Or.inl h
          | exact Or.inr (Or.inl h)
      · first
          | exact Or.inl h
          | exact Or.inr (Or.inl h)
      · exact Or.inr (Or.inr h)
    · rintro (h | h | h)
      · left; tauto
      · left; tauto
      · exact Or.inr h

theorem wf_incr (ks : List S) (d : Dict S Nat) (h : Dict.Wf d) : Dict.Wf (ks.foldl incr d) := by
  induction ks generalizing d with
  | nil => exact h
  | cons a t ih => exact ih _ (Dict.wf_set h _ _)

theorem count_flatMap_filter (ls : List L) (f : L → List S) (hn : ∀ l, (f l).Nodup) (s : S) :
    (ls.flatMap f).count s = ls.countP (fun l => decide (s ∈ f l)) := by
  induction ls with
  | nil => simp
  | cons a t ih =>
    rw [List.flatMap_cons, List.count_append, ih, List.countP_cons]
    by_cases h : s ∈ f a
    · rw [List.count_eq_one_of_mem (hn a) h]; simp [h]; omega
    · rw [List.count_eq_zero_of_not_mem h]; simp [h]

variable {ordL : List L → List L} {perm : List (S × Nat) → List (S × Nat)}

theorem commonPoints_mem {G : Graph S L} (hG : G.Ok) (hL : Reorders ordL) (ids : List S)
    (s : S) (n : Nat) : (s, n) ∈ commonPoints G ordL ids ↔
      s ∈ G.shots ∧ s ∉ ids ∧ n = shared G ids s ∧ 1 ≤ n := by
  have hw : Dict.Wf (commonPoints G ordL ids) := wf_incr _ _ Dict.wf_nil
  have hcount : (Dict.get? (commonPoints G ordL ids) s).getD 0 =
      if s ∈ G.shots ∧ s ∉ ids then shared G ids s else 0 := by
    unfold commonPoints
    rw [get?_incr, count_flatMap_filter]
    · have : ∀ l, decide (s ∈ (G.shotsOf l).filter (fun s => decide (s ∈ G.shots ∧ s ∉ ids))) =
          (decide (s ∈ G.shots ∧ s ∉ ids) && decide (l ∈ G.lms s)) := by
        intro l
        simp only [List.mem_filter, ← hG.sym]
        by_cases h1 : s ∈ G.shots ∧ s ∉ ids <;> by_cases h2 : l ∈ G.lms s <;> simp [h1, h2]
      simp only [this, Dict.get?_nil, Option.getD_none, Nat.zero_add]
      rw [(hL _).countP_eq]
      split
      · rename_i h; simp [h, shared, points]
      · rename_i h
        simp only [h, decide_false, Bool.false_and, List.countP_false]
        rfl
    · intro l; exact (hG.nodup l).filter _
  have hpos : ∀ m, Dict.get? (commonPoints G ordL ids) s = some m → 1 ≤ m := by
    intro m hm
    have hk : s ∈ Dict.keys (commonPoints G ordL ids) := by rw [Dict.mem_keys_iff, hm]; rfl
    unfold commonPoints at hk
    rw [mem_keys_incr] at hk
    rcases hk with hk | hk
    · simp at hk
    · have := List.count_pos_iff.2 hk
      have h2 := get?_incr ((ordL (points G ids)).flatMap
        (fun l => (G.shotsOf l).filter (fun s => decide (s ∈ G.shots ∧ s ∉ ids)))) [] s
      unfold commonPoints at hm
      rw [hm] at h2
      simp only [Dict.get?_nil, Option.getD_none, Option.getD_some] at h2
      omega
  rw [Dict.mem_iff_get? hw]
  constructor
  · intro h
    have hp := hpos n h
    rw [h] at hcount
    simp only [Option.getD_some] at hcount
    split at hcount
    · rename_i hc; exact ⟨hc.1, hc.2, hcount, hp⟩
    · omega
  · rintro ⟨h1, h2, rfl, h4⟩
    rw [if_pos ⟨h1, h2⟩] at hcount
    cases hx : Dict.get? (commonPoints G ordL ids) s with
    | none => rw [hx] at hcount; simp at hcount; omega
    | some m => rw [hx] at hcount; simp at hcount; rw [hcount]

theorem pairs_perm (hP : Reorders perm) (G : Graph S L) (ids : List S) :
    (pairs G ordL perm ids).Perm (commonPoints G ordL ids) :=
  (List.perm_insertionSort _ _).trans (hP _)

theorem pairs_sorted (G : Graph S L) (ids : List S) :
    (pairs G ordL perm ids).Pairwise (fun a b => b.2 ≤ a.2) := by
  have : Std.Total (fun (a b : S × Nat) => b.2 ≤ a.2) := ⟨fun a b => by omega⟩
  have : IsTrans (S × Nat) (fun a b => b.2 ≤ a.2) := ⟨fun a b c h1 h2 => by omega⟩
  exact List.pairwise_insertionSort _ _

theorem takeWhile_sorted_mem (l : List (S × Nat)) (hs : l.Pairwise (fun a b => b.2 ≤ a.2))
    (c : Nat) (q : S × Nat) :
    q ∈ l.takeWhile (fun q => decide (c ≤ q.2)) ↔ q ∈ l ∧ c ≤ q.2 := by
  induction l with
  | nil => simp
  | cons a t ih =>
    rw [List.pairwise_cons] at hs
    rw [List.takeWhile_cons]
    by_cases h : c ≤ a.2
    · simp only [h, decide_true, if_true, List.mem_cons, ih hs.2]
      constructor
      · rintro (rfl | ⟨h1, h2⟩)
        · exact ⟨Or.inl rfl, h⟩
        · exact ⟨Or.inr h1, h2⟩
      · rintro ⟨rfl | h1, h2⟩
        · exact Or.inl rfl
        · exact Or.inr ⟨h1, h2⟩
    · simp only [h, decide_false, Bool.false_eq_true, if_false, List.not_mem_nil, false_iff]
      rintro ⟨h1, h2⟩
      rcases List.mem_cons.1 h1 with rfl | h1
      · exact h h2
      · have := hs.1 q h1; omega

theorem chosen_best {G : Graph S L} (hG : G.Ok) (hL : Reorders ordL) (hP : Reorders perm)
    (ids : List S) (minCommon maxN : Nat) :
    Best G ids minCommon maxN (chosen G ordL perm ids minCommon maxN) := by
  have hperm := pairs_perm (ordL := ordL) hP G ids
  have hsort := pairs_sorted (ordL := ordL) (perm := perm) G ids
  have hw : ((pairs G ordL perm ids).map Prod.fst).Nodup := by
    have : Dict.Wf (commonPoints G ordL ids) := wf_incr _ _ Dict.wf_nil
    exact (hperm.map _).nodup_iff.2 this
  have hmem : ∀ s n, (s, n) ∈ pairs G ordL perm ids ↔
      s ∈ G.shots ∧ s ∉ ids ∧ n = shared G ids s ∧ 1 ≤ n := by
    intro s n; rw [hperm.mem_iff]; exact commonPoints_mem hG hL ids s n
  have hmc : ∀ s, s ∈ chosen G ordL perm ids minCommon maxN ↔
      ∃ n, (s, n) ∈ (pairs G ordL perm ids).take maxN ∧ minCommon ≤ n := by
    intro s
    unfold chosen
    rw [List.mem_map]
    constructor
    · rintro ⟨⟨s', n⟩, hq, rfl⟩
      exact ⟨n, (takeWhile_sorted_mem _ (hsort.sublist (List.take_sublist _ _)) _ _).1 hq⟩
    · rintro ⟨n, hq⟩
      exact ⟨(s, n), (takeWhile_sorted_mem _ (hsort.sublist (List.take_sublist _ _)) _ _).2 hq, rfl⟩
  constructor
  · exact hw.sublist (((List.takeWhile_sublist _).trans (List.take_sublist _ _)).map _)
  · intro s hs
    obtain ⟨n, hq, _⟩ := (hmc s).1 hs
    have := (hmem s n).1 (List.mem_of_mem_take hq)
    exact ⟨this.1, this.2.1⟩
  · intro s hs
    obtain ⟨n, hq, hm⟩ := (hmc s).1 hs
    obtain ⟨_, _, rfl, h1⟩ := (hmem s n).1 (List.mem_of_mem_take hq)
    exact ⟨h1, hm⟩
  · unfold chosen
    rw [List.length_map]
    exact ((List.takeWhile_sublist _).length_le).trans (List.length_take_le _ _)
  · intro s hs hid hno h1
    by_cases hlt : shared G ids s < minCommon
    · exact Or.inl hlt
    · right
      have hp : (s, shared G ids s) ∈ pairs G ordL perm ids := (hmem _ _).2 ⟨hs, hid, rfl, h1⟩
      have hnt : (s, shared G ids s) ∉ (pairs G ordL perm ids).take maxN := by
        intro hc; exact hno ((hmc s).2 ⟨_, hc, by omega⟩)
      have hdrop : (s, shared G ids s) ∈ (pairs G ordL perm ids).drop maxN := by
        rw [← List.take_append_drop maxN (pairs G ordL perm ids), List.mem_append] at hp
        exact hp.resolve_left hnt
      rw [← List.take_append_drop maxN (pairs G ordL perm ids), List.pairwise_append] at hsort
      have hge : ∀ q ∈ (pairs G ordL perm ids).take maxN, shared G ids s ≤ q.2 :=
        fun q hq => hsort.2.2 q hq _ hdrop
      have hall : ((pairs G ordL perm ids).take maxN).takeWhile
          (fun q => decide (minCommon ≤ q.2)) = (pairs G ordL perm ids).take maxN := by
        rw [List.takeWhile_eq_self_iff]
        intro q hq
        have := hge q hq
        simp; omega
      constructor
      · unfold chosen
        rw [hall, List.length_map, List.length_take]
        have : 0 < ((pairs G ordL perm ids).drop maxN).length := List.length_pos_of_mem hdrop
        rw [List.length_drop] at this
        omega
      · intro n hn
        obtain ⟨c, hq, _⟩ := (hmc n).1 hn
        have h2 := hge _ hq
        obtain ⟨_, _, h3, _⟩ := (hmem n c).1 (List.mem_of_mem_take hq)
        simp only at h2; omega

theorem mem_unite (a b : List S) (s : S) : s ∈ unite a b ↔ s ∈ a ∨ s ∈ b := by
  unfold unite
  rw [List.mem_append, List.mem_filter]
  by_cases h : s ∈ a <;> simp [h]

theorem nodup_unite {a b : List S} (ha : a.Nodup) (hb : b.Nodup) : (unite a b).Nodup := by
  unfold unite
  rw [List.nodup_append]
  refine ⟨ha, hb.filter _, ?_⟩
  intro x hx y hy e
  subst e
  rw [List.mem_filter] at hy
  simp at hy
  exact hy.2 hx

/-- The growing loop builds layers and stops at the radius or when it is full. -/
theorem growInterior_layers {G : Graph S L} {mates : S → List S} {minCommon maxI : Nat}
    {start : List S} {direct : List S → Nat → Nat → List S}
    (hd : ∀ I maxN, ∃ N, Best G I minCommon maxN N ∧ (direct I minCommon maxN).Nodup ∧
      ∀ s, s ∈ direct I minCommon maxN ↔ ∃ n ∈ N, s ∈ mates n)
    (n k : Nat) (I : List S) (h : Layers G mates minCommon maxI start k I) (hn : I.Nodup) :
    ∃ j, j ≤ n ∧ Layers G mates minCommon maxI start (k + j)
      (growInterior direct minCommon maxI n I) ∧
      (growInterior direct minCommon maxI n I).Nodup ∧
      (j = n ∨ maxI ≤ (growInterior direct minCommon maxI n I).length) := by
  induction n generalizing k I with
  | zero => exact ⟨0, Nat.le_refl _, h, hn, Or.inl rfl⟩
  | succ n ih =>
    rw [growInterior]
    split
    · rename_i hfull
      exact ⟨0, Nat.zero_le _, h, hn, Or.inr hfull⟩
    · rename_i hroom
      obtain ⟨N, hN, hnd, hm⟩ := hd I (maxI - I.length)
      have h' : Layers G mates minCommon maxI start (k + 1)
          (unite I (direct I minCommon (maxI - I.length))) := by
        refine .grow k I N _ h (by omega) hN (nodup_unite hn hnd) ?_
        intro s; rw [mem_unite, hm]
      obtain ⟨j, hj, h1, h2, h3⟩ := ih (k + 1) _ h' (nodup_unite hn hnd)
      refine ⟨j + 1, by omega, ?_, h2, ?_⟩
      · rw [show k + (j + 1) = k + 1 + j by omega]; exact h1
      · rcases h3 with h3 | h3
        · left; omega
        · right; exact h3

/-- Without rig mates, a layered interior never exceeds its size. -/
theorem Layers.size {G : Graph S L} {mates : S → List S} (hm : ∀ s, mates s = [s])
    {minCommon maxI : Nat} {start : List S} {k : Nat} {I : List S}
    (h : Layers G mates minCommon maxI start k I) : I.length ≤ max start.length maxI := by
  cases h with
  | start => omega
  | grow k I' N J h room layer nodup mem =>
    have hle : I.length ≤ (I' ++ N).length := by
      apply List.Subperm.length_le
      apply List.Nodup.subperm nodup
      intro s hs
      rw [List.mem_append]
      rcases (mem s).1 hs with h | ⟨n, hn, h⟩
      · exact Or.inl h
      · rw [hm, List.mem_singleton] at h
        subst h; exact Or.inr hn
    have := layer.size
    rw [List.length_append] at hle
    omega

theorem Layers.start_subset {G : Graph S L} {mates : S → List S}
    {minCommon maxI : Nat} {start : List S} {k : Nat} {I : List S}
    (h : Layers G mates minCommon maxI start k I) : ∀ s ∈ start, s ∈ I := by
  induction h with
  | start => intro s hs; exact hs
  | grow k I' N J h room layer nodup mem ih => intro s hs; exact (mem s).2 (Or.inl (ih s hs))

theorem boundary_exact {G : Graph S L} {I N : List S} (hb : Best G I 1 1000000 N)
    (hsmall : G.shots.length < 1000000) :
    ∀ s, s ∈ N ↔ s ∈ G.shots ∧ s ∉ I ∧ ∃ t ∈ I, ∃ l, l ∈ G.lms s ∧ l ∈ G.lms t := by
  have hsh : ∀ s, 1 ≤ shared G I s ↔ ∃ t ∈ I, ∃ l, l ∈ G.lms s ∧ l ∈ G.lms t := by
    intro s
    unfold shared
    rw [Nat.succ_le_iff, List.countP_pos_iff]
    simp only [List.mem_dedup, List.mem_flatMap, decide_eq_true_eq]
    constructor
    · rintro ⟨l, ⟨t, ht, hl⟩, hs⟩; exact ⟨t, ht, l, hs, hl⟩
    · rintro ⟨t, ht, l, hs, hl⟩; exact ⟨l, ⟨t, ht, hl⟩, hs⟩
  intro s
  rw [← hsh]
  constructor
  · intro hs
    exact ⟨(hb.outside s hs).1, (hb.outside s hs).2, (hb.enough s hs).1⟩
  · rintro ⟨h1, h2, h3⟩
    by_contra hno
    rcases hb.best s h1 h2 hno h3 with h | ⟨h, _⟩
    · omega
    · have : N.length ≤ G.shots.length :=
        List.Subperm.length_le (List.Nodup.subperm hb.nodup (fun t ht => (hb.outside t ht).1))
      omega

/-- **C36, Python.** For every reconstruction graph and every parameter (fewer than a million
shots): the interior contains the centre, has at most `max(1, max_interior_size)` shots, is built
from the centre by at most `radius - 1` layers, each made of the best neighbours (sharing at least
`min_common_points` landmarks) of the interior before it, and stops earlier only when full; the
boundary is disjoint from it and is exactly the other shots that see a landmark seen by a shot of
the interior. -/
theorem C36_python (G : Graph S L) (hG : G.Ok) (hL : Reorders ordL) (hP : Reorders perm)
    (central : S) (radius minCommon maxInterior : Nat) (hsmall : G.shots.length < 1000000) :
    let r := neighborhoodPy G ordL perm central radius minCommon maxInterior
    central ∈ r.1 ∧ r.1.Nodup ∧ r.1.length ≤ max 1 maxInterior ∧
    (∃ k, k ≤ radius - 1 ∧ Layers G (fun s => [s]) minCommon maxInterior [central] k r.1 ∧
      (k = radius - 1 ∨ maxInterior ≤ r.1.length)) ∧
    (∀ s ∈ r.2, s ∉ r.1) ∧ r.2.Nodup ∧
    (∀ s, s ∈ r.2 ↔ s ∈ G.shots ∧ s ∉ r.1 ∧ ∃ t ∈ r.1, ∃ l, l ∈ G.lms s ∧ l ∈ G.lms t) := by
  intro r
  obtain ⟨j, hj, h1, h2, h3⟩ := growInterior_layers (G := G) (mates := fun s => [s])
    (minCommon := minCommon) (maxI := maxInterior) (start := [central])
    (direct := directPy G ordL perm)
    (fun I maxN => ⟨_, chosen_best hG hL hP I minCommon maxN,
      (chosen_best hG hL hP I minCommon maxN).nodup, by
        intro s
        simp [directPy]⟩)
    (radius - 1) 0 [central] .start (by simp)
  rw [Nat.zero_add] at h1
  have hb := chosen_best hG hL hP r.1 1 1000000
  have hex := boundary_exact hb hsmall
  refine ⟨h1.start_subset _ (by simp), h2, h1.size (fun _ => rfl), ⟨j, hj, h1, h3⟩, ?_, hb.nodup,
    hex⟩
  intro s hs
  exact ((hex s).1 hs).2.1

/-- **C36, C++.** The same with rig instances: the interior starts from the rig instance of the
centre, each chosen neighbour brings its rig instance, so interior and boundary consist of whole
rig instances; the interior stops growing once it holds `max_interior_size` shots (it may exceed it
by the rig mates). -/
theorem C36_cpp (G : Graph S L) (hG : G.Ok) (hR : G.RigOk) (hL : Reorders ordL) (hP : Reorders perm)
    (central : S) (hc : central ∈ G.shots)
    (radius minCommon maxInterior : Nat) (hsmall : G.shots.length < 1000000) :
    let r := neighborhoodCpp G ordL perm central radius minCommon maxInterior
    central ∈ r.1 ∧ r.1.Nodup ∧ (∀ s ∈ r.1, s ∈ G.shots) ∧
    (∃ k start, k ≤ radius - 1 ∧ (∀ s, s ∈ start ↔ s ∈ G.rig central) ∧
      Layers G G.rig minCommon maxInterior start k r.1 ∧
      (k = radius - 1 ∨ maxInterior ≤ r.1.length)) ∧
    (∀ s ∈ r.1, ∀ t ∈ G.rig s, t ∈ r.1) ∧
    (∀ s ∈ r.2, s ∉ r.1) ∧ r.2.Nodup ∧
    (∀ s, s ∈ r.2 ↔ ∃ u ∈ G.shots, s ∈ G.rig u ∧ u ∉ r.1 ∧
      ∃ t ∈ r.1, ∃ l, l ∈ G.lms u ∧ l ∈ G.lms t) := by
  intro r
  have hstart : ∀ s, s ∈ unite (G.rig central).dedup [central] ↔ s ∈ G.rig central := by
    intro s
    rw [mem_unite, List.mem_dedup, List.mem_singleton]
    constructor
    · rintro (h | rfl)
      · exact h
      · exact hR.self _ hc
    · exact Or.inl
  obtain ⟨j, hj, h1, h2, h3⟩ := growInterior_layers (G := G) (mates := G.rig)
    (minCommon := minCommon) (maxI := maxInterior) (start := unite (G.rig central).dedup [central])
    (direct := directCpp G ordL perm)
    (fun I maxN => ⟨_, chosen_best hG hL hP I minCommon maxN, List.nodup_dedup _, by
        intro s
        simp [directCpp]⟩)
    (radius - 1) 0 _ .start (nodup_unite (List.nodup_dedup _) (by simp))
  rw [Nat.zero_add] at h1
  have hwhole : ∀ {k I}, Layers G G.rig minCommon maxInterior
      (unite (G.rig central).dedup [central]) k I →
      (∀ s ∈ I, s ∈ G.shots) ∧ ∀ s ∈ I, ∀ t ∈ G.rig s, t ∈ I := by
    intro k I h
    induction h with
    | start =>
      constructor
      · intro s hs; exact hR.sub central s ((hstart s).1 hs)
      · intro s hs t ht
        rw [hstart] at hs ⊢
        exact (hR.same central s hs t).1 ht
    | grow k I N J h room layer nodup mem ih =>
      constructor
      · intro s hs
        rcases (mem s).1 hs with h | ⟨n, hn, h⟩
        · exact ih.1 s h
        · exact hR.sub n s h
      · intro s hs t ht
        rw [mem]
        rcases (mem s).1 hs with h | ⟨n, hn, h⟩
        · exact Or.inl (ih.2 s h t ht)
        · exact Or.inr ⟨n, hn, (hR.same n s h t).1 ht⟩
  have hw := hwhole h1
  have hb := chosen_best hG hL hP r.1 1 1000000
  have hex := boundary_exact hb hsmall
  have hmem2 : ∀ s, s ∈ r.2 ↔ ∃ u ∈ G.shots, s ∈ G.rig u ∧ u ∉ r.1 ∧
      ∃ t ∈ r.1, ∃ l, l ∈ G.lms u ∧ l ∈ G.lms t := by
    intro s
    show s ∈ directCpp G ordL perm r.1 1 1000000 ↔ _
    unfold directCpp
    rw [List.mem_dedup, List.mem_flatMap]
    constructor
    · rintro ⟨u, hu, hs⟩
      obtain ⟨a, b, c⟩ := (hex u).1 hu
      exact ⟨u, a, hs, b, c⟩
    · rintro ⟨u, a, hs, b, c⟩
      exact ⟨u, (hex u).2 ⟨a, b, c⟩, hs⟩
  refine ⟨h1.start_subset _ ((hstart _).2 (hR.self _ hc)), h2, hw.1,
    ⟨j, _, hj, hstart, h1, h3⟩, hw.2, ?_, List.nodup_dedup _, hmem2⟩
  intro s hs hin
  obtain ⟨u, hu, hsu, hnot, _⟩ := (hmem2 s).1 hs
  exact hnot (hw.2 s hin u ((hR.same u s hsu u).2 (hR.self u hu)))

/-- The graph of every map reached by a disciplined history meets the hypotheses of `C36_python`
and `C36_cpp`. -/
theorem C36_map {Id A X K B P : Type} [DecidableEq Id] [Group P] [DecidableEq P] (b0 : B)
    (ops : List (SMap.Op Id A X K B P)) (hd : SMap.Disciplined b0 ops) :
    (ofMap (SMap.run b0 ops)).Ok ∧ (ofMap (SMap.run b0 ops)).RigOk := by
  have h := SMap.inv_run b0 ops hd
  generalize SMap.run b0 ops = m at *
  have hl : ∀ s l, l ∈ (ofMap m).lms s ↔ (m.shotObservation s l).isSome := by
    intro s l
    simp only [ofMap, SMap.shotObservation]
    cases m.shots.get? s with
    | none => simp
    | some st => simp [Dict.mem_keys_iff]
  have hs : ∀ s l, s ∈ (ofMap m).shotsOf l ↔ (m.landmarkObservation l s).isSome := by
    intro s l
    simp only [ofMap, SMap.landmarkObservation]
    cases m.landmarks.get? l with
    | none => simp
    | some lm => simp [Dict.mem_keys_iff]
  have hsym : ∀ s l, (m.shotObservation s l).isSome ↔ (m.landmarkObservation l s).isSome := by
    intro s l
    constructor
    · intro hx
      obtain ⟨o, ho⟩ := Option.isSome_iff_exists.1 hx
      rw [(h.sym s l o.feat).2 ⟨o, ho, rfl⟩]; rfl
    · intro hx
      obtain ⟨f, hf⟩ := Option.isSome_iff_exists.1 hx
      obtain ⟨o, ho, _⟩ := (h.sym s l f).1 hf
      rw [ho]; rfl
  have hr : ∀ s t, t ∈ (ofMap m).rig s ↔ ∃ st st', m.shots.get? s = some st ∧
      m.shots.get? t = some st' ∧ st'.rigInstance = st.rigInstance := by
    intro s t
    simp only [ofMap]
    cases hs : m.shots.get? s with
    | none => simp
    | some st =>
      have key := h.rig t st.rigInstance
      simp only [SMap.instanceShot] at key
      cases hi : m.rigInstances.get? st.rigInstance with
      | none =>
        simp only [hi, Option.bind_none] at key
        simp only [hi, List.not_mem_nil, false_iff]
        rintro ⟨st1, st2, h1, h2, h3⟩
        cases h1
        have := (key st2.rigCamera).2 ⟨st2, h2, h3, rfl⟩
        cases this
      | some inst =>
        simp only [hi, Option.bind_some] at key
        simp only [hi, Dict.mem_keys_iff]
        constructor
        · intro hx
          obtain ⟨rc, hrc⟩ := Option.isSome_iff_exists.1 hx
          obtain ⟨st', h1, h2, _⟩ := (key rc).1 hrc
          exact ⟨st, st', rfl, h1, h2⟩
        · rintro ⟨st1, st2, h1, h2, h3⟩
          cases h1
          rw [(key st2.rigCamera).2 ⟨st2, h2, h3, rfl⟩]; rfl
  constructor
  · constructor
    · intro s l; rw [hl, hs, hsym]
    · intro s l hsl
      rw [hs, ← hsym] at hsl
      show s ∈ m.shots.keys
      rw [Dict.mem_keys_iff]
      simp only [SMap.shotObservation] at hsl
      cases hx : m.shots.get? s with
      | none => simp [hx] at hsl
      | some st => rfl
    · intro l
      simp only [ofMap]
      cases hx : m.landmarks.get? l with
      | none => simp
      | some lm => exact h.lmWf l lm hx
  · constructor
    · intro s hs
      have hs' : s ∈ m.shots.keys := hs
      rw [Dict.mem_keys_iff] at hs'
      obtain ⟨st, hst⟩ := Option.isSome_iff_exists.1 hs'
      exact (hr s s).2 ⟨st, st, hst, hst, rfl⟩
    · intro s t ht
      obtain ⟨st, st', _, h2, _⟩ := (hr s t).1 ht
      show t ∈ m.shots.keys
      rw [Dict.mem_keys_iff, h2]; rfl
    · intro s t ht u
      obtain ⟨st, st', h1, h2, h3⟩ := (hr s t).1 ht
      rw [hr, hr]
      constructor
      · rintro ⟨a, b, ha, hb, e⟩
        rw [h2] at ha; cases ha
        exact ⟨st, b, h1, hb, e.trans h3⟩
      · rintro ⟨a, b, ha, hb, e⟩
        rw [h1] at ha; cases ha
        exact ⟨st', b, h2, hb, e.trans h3.symm⟩

/-- Shots 0-1-2-3 in a chain; shot 0 is the centre, radius 3, room for two more. -/
def exGraph : Graph Nat Nat where
  shots := [0, 1, 2, 3]
  lms := fun s => if s = 0 then [10, 11] else if s = 1 then [10, 11, 12, 13] else
    if s = 2 then [12, 13, 14] else if s = 3 then [14] else []
  shotsOf := fun l => if l = 10 ∨ l = 11 then [0, 1] else if l = 12 ∨ l = 13 then [1, 2] else
    if l = 14 then [2, 3] else []
  rig := fun s => if s = 0 ∨ s = 1 ∨ s = 2 ∨ s = 3 then [s] else []

example : neighborhoodPy exGraph id id 0 3 2 10 = ([0, 1, 2], [3]) ∧
    neighborhoodPy exGraph id id 0 3 2 2 = ([0, 1], [2]) ∧
    neighborhoodCpp exGraph id id 0 3 2 10 = ([0, 1, 2], [3]) := by decide +kernel

example : Graph.Ok exGraph := by
  constructor
  · intro s l
    simp only [exGraph]
    grind
  · intro s l h
    simp only [exGraph] at h ⊢
    split at h
    · simp at h ⊢; omega
    · split at h
      · simp at h ⊢; omega
      · split at h
        · simp at h ⊢; omega
        · simp at h
  · intro l
    simp only [exGraph]
    split
    · simp
    · split
      · simp
      · split <;> simp

end Verif.Nbh
