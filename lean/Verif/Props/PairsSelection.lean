import Verif.Lemmas.PairsSelection
import Mathlib.Algebra.Order.Ring.Rat
import Mathlib.Algebra.Order.Group.Abs
import Mathlib.Algebra.Order.Group.Int

/-!
Properties C21 (ordered pairs), C22 (order window), C23 (candidates from metadata) and C24
(neighbour lists).
-/
set_option linter.unusedSectionVars false
set_option linter.unusedSimpArgs false
namespace Verif.PairsSelection

variable {Id : Type} [LinearOrder Id] {D C : Type}

/-! ### C21 -/

/-- `ordered_pairs` terminates (after at most one iteration per reference image) for every order in
which sets are iterated and popped; each returned pair starts with a reference image and is one of
the given pairs, in one direction or the other; every given pair that contains a reference image is
returned, in exactly one direction (both only if the two images are the same). -/
theorem C21_ordered_pairs (picks : Nat → Nat) (pairs : List (Id × Id)) (refs : List Id)
    (hnd : refs.Nodup) :
    ∃ out, orderedPairs picks pairs refs = some out ∧ out.Nodup ∧
      (∀ a b, (a, b) ∈ out → a ∈ refs ∧ ((a, b) ∈ pairs ∨ (b, a) ∈ pairs)) ∧
      (∀ a b, (a, b) ∈ pairs → a ∈ refs ∨ b ∈ refs → (a, b) ∈ out ∨ (b, a) ∈ out) ∧
      (∀ a b, (a, b) ∈ out → (b, a) ∈ out → a = b) := by
  obtain ⟨out, h1, h2, h3⟩ := orderedPairs_spec picks pairs refs hnd
  refine ⟨out, h1, h2.nodup, ?_, ?_, h2.anti⟩
  · intro a b hab
    obtain ⟨h4, h5⟩ := h2.mem a b hab
    exact ⟨h4, (mem_perImage pairs a b).1 h5⟩
  · rintro a b hab (ha | hb)
    · exact h3 a ha b ((mem_perImage pairs a b).2 (Or.inl hab))
    · exact (h3 b hb a ((mem_perImage pairs b a).2 (Or.inr hab))).symm

/-- Three references, one of them in a pair with a non-reference, popped in some order. -/
example : ([1, 2, 3] : List Nat).Nodup ∧
    orderedPairs (fun _ => 2) [(1, 2), (2, 3), (3, 9), (8, 9)] [1, 2, 3] =
      some [(2, 1), (3, 9), (3, 2)] := by decide

/-! ### C22 -/

/-- The pairs by order are exactly those of a reference image at position `i` with a different
candidate at position `j`, `i - n ≤ j < i + n` for `n = ⌊(max_neighbors + 1) / 2⌋`; a non-positive
`max_neighbors` gives no pair. -/
theorem C22_window (refs cand : List Id) (m : Int) (p : Id × Id) :
    p ∈ matchByOrder refs cand m ↔ 0 < m ∧ ∃ (i j : Nat) (r c : Id),
      refs[i]? = some r ∧ cand[j]? = some c ∧ r ≠ c ∧ p = sortedPair r c ∧
      (i : Int) - (m + 1) / 2 ≤ j ∧ (j : Int) < i + (m + 1) / 2 := by
  unfold matchByOrder
  by_cases hm : m ≤ 0
  · simp [hm]
  · have hn : ((((m + 1) / 2).toNat : Nat) : Int) = (m + 1) / 2 := Int.toNat_of_nonneg (by omega)
    simp only [hm, if_false, mem_orderLoopRefs, List.not_mem_nil, false_or]
    constructor
    · rintro ⟨i, j, r, c, h1, h2, h3, h4, h5, h6⟩
      exact ⟨by omega, i, j, r, c, h1, h2, h5, h6, by omega, by omega⟩
    · rintro ⟨_, i, j, r, c, h1, h2, h3, h4, h5, h6⟩
      exact ⟨i, j, r, c, h1, h2, by omega, by omega, h3, h4⟩

/-- When references and candidates are the same sequence of distinct images, two images are paired
iff their positions differ by at most `⌊(max_neighbors + 1) / 2⌋` (and are not the same). -/
theorem C22_same_sequence (images : List Id) (hnd : images.Nodup) (m : Int) (hm : 0 < m)
    (i j : Nat) (a b : Id) (hi : images[i]? = some a) (hj : images[j]? = some b) :
    sortedPair a b ∈ matchByOrder images images m ↔
      i ≠ j ∧ |(i : Int) - j| ≤ (m + 1) / 2 := by
  have pos : ∀ (k l : Nat) (x : Id), images[k]? = some x → images[l]? = some x → k = l := by
    intro k l x hk hl
    obtain ⟨h1, h2⟩ := List.getElem?_eq_some_iff.1 hk
    obtain ⟨h3, h4⟩ := List.getElem?_eq_some_iff.1 hl
    exact (List.Nodup.getElem_inj_iff hnd).1 (h2.trans h4.symm)
  rw [C22_window]
  constructor
  · rintro ⟨_, i', j', r, c, h1, h2, h3, h4, h5, h6⟩
    have hne : i' ≠ j' := by
      rintro rfl
      rw [h1] at h2; exact h3 (Option.some.inj h2)
    rcases sortedPair_inj.1 h4 with ⟨rfl, rfl⟩ | ⟨rfl, rfl⟩
    · have e1 := pos _ _ _ hi h1
      have e2 := pos _ _ _ hj h2
      subst e1 e2
      exact ⟨hne, abs_le.2 (by omega)⟩
    · have e1 := pos _ _ _ hi h2
      have e2 := pos _ _ _ hj h1
      subst e1 e2
      exact ⟨hne.symm, abs_le.2 (by omega)⟩
  · rintro ⟨h1, h2⟩
    have h3 := abs_le.1 h2
    have hab : a ≠ b := by
      rintro rfl
      exact h1 (pos _ _ _ hi hj)
    rcases Nat.lt_or_ge i j with h | h
    · exact ⟨hm, j, i, b, a, hj, hi, hab.symm, sortedPair_comm _ _, by omega, by omega⟩
    · exact ⟨hm, i, j, a, b, hi, hj, hab, rfl, by omega, by omega⟩

example : matchByOrder [1, 2, 3, 4, 5] [1, 2, 3, 4, 5] 2 = [(4, 5), (3, 4), (2, 3), (1, 2)] := by
  decide

/-! ### C23 -/

/-- The unordered pair `p` joins a reference image and a different candidate image. -/
def RefCand (refs cand : List Id) (p : Id × Id) : Prop :=
  ∃ r ∈ refs, ∃ c ∈ cand, r ≠ c ∧ p = sortedPair r c

theorem refCand_distance [LinearOrder D] [Zero D] (refs cand : List Id) (al : Bool)
    (q : D → Id → Nat → List Nat) (m : Int) (d : D) (p : Id × Id)
    (h : p ∈ matchByDistance refs cand al q m d) : RefCand refs cand p := by
  unfold matchByDistance at h
  split at h
  · simp at h
  · split at h
    · simp at h
    · simp only at h
      split at h
      · simp at h
      · rw [mem_foldl_query cand (fun r => q d r _)] at h
        obtain ⟨r, hr, j, _, c, hc, hne, rfl⟩ := h
        exact ⟨r, hr, c, List.mem_of_getElem? hc, hne, rfl⟩

theorem refCand_time (refs cand : List Id) (q : Id → Nat → List Nat) (m : Int) (p : Id × Id)
    (h : p ∈ matchByTime refs cand q m) : RefCand refs cand p := by
  unfold matchByTime at h
  split at h
  · simp at h
  · simp only at h
    rw [mem_foldl_query cand (fun r => q r _)] at h
    obtain ⟨r, hr, j, _, c, hc, hne, rfl⟩ := h
    exact ⟨r, hr, c, List.mem_of_getElem? hc, hne, rfl⟩

theorem refCand_order (refs cand : List Id) (m : Int) (p : Id × Id)
    (h : p ∈ matchByOrder refs cand m) : RefCand refs cand p := by
  obtain ⟨_, i, j, r, c, h1, h2, h3, h4, _⟩ := (C22_window _ _ _ _).1 h
  exact ⟨r, List.mem_of_getElem? h1, c, List.mem_of_getElem? h2, h3, h4⟩

theorem refCand_graph (refs cand : List Id) (es : List (Id × Id)) (n : Int) (p : Id × Id)
    (h : p ∈ matchByGraph refs cand es n) : RefCand refs cand p := by
  unfold matchByGraph at h
  split at h
  · simp at h
  · rw [mem_foldl_add (graphEdge refs cand) (fun e p => e.1 ≠ e.2 ∧
      ((e.1 ∈ cand ∧ e.2 ∈ refs) ∨ (e.2 ∈ cand ∧ e.1 ∈ refs)) ∧ p = sortedPair e.1 e.2)] at h
    · simp only [List.not_mem_nil, false_or] at h
      obtain ⟨e, _, hne, h1 | h1, rfl⟩ := h
      · exact ⟨e.2, h1.2, e.1, h1.1, hne.symm, sortedPair_comm _ _⟩
      · exact ⟨e.1, h1.2, e.2, h1.1, hne, rfl⟩
    · intro ps e p
      unfold graphEdge
      split
      · simp_all
      · split
        · rw [List.mem_insert_iff]; tauto
        · tauto

theorem constructOne_key [DecidableEq C] (argsort : List (Entry Id D) → List (Entry Id D))
    (cam : Id → C) (n : Nat) (enf : Bool) (d : Dict (Id × Id) D) (r : Id × List (Entry Id D))
    (k : Id × Id) :
    ((constructOne argsort cam n enf d r).get? k).isSome ↔
      (d.get? k).isSome ∨ ((constructOne argsort cam n enf [] r).get? k).isSome := by
  have upd : ∀ (l d : Dict (Id × Id) D),
      ((l.foldl (fun (d : Dict (Id × Id) D) kv => d.set kv.1 kv.2) d).get? k).isSome ↔
        (d.get? k).isSome ∨ k ∈ l.map Prod.fst := by
    intro l
    induction l with
    | nil => simp
    | cons a l ih =>
      intro d
      rw [List.foldl_cons, ih, Dict.get?_set]
      by_cases h : a.1 = k
      · simp [h]
      · have h' : ¬ k = a.1 := fun x => h x.symm
        simp [h, h']
  unfold constructOne
  cases enf with
  | true =>
    simp only [if_true]
    rw [upd, upd]; simp
  | false =>
    simp only [Bool.false_eq_true, if_false]
    rw [putPairs_key, putPairs_key]; simp

theorem constructPairs_key [DecidableEq C] (argsort : List (Entry Id D) → List (Entry Id D))
    (cam : Id → C) (n : Nat) (enf : Bool) (rs : List (Id × List (Entry Id D))) (k : Id × Id) :
    ((constructPairs argsort cam n enf rs).get? k).isSome ↔
      ∃ r ∈ rs, ((constructOne argsort cam n enf [] r).get? k).isSome := by
  unfold constructPairs
  suffices H : ∀ d : Dict (Id × Id) D,
      ((rs.foldl (constructOne argsort cam n enf) d).get? k).isSome ↔
        (d.get? k).isSome ∨ ∃ r ∈ rs, ((constructOne argsort cam n enf [] r).get? k).isSome by
    simpa using H []
  induction rs with
  | nil => simp
  | cons r rs ih => intro d; rw [List.foldl_cons, ih, constructOne_key]; simp [or_assoc]

theorem mem_constructOne [DecidableEq C] (argsort : List (Entry Id D) → List (Entry Id D))
    (hp : ∀ l, (argsort l).Perm l) (cam : Id → C) (n : Nat) (enf : Bool)
    (r : Id × List (Entry Id D)) (k : Id × Id)
    (h : ((constructOne argsort cam n enf [] r).get? k).isSome) :
    ∃ e ∈ r.2, k = sortedPair r.1 e.1 := by
  unfold constructOne at h
  cases enf with
  | true =>
    simp only [if_true] at h
    have upd : ∀ (l d : Dict (Id × Id) D),
        ((l.foldl (fun (d : Dict (Id × Id) D) kv => d.set kv.1 kv.2) d).get? k).isSome →
          (d.get? k).isSome ∨ k ∈ Dict.keys l := by
      intro l
      induction l with
      | nil => intro d h; exact Or.inl h
      | cons a l ih =>
        intro d h
        rw [List.foldl_cons] at h
        rcases ih _ h with h | h
        · rw [Dict.get?_set] at h
          by_cases h' : a.1 = k
          · right; simp [Dict.keys, h']
          · simp only [h', if_false] at h; exact Or.inl h
        · right
          simp only [Dict.keys, List.map_cons, List.mem_cons]
          exact Or.inr h
    rcases upd _ _ h with h | h
    · simp at h
    · rw [Dict.mem_keys_iff] at h
      rw [show pairsFromNeighbors cam r.1 n (argsort r.2) = putPairs r.1 []
        ((neighborLoop cam r.1 n (argsort r.2) [] []).1 ++
          (neighborLoop cam r.1 n (argsort r.2) [] []).2) from rfl,
        neighborLoop_eq _ _ _ _ _ _ (by simp) (by simp)] at h
      rw [putPairs_key] at h
      simp only [Dict.get?_nil, Option.isSome_none, Bool.false_eq_true, false_or] at h
      obtain ⟨e, he, rfl⟩ := h
      refine ⟨e, (hp r.2).mem_iff.1 ?_, rfl⟩
      simp only [List.nil_append, List.mem_append] at he
      rcases he with he | he
      · exact List.mem_of_mem_filter (List.mem_of_mem_take he)
      · exact List.mem_of_mem_filter (List.mem_of_mem_take he)
  | false =>
    simp only [Bool.false_eq_true, if_false] at h
    rw [putPairs_key] at h
    simp only [Dict.get?_nil, Option.isSome_none, Bool.false_eq_true, false_or] at h
    obtain ⟨e, he, rfl⟩ := h
    exact ⟨e, (hp r.2).mem_iff.1 (List.mem_of_mem_take he), rfl⟩

/-- Every entry of the preempted candidates joins a reference and a candidate. -/
def PreOk (refs cand : List Id) (d : Dict Id (List Id)) : Prop :=
  ∀ im l, (im, l) ∈ d → ∀ x ∈ l, x ≠ im → RefCand refs cand (sortedPair im x)

theorem preOk_everyone (refs cand : List Id) : PreOk refs cand (everyone refs cand) := by
  unfold everyone
  suffices H : ∀ (rs : List Id) (d : Dict Id (List Id)), (∀ r ∈ rs, r ∈ refs) →
      PreOk refs cand d → PreOk refs cand (rs.foldl (fun d im => Dict.set d im cand) d) from
    H refs [] (fun r h => h) (by intro im l h; cases h)
  intro rs
  induction rs with
  | nil => intro d _ h; exact h
  | cons r rs ih =>
    intro d hr h
    rw [List.foldl_cons]
    apply ih _ (fun x hx => hr x (List.mem_cons_of_mem _ hx))
    intro im l hl x hx hne
    rcases Dict.mem_set hl with h' | ⟨rfl, rfl⟩
    · exact h im l h' x hx hne
    · exact ⟨im, hr _ List.mem_cons_self, x, hx, hne.symm, rfl⟩

theorem preOk_push {refs cand : List Id} {d : Dict Id (List Id)} (h : PreOk refs cand d) (a b : Id)
    (hab : RefCand refs cand (sortedPair a b)) : PreOk refs cand (Dict.push d a b) := by
  intro im l hl x hx hne
  unfold Dict.push at hl
  rcases Dict.mem_set hl with h' | ⟨rfl, rfl⟩
  · exact h im l h' x hx hne
  · rcases List.mem_append.1 hx with hx | hx
    · cases hg : d.get? im with
      | none => rw [hg] at hx; simp at hx
      | some l' => rw [hg] at hx; exact h im l' (Dict.mem_of_get? hg) x hx hne
    · simp only [List.mem_singleton] at hx; subst hx; exact hab

theorem preOk_preempt (refs cand : List Id) (lim : Bool) (gps : List (Id × Id))
    (hg : ∀ p ∈ gps, RefCand refs cand p) :
    PreOk refs cand (preemptCandidates refs cand lim gps) := by
  unfold preemptCandidates
  split
  · suffices H : ∀ (d : Dict Id (List Id)), PreOk refs cand d →
        PreOk refs cand (gps.foldl (preemptStep refs) d) from H [] (by intro im l h; cases h)
    induction gps with
    | nil => intro d h; exact h
    | cons p gps ih =>
      intro d h
      rw [List.foldl_cons]
      apply ih (fun q hq => hg q (List.mem_cons_of_mem _ hq))
      have hp : RefCand refs cand (sortedPair p.1 p.2) := by
        obtain ⟨r, hr, c, hc, hne, e⟩ := hg p List.mem_cons_self
        refine ⟨r, hr, c, hc, hne, ?_⟩
        rcases sortedPair_eq r c with e' | e' <;> rw [e'] at e <;> subst e
        · rfl
        · exact sortedPair_comm _ _
      have hp' : RefCand refs cand (sortedPair p.2 p.1) := by rw [sortedPair_comm]; exact hp
      unfold preemptStep
      simp only
      split <;> split
      · exact preOk_push (preOk_push h _ _ hp) _ _ hp'
      · exact preOk_push h _ _ hp'
      · exact preOk_push h _ _ hp
      · exact h
  · exact preOk_everyone refs cand

theorem refCand_affinity [DecidableEq C] [LinearOrder D] [Zero D]
    (argsort : List (Entry Id D) → List (Entry Id D)) (hp : ∀ l, (argsort l).Perm l) (cam : Id → C)
    (dist : Id → Id → Option D) (al : Bool) (q : D → Id → Nat → List Nat) (refs cand : List Id)
    (cfg : AffinityConfig D) (p : Id × Id)
    (h : p ∈ (matchByAffinity argsort cam dist al q refs cand cfg).keys) : RefCand refs cand p := by
  unfold matchByAffinity at h
  split at h
  · simp at h
  · simp only at h
    rw [Dict.mem_keys_iff, constructPairs_key] at h
    obtain ⟨r, hr, hk⟩ := h
    obtain ⟨e, he, rfl⟩ := mem_constructOne argsort hp cam _ _ r p hk
    obtain ⟨⟨im, l⟩, hl, rfl⟩ := List.mem_map.1 hr
    have hok : PreOk refs cand (if cfg.fallback = true ∧
        (preemptCandidates refs cand (0 < cfg.gpsDistance ∨ 0 < cfg.gpsNeighbors)
          (matchByDistance refs cand al q cfg.gpsNeighbors cfg.gpsDistance)).length = 0
        then everyone refs cand
        else preemptCandidates refs cand (0 < cfg.gpsDistance ∨ 0 < cfg.gpsNeighbors)
          (matchByDistance refs cand al q cfg.gpsNeighbors cfg.gpsDistance)) := by
      split
      · exact preOk_everyone _ _
      · exact preOk_preempt _ _ _ _ (fun p hp => refCand_distance _ _ _ _ _ _ _ hp)
    unfold affinity at he ⊢
    simp only [List.mem_filterMap] at he
    obtain ⟨im2, h2, h3⟩ := he
    split at h3
    · rename_i hne
      cases hd : dist im im2 with
      | none => simp [hd] at h3
      | some d =>
        simp only [hd, Option.map_some, Option.some.injEq] at h3
        subst h3
        exact hok im l hl im2 h2 hne
    · cases h3

theorem mem_union (sets : List (List (Id × Id))) (p : Id × Id) :
    p ∈ sets.foldl (fun acc ps => ps.foldl (fun a p => a.insert p) acc) [] ↔
      ∃ ps ∈ sets, p ∈ ps := by
  rw [mem_foldl_add _ (fun ps p => p ∈ ps)]
  · simp
  · intro acc ps p
    rw [mem_foldl_add (fun a p => a.insert p) (fun q p => p = q)
      (fun a q p => by rw [List.mem_insert_iff]; tauto)]
    simp

/-- Candidate pairs from metadata, for every behaviour of the neighbour queries, triangulations and
distances. `refs` is the (sorted) list of references and `refSet` the same as a set.

* The call returns; every returned pair starts with a reference image, joins a reference and a
  different candidate image, and no unordered pair is returned twice.
* If every strategy is off (after the GPS strategies have been switched off because an image has no
  GPS), all reference x candidate pairs are returned.
* Otherwise exactly the union of the strategies' pairs is returned. -/
theorem C23_metadata [LinearOrder D] [Zero D] [DecidableEq C] (o : Oracle Id D C)
    (hsort : ∀ l, (o.argsort l).Perm l) (picks : Nat → Nat) (refSet refs cand : List Id)
    (hnd : refSet.Nodup) (hset : ∀ x, x ∈ refSet ↔ x ∈ refs) (gps : Bool) (c : Config D) :
    ∃ out, matchFromMetadata o picks refSet refs cand gps c = some out ∧ out.Nodup ∧
      (∀ a b, (a, b) ∈ out → a ∈ refs ∧ a ≠ b ∧ (b ∈ cand ∨ (b ∈ refs ∧ a ∈ cand)) ∧
        (b, a) ∉ out) ∧
      (allOff (disableGps gps c) = true → ∀ a b,
        ((a, b) ∈ out ∨ (b, a) ∈ out) ↔
          a ≠ b ∧ ((a ∈ refs ∧ b ∈ cand) ∨ (b ∈ refs ∧ a ∈ cand))) ∧
      (allOff (disableGps gps c) = false → ∀ a b,
        ((a, b) ∈ out ∨ (b, a) ∈ out) ↔
          ∃ ps ∈ strategyPairs o refs cand (disableGps gps c), sortedPair a b ∈ ps) := by
  set c' := disableGps gps c with hc'
  have hrc : ∀ p ∈ candidateSet o refs cand c', RefCand refs cand p := by
    intro p hp
    unfold candidateSet at hp
    split at hp
    · obtain ⟨r, hr, j, hj, hne, rfl⟩ := (mem_allPairs refs cand p).1 hp
      exact ⟨r, hr, j, hj, hne, rfl⟩
    · obtain ⟨ps, hps, hp⟩ := (mem_union _ _).1 hp
      simp only [strategyPairs, List.mem_cons, List.not_mem_nil, or_false] at hps
      rcases hps with rfl | rfl | rfl | rfl | rfl | rfl
      · exact refCand_distance _ _ _ _ _ _ _ hp
      · exact refCand_graph _ _ _ _ _ hp
      · exact refCand_time _ _ _ _ _ hp
      · exact refCand_order _ _ _ _ hp
      · exact refCand_affinity _ hsort _ _ _ _ _ _ _ _ hp
      · exact refCand_affinity _ hsort _ _ _ _ _ _ _ _ hp
  obtain ⟨out, h1, h2, h3, h4, h5⟩ := C21_ordered_pairs picks (candidateSet o refs cand c') refSet hnd
  -- membership of `candidateSet` is symmetric modulo sorting
  have hsorted : ∀ p ∈ candidateSet o refs cand c', p = sortedPair p.1 p.2 := by
    intro p hp
    obtain ⟨r, _, c, _, _, rfl⟩ := hrc p hp
    rcases sortedPair_eq r c with e | e <;> rw [e]
    · exact e.symm
    · rw [sortedPair_comm] at e; exact e.symm
  have huno : ∀ a b, ((a, b) ∈ out ∨ (b, a) ∈ out) ↔ sortedPair a b ∈ candidateSet o refs cand c' := by
    intro a b
    constructor
    · intro h
      have : (a, b) ∈ candidateSet o refs cand c' ∨ (b, a) ∈ candidateSet o refs cand c' := by
        rcases h with h | h
        · exact (h3 a b h).2
        · exact (h3 b a h).2.symm
      rcases this with h | h
      · rw [← hsorted _ h]; exact h
      · rw [sortedPair_comm, ← hsorted _ h]; exact h
    · intro h
      obtain ⟨r, hr, cc, hcc, hne, e⟩ := hrc _ h
      have hr' := (hset r).2 hr
      rcases sortedPair_inj.1 e with ⟨rfl, rfl⟩ | ⟨rfl, rfl⟩
      · rcases sortedPair_eq a b with e' | e' <;> rw [e'] at h
        · exact h4 a b h (Or.inl hr')
        · exact (h4 b a h (Or.inr hr')).symm
      · rcases sortedPair_eq a b with e' | e' <;> rw [e'] at h
        · exact h4 a b h (Or.inr hr')
        · exact (h4 b a h (Or.inl hr')).symm
  refine ⟨out, h1, h2, ?_, ?_, ?_⟩
  · intro a b hab
    obtain ⟨r, hr, cc, hcc, hne, e⟩ := hrc _ ((huno a b).1 (Or.inl hab))
    have ha := (hset a).1 (h3 a b hab).1
    have hne' : a ≠ b := by
      rcases sortedPair_inj.1 e with ⟨rfl, rfl⟩ | ⟨rfl, rfl⟩
      · exact hne
      · exact hne.symm
    refine ⟨ha, hne', ?_, fun hba => hne' (h5 a b hab hba)⟩
    rcases sortedPair_inj.1 e with ⟨rfl, rfl⟩ | ⟨rfl, rfl⟩
    · exact Or.inl hcc
    · exact Or.inr ⟨hr, hcc⟩
  · intro hoff a b
    rw [huno]
    unfold candidateSet
    simp only [hoff, if_true]
    rw [mem_allPairs]
    constructor
    · rintro ⟨i, hi, j, hj, hne, e⟩
      rcases sortedPair_inj.1 e with ⟨rfl, rfl⟩ | ⟨rfl, rfl⟩
      · exact ⟨hne, Or.inl ⟨hi, hj⟩⟩
      · exact ⟨hne.symm, Or.inr ⟨hi, hj⟩⟩
    · rintro ⟨hne, ⟨h6, h7⟩ | ⟨h6, h7⟩⟩
      · exact ⟨a, h6, b, h7, hne, rfl⟩
      · exact ⟨b, h6, a, h7, hne.symm, sortedPair_comm _ _⟩
  · intro hon a b
    rw [huno]
    unfold candidateSet
    simp only [hon, Bool.false_eq_true, if_false]
    exact mem_union _ _

/-- The same in terms of the configuration only. A strategy that needs GPS counts only if every image
has GPS. If all the others and those are off, all reference x candidate pairs come out; otherwise
exactly the pairs that one of the enabled strategies proposes. -/
theorem C23_configuration [LinearOrder D] [Zero D] [DecidableEq C] (o : Oracle Id D C)
    (hsort : ∀ l, (o.argsort l).Perm l) (picks : Nat → Nat) (refSet refs cand : List Id)
    (hnd : refSet.Nodup) (hset : ∀ x, x ∈ refSet ↔ x ∈ refs) (gps : Bool) (c : Config D) :
    ∃ out, matchFromMetadata o picks refSet refs cand gps c = some out ∧
      (let off : Prop := (gps = true → c.gpsDistance = 0 ∧ c.gpsNeighbors = 0 ∧ c.graphRounds = 0) ∧
          c.timeNeighbors = 0 ∧ c.orderNeighbors = 0 ∧ c.bow.neighbors = 0 ∧ c.vlad.neighbors = 0
       (off → ∀ a b, ((a, b) ∈ out ∨ (b, a) ∈ out) ↔
          a ≠ b ∧ ((a ∈ refs ∧ b ∈ cand) ∨ (b ∈ refs ∧ a ∈ cand))) ∧
       (¬ off → ∀ a b, ((a, b) ∈ out ∨ (b, a) ∈ out) ↔
          (gps = true ∧ sortedPair a b ∈
            matchByDistance refs cand o.allLocated o.distanceQuery c.gpsNeighbors c.gpsDistance) ∨
          (gps = true ∧ sortedPair a b ∈ matchByGraph refs cand o.edges c.graphRounds) ∨
          sortedPair a b ∈ matchByTime refs cand o.timeQuery c.timeNeighbors ∨
          sortedPair a b ∈ matchByOrder refs cand c.orderNeighbors ∨
          sortedPair a b ∈ (matchByAffinity o.argsort o.cam o.bowDist o.allLocated o.distanceQuery
            refs cand c.bow).keys ∨
          sortedPair a b ∈ (matchByAffinity o.argsort o.cam o.vladDist o.allLocated o.distanceQuery
            refs cand c.vlad).keys)) := by
  obtain ⟨out, h1, -, -, h2, h3⟩ := C23_metadata o hsort picks refSet refs cand hnd hset gps c
  refine ⟨out, h1, ?_⟩
  intro off
  have hoff : allOff (disableGps gps c) = true ↔ off := by
    cases gps <;> simp [off, allOff, disableGps] <;> tauto
  refine ⟨fun h => h2 (hoff.2 h), fun h a b => ?_⟩
  have h' : allOff (disableGps gps c) = false := by
    cases hx : allOff (disableGps gps c)
    · rfl
    · exact absurd (hoff.1 hx) h
  rw [h3 h' a b]
  cases gps
  · have hd : matchByDistance refs cand o.allLocated o.distanceQuery 0 (0 : D) = [] := by
      unfold matchByDistance; simp
    have hg : matchByGraph refs cand o.edges 0 = [] := by
      unfold matchByGraph; simp
    simp [strategyPairs, disableGps, hd, hg]
  · simp [strategyPairs, disableGps]

/-- Any oracle with an order-preserving `argsort` meets the hypotheses; here all strategies are off
and the images 1 and 3 are references. -/
example : let o : Oracle Nat ℚ Nat := ⟨true, fun _ _ _ => [], fun _ _ => [], [], id, id,
      fun _ _ => none, fun _ _ => none⟩
    (∀ l, (o.argsort l).Perm l) ∧ ([3, 1] : List Nat).Nodup ∧
    (∀ x, x ∈ [3, 1] ↔ x ∈ [1, 3]) ∧
    matchFromMetadata o (fun _ => 0) [3, 1] [1, 3] [1, 2, 3] false
      ⟨150, 8, 50, 0, 0, ⟨0, 0, 0, false, false⟩, ⟨0, 0, 0, false, true⟩⟩ =
      some [(1, 2), (3, 1), (3, 2)] := by
  refine ⟨fun l => List.Perm.refl _, by decide, fun x => by simp [or_comm], by decide +kernel⟩

/-! ### C24 -/

/-- `order` lists the neighbours by increasing distance (what `np.argsort` guarantees). -/
def IsArgsort [LE D] (order entries : List (Entry Id D)) : Prop :=
  order.Perm entries ∧ order.Pairwise (fun u v => u.2 ≤ v.2)

theorem pairwise_take_drop {α : Type} {R : α → α → Prop} {l : List α} (h : l.Pairwise R) (n : Nat)
    {u v : α} (hu : u ∈ l.take n) (hv : v ∈ l.drop n) : R u v := by
  rw [← List.take_append_drop n l, List.pairwise_append] at h
  exact h.2.2 u hu v hv

/-- Selecting the first `n` of a list sorted by distance: exact size, nearest first. -/
theorem select_spec [LinearOrder D] (L : List (Entry Id D)) (hs : L.Pairwise (fun u v => u.2 ≤ v.2))
    (hnd : (L.map Prod.fst).Nodup) (n : Nat) (sel : Id → Prop) [DecidablePred sel]
    (hsel : ∀ e ∈ L, sel e.1 ↔ e.1 ∈ (L.take n).map Prod.fst) :
    (L.filter (fun e => sel e.1)).length = min n L.length ∧
      ∀ u ∈ L, ∀ v ∈ L, sel u.1 → ¬ sel v.1 → u.2 ≤ v.2 := by
  have inj : ∀ u ∈ L, ∀ v ∈ L, u.1 = v.1 → u = v :=
    fun u hu v hv h => List.inj_on_of_nodup_map hnd hu hv h
  have hmem : ∀ e ∈ L, sel e.1 ↔ e ∈ L.take n := by
    intro e he
    rw [hsel e he, List.mem_map]
    constructor
    · rintro ⟨e', h1, h2⟩
      rw [← inj e' (List.mem_of_mem_take h1) e he h2]; exact h1
    · exact fun h => ⟨e, h, rfl⟩
  have hL : L.Nodup := List.Nodup.of_map _ hnd
  constructor
  · have : L.filter (fun e => sel e.1) = L.filter (fun e => e ∈ L.take n) := by
      apply List.filter_congr
      intro e he
      simp [hmem e he]
    rw [this]
    have hf : L.filter (fun e => e ∈ L.take n) = L.take n := by
      conv_lhs => rw [← List.take_append_drop n L]
      rw [List.filter_append]
      have e1 : (L.take n).filter (fun e => e ∈ (L.take n ++ L.drop n).take n) = L.take n := by
        rw [List.filter_eq_self]
        intro a ha
        rw [List.take_append_drop]; simpa using ha
      have e2 : (L.drop n).filter (fun e => e ∈ (L.take n ++ L.drop n).take n) = [] := by
        rw [List.filter_eq_nil_iff]
        intro a ha
        rw [List.take_append_drop]
        rw [← List.take_append_drop n L, List.nodup_append] at hL
        simp only [decide_eq_true_eq]
        exact fun h => hL.2.2 a h a ha rfl
      rw [e1, e2, List.append_nil]
    rw [hf, List.length_take]
  · intro u hu v hv h1 h2
    have hu' := (hmem u hu).1 h1
    have hv' : v ∈ L.drop n := by
      rw [← List.take_append_drop n L, List.mem_append] at hv
      rcases hv with hv | hv
      · exact absurd ((hmem v (List.mem_of_mem_take hv)).2 hv) h2
      · exact hv
    exact pairwise_take_drop hs n hu' hv'

/-- Neighbour selection with camera classes. For a class of neighbours — those with the camera of
`image`, or those with another camera — the number of neighbours paired with `image` is
`max_neighbors`, or all of the class if it is smaller; each selected one is at least as near as each
unselected one of the class. The stored value is the distance, and nothing else is stored. -/
theorem C24_neighbors [LinearOrder D] [DecidableEq C] (cam : Id → C) (image : Id) (n : Nat)
    (entries order : List (Entry Id D)) (hnd : (entries.map Prod.fst).Nodup)
    (ho : IsArgsort order entries) :
    let out := pairsFromNeighbors cam image n order
    let sel : Id → Prop := fun v => (out.get? (sortedPair image v)).isSome
    (∀ cls : Id → Bool, (cls = fun v => decide (cam v = cam image)) ∨
        (cls = fun v => decide (cam v ≠ cam image)) →
      (entries.filter (fun e => cls e.1 ∧ sel e.1)).length =
          min n (entries.filter (fun e => cls e.1)).length ∧
      ∀ u ∈ entries, ∀ v ∈ entries, cls u.1 → cls v.1 → sel u.1 → ¬ sel v.1 → u.2 ≤ v.2) ∧
    (∀ e ∈ entries, sel e.1 → out.get? (sortedPair image e.1) = some e.2) ∧
    (∀ k, (out.get? k).isSome → ∃ e ∈ entries, k = sortedPair image e.1) := by
  intro out sel
  have hond : (order.map Prod.fst).Nodup := ((ho.1.map Prod.fst).nodup_iff).2 hnd
  set S := order.filter (fun e => decide (cam e.1 = cam image)) with hS
  set O := order.filter (fun e => decide (cam e.1 ≠ cam image)) with hO
  have hout : out = putPairs image [] (S.take n ++ O.take n) := by
    simp only [out, pairsFromNeighbors]
    rw [neighborLoop_eq _ _ _ _ _ _ (by simp) (by simp)]
    simp [hS, hO]
  have hsel : ∀ v, sel v ↔ v ∈ (S.take n ++ O.take n).map Prod.fst := by
    intro v
    simp only [sel, hout, putPairs_key, Dict.get?_nil, Option.isSome_none, Bool.false_eq_true,
      false_or, sortedPair_inj_right, List.mem_map]
    constructor
    · rintro ⟨e, he, rfl⟩; exact ⟨e, he, rfl⟩
    · rintro ⟨e, he, rfl⟩; exact ⟨e, he, rfl⟩
  have injo : ∀ u ∈ order, ∀ v ∈ order, u.1 = v.1 → u = v :=
    fun u hu v hv h => List.inj_on_of_nodup_map hond hu hv h
  refine ⟨?_, ?_, ?_⟩
  · intro cls hcls
    -- the class as a sublist of `order`
    set L := order.filter (fun e => cls e.1) with hL
    have hLsub : L.Sublist order := List.filter_sublist
    have hselL : ∀ e ∈ L, sel e.1 ↔ e.1 ∈ (L.take n).map Prod.fst := by
      intro e he
      have heo : e ∈ order := List.mem_of_mem_filter he
      have hec : cls e.1 = true := by simpa using (List.mem_filter.1 he).2
      rw [hsel, List.map_append, List.mem_append]
      rcases hcls with rfl | rfl
      · have : L = S := rfl
        rw [this]
        constructor
        · rintro (h | h)
          · exact h
          · obtain ⟨e', h1, h2⟩ := List.mem_map.1 h
            have := (List.mem_filter.1 (List.mem_of_mem_take h1)).2
            rw [h2] at this
            simp_all
        · exact Or.inl
      · have : L = O := rfl
        rw [this]
        constructor
        · rintro (h | h)
          · obtain ⟨e', h1, h2⟩ := List.mem_map.1 h
            have := (List.mem_filter.1 (List.mem_of_mem_take h1)).2
            rw [h2] at this
            simp_all
          · exact h
        · exact Or.inr
    have hspec := select_spec L (ho.2.sublist hLsub) (hond.sublist (hLsub.map _)) n sel hselL
    have hperm : L.Perm (entries.filter (fun e => cls e.1)) := ho.1.filter _
    constructor
    · rw [← hperm.length_eq, ← hspec.1]
      have h1 : (L.filter (fun e => decide (sel e.1))).Perm
          ((entries.filter (fun e => cls e.1)).filter (fun e => decide (sel e.1))) :=
        hperm.filter _
      rw [h1.length_eq, List.filter_filter]
      congr 1
      apply List.filter_congr
      intro e _
      simp [Bool.and_comm]
    · intro u hu v hv hcu hcv hsu hsv
      have hm : ∀ e ∈ entries, cls e.1 = true → e ∈ L := fun e he hc =>
        List.mem_filter.2 ⟨ho.1.mem_iff.2 he, by simpa using hc⟩
      exact hspec.2 u (hm u hu hcu) v (hm v hv hcv) hsu hsv
  · intro e he hs
    have heo : e ∈ order := ho.1.mem_iff.2 he
    obtain ⟨e', h1, h2⟩ := List.mem_map.1 ((hsel e.1).1 hs)
    have h1o : e' ∈ order := by
      rcases List.mem_append.1 h1 with h | h
      · exact List.mem_of_mem_filter (List.mem_of_mem_take h)
      · exact List.mem_of_mem_filter (List.mem_of_mem_take h)
    rw [injo e' h1o e heo h2] at h1
    rw [hout]
    apply putPairs_get _ _ _ _ _ h1
    rw [List.map_append, List.nodup_append]
    refine ⟨hond.sublist (((List.take_sublist _ _).trans List.filter_sublist).map _),
      hond.sublist (((List.take_sublist _ _).trans List.filter_sublist).map _), ?_⟩
    rintro a ha b hb rfl
    obtain ⟨x, hx, rfl⟩ := List.mem_map.1 ha
    obtain ⟨y, hy, hxy⟩ := List.mem_map.1 hb
    have hx' := (List.mem_filter.1 (List.mem_of_mem_take hx)).2
    have hy' := (List.mem_filter.1 (List.mem_of_mem_take hy)).2
    rw [hxy] at hy'
    simp_all
  · intro k hk
    rw [hout, putPairs_key] at hk
    simp only [Dict.get?_nil, Option.isSome_none, Bool.false_eq_true, false_or] at hk
    obtain ⟨e, he, rfl⟩ := hk
    refine ⟨e, ho.1.mem_iff.1 ?_, rfl⟩
    rcases List.mem_append.1 he with h | h
    · exact List.mem_of_mem_filter (List.mem_of_mem_take h)
    · exact List.mem_of_mem_filter (List.mem_of_mem_take h)

/-- Without camera classes each image keeps exactly its `min(max_neighbors, #neighbours)` nearest
neighbours; the pairs of all images are put together. -/
theorem C24_construct [LinearOrder D] [DecidableEq C] (argsort : List (Entry Id D) → List (Entry Id D))
    (ha : ∀ l, IsArgsort (argsort l) l) (cam : Id → C) (n : Nat) :
    (∀ (r : Id × List (Entry Id D)), (r.2.map Prod.fst).Nodup →
      let sel : Id → Prop := fun v =>
        ((constructPairs argsort cam n false [r]).get? (sortedPair r.1 v)).isSome
      (r.2.filter (fun e => sel e.1)).length = min n r.2.length ∧
      ∀ u ∈ r.2, ∀ v ∈ r.2, sel u.1 → ¬ sel v.1 → u.2 ≤ v.2) ∧
    (∀ (enf : Bool) (results : List (Id × List (Entry Id D))) (k : Id × Id),
      ((constructPairs argsort cam n enf results).get? k).isSome ↔
        ∃ r ∈ results, ((constructPairs argsort cam n enf [r]).get? k).isSome) ∧
    (∀ (r : Id × List (Entry Id D)) (k : Id × Id),
      ((constructPairs argsort cam n true [r]).get? k).isSome ↔
        ((pairsFromNeighbors cam r.1 n (argsort r.2)).get? k).isSome) := by
  refine ⟨?_, ?_, ?_⟩
  · intro r hnd sel
    have hond : ((argsort r.2).map Prod.fst).Nodup := (((ha r.2).1.map Prod.fst).nodup_iff).2 hnd
    have hsel : ∀ v, sel v ↔ v ∈ ((argsort r.2).take n).map Prod.fst := by
      intro v
      simp only [sel, constructPairs, List.foldl_cons, List.foldl_nil, constructOne,
        Bool.false_eq_true, if_false, putPairs_key, Dict.get?_nil, Option.isSome_none, false_or,
        sortedPair_inj_right, List.mem_map]
      constructor
      · rintro ⟨e, he, rfl⟩; exact ⟨e, he, rfl⟩
      · rintro ⟨e, he, rfl⟩; exact ⟨e, he, rfl⟩
    have h := select_spec (argsort r.2) (ha r.2).2 hond n sel (fun e _ => hsel e.1)
    constructor
    · rw [← (ha r.2).1.length_eq, ← h.1]
      exact ((ha r.2).1.filter _).length_eq.symm
    · intro u hu v hv
      exact h.2 u ((ha r.2).1.mem_iff.2 hu) v ((ha r.2).1.mem_iff.2 hv)
  · intro enf results k
    rw [constructPairs_key]
    simp [constructPairs]
  · intro r k
    have upd : ∀ (l d : Dict (Id × Id) D),
        ((l.foldl (fun (d : Dict (Id × Id) D) kv => d.set kv.1 kv.2) d).get? k).isSome ↔
          (d.get? k).isSome ∨ k ∈ Dict.keys l := by
      intro l
      induction l with
      | nil => simp
      | cons a l ih =>
        intro d
        rw [List.foldl_cons, ih, Dict.get?_set]
        by_cases h : a.1 = k
        · simp [h, Dict.keys]
        · have h' : ¬ k = a.1 := fun x => h x.symm
          simp [h, h', Dict.keys]
    simp only [constructPairs, List.foldl_cons, List.foldl_nil, constructOne, if_true]
    rw [upd, Dict.mem_keys_iff]
    simp

/-- Two cameras, three neighbours each, at most two of each. -/
example : let entries : List (Nat × Nat) := [(1, 50), (2, 10), (3, 20), (4, 30), (5, 40), (6, 5)]
    let order := [(6, 5), (2, 10), (3, 20), (4, 30), (5, 40), (1, 50)]
    (entries.map Prod.fst).Nodup ∧ IsArgsort order entries ∧
    pairsFromNeighbors (· % 2) 0 2 order =
      [((0, 6), 5), ((0, 2), 10), ((0, 3), 20), ((0, 5), 40)] := by
  refine ⟨by decide, ⟨by decide, by decide⟩, by decide⟩

end Verif.PairsSelection
