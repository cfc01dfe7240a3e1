import Verif.Model.Tracking
import Verif.Props.UnionFindPy
import Verif.Props.TracksManager

/-!
# C11–C13: creation of tracks from matches, common tracks of image pairs

Specification: the match graph has features `(image, index)` as nodes and an edge per match;
`SameTrack` is its connectivity, `GoodComponent` what a component must satisfy to be a track.
-/
set_option linter.unusedSectionVars false
namespace Verif.Tracking
variable {I F O : Type} [DecidableEq I] [DecidableEq F]

/-! ## Specification -/

/-- `a` and `b` are directly matched. -/
def Matched (ms : Dict (I × I) (List (F × F))) (a b : I × F) : Prop :=
  ∃ l, ((a.1, b.1), l) ∈ ms ∧ (a.2, b.2) ∈ l

/-- Connected by a chain of matches. -/
def SameTrack (ms : Dict (I × I) (List (F × F))) : I × F → I × F → Prop :=
  Relation.EqvGen (Matched ms)

/-- The feature occurs in some match. -/
def InMatch (ms : Dict (I × I) (List (F × F))) (x : I × F) : Prop :=
  ∃ y, Matched ms x y ∨ Matched ms y x

/-- `l` enumerates (without repetition) the connected component of `x`. -/
def IsComponent (ms : Dict (I × I) (List (F × F))) (x : I × F) (l : List (I × F)) : Prop :=
  l.Nodup ∧ ∀ y, y ∈ l ↔ InMatch ms y ∧ SameTrack ms x y

/-- At least `n` features and at most one per image. -/
def GoodComponent (n : Nat) (l : List (I × F)) : Prop :=
  n ≤ l.length ∧ ∀ x ∈ l, ∀ y ∈ l, x.1 = y.1 → x = y

/-! ## Lemmas -/

theorem validOps_unionOps (ms : Dict (I × I) (List (F × F))) :
    UFPy.ValidOps (unionOps ms) := by
  intro objs h
  simp only [unionOps, List.mem_flatMap, List.mem_map] at h
  obtain ⟨p, _, q, _, hq⟩ := h
  cases hq; simp

theorem linked_iff (ms : Dict (I × I) (List (F × F))) (x y : I × F) :
    Linked (UFPy.unions (unionOps ms)) x y ↔ SameTrack ms x y := by
  have hmem : ∀ g, g ∈ UFPy.unions (unionOps ms) ↔ ∃ a b, Matched ms a b ∧ g = [a, b] := by
    intro g
    simp only [UFPy.unions, unionOps, List.mem_filterMap, List.mem_flatMap, List.mem_map]
    constructor
    · rintro ⟨op, ⟨p, hp, q, hq, rfl⟩, h⟩
      simp only [Option.some.injEq] at h
      exact ⟨_, _, ⟨p.2, by simpa using hp, by simpa using hq⟩, h.symm⟩
    · rintro ⟨a, b, ⟨l, h1, h2⟩, rfl⟩
      exact ⟨_, ⟨_, h1, _, h2, rfl⟩, rfl⟩
  constructor
  · intro h
    induction h with
    | rel a b h =>
      obtain ⟨g, hg, ha, hb⟩ := h
      obtain ⟨c, e, hm, rfl⟩ := (hmem g).1 hg
      simp only [List.mem_cons, List.not_mem_nil, or_false] at ha hb
      have hce : SameTrack ms c e := Relation.EqvGen.rel _ _ hm
      rcases ha with rfl | rfl <;> rcases hb with rfl | rfl
      · exact Relation.EqvGen.refl _
      · exact hce
      · exact Relation.EqvGen.symm _ _ hce
      · exact Relation.EqvGen.refl _
    | refl => exact Relation.EqvGen.refl _
    | symm _ _ _ ih => exact Relation.EqvGen.symm _ _ ih
    | trans _ _ _ _ _ ih1 ih2 => exact Relation.EqvGen.trans _ _ _ ih1 ih2
  · intro h
    induction h with
    | rel a b h => exact Linked.of_mem (g := [a, b]) ((hmem _).2 ⟨a, b, h, rfl⟩) (by simp) (by simp)
    | refl => exact Linked.refl _
    | symm _ _ _ ih => exact ih.symm
    | trans _ _ _ _ _ ih1 ih2 => exact ih1.trans ih2

theorem mentioned_iff (ms : Dict (I × I) (List (F × F))) (x : I × F) :
    x ∈ UFPy.mentioned (unionOps ms) ↔ InMatch ms x := by
  simp only [UFPy.mentioned, unionOps, List.mem_flatMap, List.mem_map]
  constructor
  · rintro ⟨op, ⟨p, hp, q, hq, rfl⟩, h⟩
    simp only [List.mem_cons, List.not_mem_nil, or_false] at h
    rcases h with rfl | rfl
    · exact ⟨(p.1.2, q.2), .inl ⟨p.2, by simpa using hp, by simpa using hq⟩⟩
    · exact ⟨(p.1.1, q.1), .inr ⟨p.2, by simpa using hp, by simpa using hq⟩⟩
  · rintro ⟨y, ⟨l, h1, h2⟩ | ⟨l, h1, h2⟩⟩
    · exact ⟨_, ⟨_, h1, _, h2, rfl⟩, by simp⟩
    · exact ⟨_, ⟨_, h1, _, h2, rfl⟩, by simp⟩

theorem groupLoop_spec {u : UFPy (I × F)} {groups : List (List (I × F))}
    {rep : I × F → I × F} {d : I × F → Nat} (h : UFPy.Inv u groups rep d)
    (is : List (I × F)) (his : ∀ i ∈ is, i ∈ u.parents.keys) (sets : Dict (I × F) (List (I × F))) :
    groupLoop u is sets = some (is.foldl (fun m i => m.push (rep i) i) sets) := by
  induction is generalizing u sets with
  | nil => rfl
  | cons i is ih =>
    obtain ⟨u1, rep1, h1, h2, h3, _, h5⟩ := UFPy.find_spec h i
    have hr := h5 (his i (by simp)); subst hr
    have his' : ∀ a ∈ is, a ∈ u1.parents.keys :=
      fun a ha => (h3 a).2 (.inr (his a (List.mem_cons_of_mem _ ha)))
    have hpush : (if sets.has (rep1 i) then groupLoop u1 is (sets.push (rep1 i) i)
        else groupLoop u1 is (sets.set (rep1 i) [i])) = groupLoop u1 is (sets.push (rep1 i) i) := by
      split
      · rfl
      · rename_i hh
        have : sets.get? (rep1 i) = none := by
          simpa [Dict.has] using hh
        simp [Dict.push, this]
    simp only [groupLoop, h1, List.foldl_cons]
    rw [hpush, ih h2 his']

theorem flatten_filter_sublist {A : Type} (p : List A → Bool) (l : List (List A)) :
    (l.filter p).flatten.Sublist l.flatten := by
  induction l with
  | nil => simp
  | cons a l ih =>
    by_cases h : p a
    · simp only [List.filter_cons_of_pos h, List.flatten_cons]; exact ih.append_left _
    · simp only [List.filter_cons_of_neg h, List.flatten_cons]
      exact ih.trans (List.sublist_append_right _ _)

theorem goodTrack_iff {l : List (I × F)} (hl : l.Nodup) (n : Nat) :
    goodTrack l n = true ↔ GoodComponent n l := by
  unfold goodTrack GoodComponent
  have : (l.map Prod.fst).Nodup ↔ ∀ x ∈ l, ∀ y ∈ l, x.1 = y.1 → x = y :=
    List.nodup_map_iff_inj_on hl
  rw [← this]
  split
  · simp; omega
  · simp; omega

theorem tracks_eq (lt : I × F → I × F → Bool) (ms : Dict (I × I) (List (F × F))) (n : Nat) :
    ∃ (rep : I × F → I × F) (items : List (I × F)),
      tracks lt ms n = some ((Dict.groupBy rep items).vals.filter (goodTrack · n)) ∧
      items.Nodup ∧ (∀ x, x ∈ items ↔ InMatch ms x) ∧
      (∀ x ∈ items, ∀ y ∈ items, rep x = rep y ↔ SameTrack ms x y) := by
  obtain ⟨u, rep, d, h1, h2, h3⟩ := UFPy.inv_run lt (unionOps ms) (validOps_unionOps ms)
  have hg := groupLoop_spec h2 u.items (fun i hi => hi) []
  refine ⟨rep, u.items, ?_, h2.forest.wf, ?_, ?_⟩
  · unfold tracks
    simp only [h1, hg]; rfl
  · intro x; exact (h3 x).trans (mentioned_iff ms x)
  · intro x hx y hy
    rw [← linked_iff, ← UFPy.Linked_congr (a := (UFPy.unions (unionOps ms)).reverse) (by simp) x y]
    exact ⟨h2.sound hx hy, h2.complete⟩

/-! ## C11 -/

/-- `create_tracks_manager` never raises from, or loops in, the track building, and the groups it
turns into tracks are exactly the good connected components of the match graph, pairwise disjoint.
-/
theorem C11_tracks (lt : I × F → I × F → Bool) (ms : Dict (I × I) (List (F × F))) (n : Nat) :
    ∃ ts, tracks lt ms n = some ts ∧
      ts.flatten.Nodup ∧
      (∀ t ∈ ts, GoodComponent n t ∧ ∃ x, InMatch ms x ∧ IsComponent ms x t) ∧
      (∀ x l, InMatch ms x → IsComponent ms x l → GoodComponent n l → ∃ t ∈ ts, t.Perm l) := by
  obtain ⟨rep, items, h1, h2, h3, h4⟩ := tracks_eq lt ms n
  refine ⟨_, h1, ?_, ?_, ?_⟩
  · have : (Dict.groupBy rep items).vals.flatten.Nodup :=
      (Dict.perm_flatten_groupBy rep items).nodup_iff.2 h2
    exact this.sublist (flatten_filter_sublist _ _)
  · intro t ht
    rw [List.mem_filter, Dict.mem_vals_groupBy] at ht
    obtain ⟨⟨x, hx, rfl⟩, hgood⟩ := ht
    have hnd : (items.filter (fun y => decide (rep y = rep x))).Nodup := h2.filter _
    refine ⟨(goodTrack_iff hnd n).1 hgood, x, (h3 x).1 hx, hnd, ?_⟩
    intro y
    rw [List.mem_filter, ← h3]
    constructor
    · rintro ⟨hy, hr⟩
      exact ⟨hy, (h4 x hx y hy).1 (by simpa using (of_decide_eq_true hr).symm)⟩
    · rintro ⟨hy, hr⟩
      exact ⟨hy, by simpa using ((h4 x hx y hy).2 hr).symm⟩
  · intro x l hx hl hgood
    have hxi := (h3 x).2 hx
    have hnd : (items.filter (fun y => decide (rep y = rep x))).Nodup := h2.filter _
    have hperm : (items.filter (fun y => decide (rep y = rep x))).Perm l := by
      rw [List.perm_ext_iff_of_nodup hnd hl.1]
      intro y
      rw [List.mem_filter, hl.2, ← h3]
      constructor
      · rintro ⟨hy, hr⟩
        exact ⟨hy, (h4 x hxi y hy).1 (by simpa using (of_decide_eq_true hr).symm)⟩
      · rintro ⟨hy, hr⟩
        exact ⟨hy, by simpa using ((h4 x hxi y hy).2 hr).symm⟩
    refine ⟨_, ?_, hperm⟩
    rw [List.mem_filter, Dict.mem_vals_groupBy]
    refine ⟨⟨x, hxi, rfl⟩, (goodTrack_iff hnd n).2 ?_⟩
    refine ⟨by rw [hperm.length_eq]; exact hgood.1, ?_⟩
    intro a ha b hb
    exact hgood.2 a (hperm.mem_iff.1 ha) b (hperm.mem_iff.1 hb)

/-- The `(image, track, observation)` triples added, in order. -/
def addList (observe : I → F → Option O) (ts : List (List (I × F))) : List (I × Nat × O) :=
  ts.zipIdx.flatMap fun p => p.1.filterMap fun q => (observe q.1 q.2).map fun o => (q.1, p.2, o)

theorem createTM_eq (observe : I → F → Option O) (ts : List (List (I × F))) :
    ts.zipIdx.foldl (fun m p => addTrack observe m p.2 p.1) TM.empty =
      (addList observe ts).foldl (fun m p => m.addObservation p.1 p.2.1 p.2.2) TM.empty := by
  unfold addList
  rw [List.foldl_flatMap]
  congr 1
  funext m p
  unfold addTrack
  generalize p.1 = l
  induction l generalizing m with
  | nil => rfl
  | cons q l ih =>
    rw [List.foldl_cons, ih]
    cases hq : observe q.1 q.2 <;> simp [hq]

/-- The manager observes image `im` in track `k` with `o` iff the `k`-th track has a feature of
that image whose observation is `o` (images without feature file contribute nothing). -/
theorem C11_observations (lt : I × F → I × F → Bool) (observe : I → F → Option O)
    (ms : Dict (I × I) (List (F × F))) (n : Nat) {m : TM I Nat O} {ts : List (List (I × F))}
    (hts : tracks lt ms n = some ts) (hm : createTracksManager lt observe ms n = some m)
    (im : I) (k : Nat) (o : O) :
    m.getObservation im k = .ok o ↔
      ∃ t f, ts[k]? = some t ∧ (im, f) ∈ t ∧ observe im f = some o := by
  unfold createTracksManager at hm
  rw [hts, Option.map_some, Option.some.injEq, createTM_eq] at hm
  subst hm
  obtain ⟨ts', h1, _, h2, _⟩ := C11_tracks lt ms n
  rw [hts] at h1; cases h1
  rw [TM.getObservation_ok_iff, TM.look2_addMany]
  rw [show TM.look2 (TM.empty : TM I Nat O).perShot im k = none from rfl, Option.or_none]
  have hmem : ∀ im k o, (im, k, o) ∈ addList observe ts ↔
      ∃ t f, ts[k]? = some t ∧ (im, f) ∈ t ∧ observe im f = some o := by
    intro im k o
    simp only [addList, List.mem_flatMap, List.mem_filterMap, Option.map_eq_some_iff,
      Prod.mk.injEq, List.mem_zipIdx_iff_getElem?]
    constructor
    · rintro ⟨⟨t, i⟩, ht, ⟨im', f⟩, hf, o', ho, rfl, rfl, rfl⟩
      exact ⟨t, f, ht, hf, ho⟩
    · rintro ⟨t, f, ht, hf, ho⟩
      exact ⟨(t, k), ht, (im, f), hf, o, ho, rfl, rfl, rfl⟩
  rw [← hmem]
  constructor
  · intro ho
    obtain ⟨p, hp, hpe⟩ := List.exists_of_findSome?_eq_some ho
    rw [List.mem_reverse] at hp
    split at hpe
    · rename_i hc
      obtain ⟨ps, pt, po⟩ := p
      obtain ⟨rfl, rfl⟩ := hc
      cases hpe; exact hp
    · cases hpe
  · intro ho
    cases hf : (List.findSome? (fun p => if p.1 = im ∧ p.2.1 = k then some p.2.2 else none)
        (addList observe ts).reverse) with
    | none =>
      rw [List.findSome?_eq_none_iff] at hf
      have := hf _ (List.mem_reverse.2 ho)
      simp at this
    | some o' =>
      obtain ⟨p, hp, hpe⟩ := List.exists_of_findSome?_eq_some hf
      rw [List.mem_reverse] at hp
      split at hpe
      · rename_i hc
        obtain ⟨ps, pt, po⟩ := p
        obtain ⟨rfl, rfl⟩ := hc
        cases hpe
        obtain ⟨t, f, a1, a2, a3⟩ := (hmem _ _ _).1 hp
        obtain ⟨t', f', b1, b2, b3⟩ := (hmem _ _ _).1 ho
        rw [a1] at b1; cases b1
        have hin : t ∈ ts := List.mem_of_getElem? a1
        have := (h2 t hin).1.2 _ a2 _ b2 rfl
        cases this
        rw [a3] at b3; exact b3
      · cases hpe

/-- The manager produced is one that a history of calls produces (so C01–C05 apply to it). -/
theorem C11_reachable (lt : I × F → I × F → Bool) (observe : I → F → Option O)
    (ms : Dict (I × I) (List (F × F))) (n : Nat) :
    ∃ m, createTracksManager lt observe ms n = some m ∧ TM.Reachable m := by
  obtain ⟨ts, h1, _⟩ := C11_tracks lt ms n
  refine ⟨_, by unfold createTracksManager; rw [h1]; rfl, ?_⟩
  show TM.Reachable (ts.zipIdx.foldl (fun m p => addTrack observe m p.2 p.1) TM.empty)
  rw [createTM_eq]
  exact TM.reachable_addMany ⟨[], rfl⟩ _

/-- Sample: a three-image track, a component with two features of one image (rejected). -/
def sampleMatches : Dict (Nat × Nat) (List (Nat × Nat)) :=
  [((1, 2), [(0, 0), (5, 7)]), ((2, 3), [(0, 4), (7, 1)]), ((1, 3), [(6, 1)])]

/-- Lexicographic order used by Python on `(image, feature)` tuples. -/
def sampleLt (a b : Nat × Nat) : Bool := decide (a.1 < b.1 ∨ (a.1 = b.1 ∧ a.2 < b.2))

example : tracks sampleLt sampleMatches 2 = some [[(1, 0), (2, 0), (3, 4)]] := by decide

example : (createTracksManager sampleLt (fun im f => if im = 3 then none else some (im, f))
    sampleMatches 2).map (fun m => (m.getTrackObservations 0)) =
      some (.ok [(1, (1, 0)), (2, (2, 0))]) := by decide

example : Matched sampleMatches (1, 0) (2, 0) ∧ InMatch sampleMatches (3, 4) :=
  ⟨⟨[(0, 0), (5, 7)], by simp [sampleMatches], by simp⟩,
   ⟨(2, 0), .inr ⟨[(0, 4), (7, 1)], by simp [sampleMatches], by simp⟩⟩⟩

/-! ## C12 -/

/-- If two match dictionaries hold the same matches up to order, repetition and direction of each
pair, they give the same tracks up to order (whatever the tie-break order of features). -/
theorem C12_order_independent (lt lt' : I × F → I × F → Bool)
    (ms ms' : Dict (I × I) (List (F × F))) (n : Nat)
    (hsame : ∀ a b, (Matched ms a b ∨ Matched ms b a) ↔ (Matched ms' a b ∨ Matched ms' b a))
    {ts ts' : List (List (I × F))} (h : tracks lt ms n = some ts)
    (h' : tracks lt' ms' n = some ts') :
    ts.length = ts'.length ∧ (∀ t ∈ ts, ∃ t' ∈ ts', t.Perm t') ∧
      (∀ t' ∈ ts', ∃ t ∈ ts, t'.Perm t) := by
  have tr : ∀ (ms ms' : Dict (I × I) (List (F × F))),
      (∀ a b, (Matched ms a b ∨ Matched ms b a) → (Matched ms' a b ∨ Matched ms' b a)) →
      ∀ x y, SameTrack ms x y → SameTrack ms' x y := by
    intro ms ms' hs x y hxy
    induction hxy with
    | rel a b hab =>
      rcases hs a b (.inl hab) with h | h
      · exact Relation.EqvGen.rel _ _ h
      · exact Relation.EqvGen.symm _ _ (Relation.EqvGen.rel _ _ h)
    | refl => exact Relation.EqvGen.refl _
    | symm _ _ _ ih => exact Relation.EqvGen.symm _ _ ih
    | trans _ _ _ _ _ ih1 ih2 => exact Relation.EqvGen.trans _ _ _ ih1 ih2
  have hst : ∀ x y, SameTrack ms x y ↔ SameTrack ms' x y := fun x y =>
    ⟨tr ms ms' (fun a b => (hsame a b).1) x y, tr ms' ms (fun a b => (hsame a b).2) x y⟩
  have him : ∀ x, InMatch ms x ↔ InMatch ms' x := by
    intro x; unfold InMatch
    exact exists_congr fun y => hsame x y
  have hcomp : ∀ x l, IsComponent ms x l ↔ IsComponent ms' x l := by
    intro x l; unfold IsComponent; simp only [him, hst]
  obtain ⟨r1, a1, a2, a3, a4⟩ := C11_tracks lt ms n
  rw [h] at a1; cases a1
  obtain ⟨r2, b1, b2, b3, b4⟩ := C11_tracks lt' ms' n
  rw [h'] at b1; cases b1
  have F1 : ∀ t ∈ ts, ∃ t' ∈ ts', t.Perm t' := by
    intro t ht
    obtain ⟨hg, x, hx, hc⟩ := a3 t ht
    obtain ⟨t', ht', hp⟩ := b4 x t ((him x).1 hx) ((hcomp x t).1 hc) hg
    exact ⟨t', ht', hp.symm⟩
  have F2 : ∀ t ∈ ts', ∃ t' ∈ ts, t.Perm t' := by
    intro t ht
    obtain ⟨hg, x, hx, hc⟩ := b3 t ht
    obtain ⟨t', ht', hp⟩ := a4 x t ((him x).2 hx) ((hcomp x t).2 hc) hg
    exact ⟨t', ht', hp.symm⟩
  refine ⟨?_, F1, F2⟩
  -- both lists are duplicate-free up to permutation, hence equally long
  have inj : ∀ (us vs : List (List (I × F))), us.flatten.Nodup → (∀ t ∈ us, t ≠ []) →
      (∀ t ∈ us, ∃ t' ∈ vs, t.Perm t') → us.length ≤ vs.length := by
    intro us
    induction us with
    | nil => intro vs _ _ _; simp
    | cons u us ih =>
      intro vs hnd hne hf
      obtain ⟨v, hv, hp⟩ := hf u (by simp)
      obtain ⟨v1, v2, rfl⟩ := List.append_of_mem hv
      have hnd' := hnd
      rw [List.flatten_cons, List.nodup_append] at hnd'
      have := ih (v1 ++ v2) hnd'.2.1 (fun t ht => hne t (List.mem_cons_of_mem _ ht)) (by
        intro t ht
        obtain ⟨t', ht', hp'⟩ := hf t (List.mem_cons_of_mem _ ht)
        refine ⟨t', ?_, hp'⟩
        rcases List.mem_append.1 ht' with h1 | h1
        · exact List.mem_append.2 (.inl h1)
        · rcases List.mem_cons.1 h1 with rfl | h1
          · exfalso
            obtain ⟨x, hx⟩ := List.exists_mem_of_ne_nil _ (hne t (List.mem_cons_of_mem _ ht))
            have hxu : x ∈ u := hp.mem_iff.2 (hp'.mem_iff.1 hx)
            exact hnd'.2.2 x hxu x (List.mem_flatten.2 ⟨t, ht, hx⟩) rfl
          · exact List.mem_append.2 (.inr h1))
      simp only [List.length_append, List.length_cons] at this ⊢
      omega
  have hne : ∀ (ms : Dict (I × I) (List (F × F))) (t : List (I × F)),
      (∃ x, InMatch ms x ∧ IsComponent ms x t) → t ≠ [] := by
    rintro ms t ⟨x, hx, hc⟩ rfl
    have := (hc.2 x).2 ⟨hx, Relation.EqvGen.refl _⟩
    cases this
  exact Nat.le_antisymm
    (inj ts ts' a2 (fun t ht => hne ms t (a3 t ht).2) F1)
    (inj ts' ts b2 (fun t ht => hne ms' t (b3 t ht).2) F2)

/-- The sample with order, dictionary keys and direction of pairs changed. -/
def sampleMatches' : Dict (Nat × Nat) (List (Nat × Nat)) :=
  [((3, 1), [(1, 6)]), ((3, 2), [(1, 7), (4, 0)]), ((1, 2), [(5, 7), (0, 0)])]

example : tracks sampleLt sampleMatches' 2 = some [[(3, 4), (2, 0), (1, 0)]] := by decide

/-! ## C13 -/

section common
variable {S T P : Type} [DecidableEq S] [DecidableEq T]
open TM

/-- `all_common_tracks` never raises. Its entry for `(a, b)` exists iff `a < b` are registered
shots sharing `k > 0` tracks with `k ≥ min_common`; the entry lists each shared track once, and
the two columns hold, at the same positions, the points of that track in `a` and in `b`. -/
theorem C13_all_common (point : O → P) (lt : S → S → Bool) (ops : List (TM.Op S T O))
    (minCommon : Nat) :
    ∃ d, allCommonTracks point lt (run ops) minCommon = .ok d ∧
      (∀ a b, (d.get? (a, b)).isSome ↔
        lt a b = true ∧ a ∈ addedShots ops ∧ b ∈ addedShots ops ∧
          0 < sharedTracks ops (addedTracks ops).dedup a b ∧
          minCommon ≤ sharedTracks ops (addedTracks ops).dedup a b) ∧
      (∀ a b ts p1 p2, d.get? (a, b) = some (ts, p1, p2) →
        ts.Nodup ∧ ts.length = sharedTracks ops (addedTracks ops).dedup a b ∧
        p1.length = ts.length ∧ p2.length = ts.length ∧
        (∀ t, t ∈ ts ↔ (lastWrite ops.reverse a t).isSome ∧ (lastWrite ops.reverse b t).isSome) ∧
        ∀ (i : Nat) (t : T), ts[i]? = some t →
          p1[i]? = (lastWrite ops.reverse a t).map point ∧
          p2[i]? = (lastWrite ops.reverse b t).map point) := by
  -- every pair of the connectivity table consists of registered shots
  have hconn := C05_connectivity lt ops ([] : List S) ([] : List T)
  have hwf : ((run ops).getAllPairsConnectivity lt [] []).Wf := by
    rw [connectivity_eq]
    generalize allPairs lt (run ops) _ _ = l
    suffices h : ∀ acc : Dict (S × S) Nat, acc.Wf → (l.foldl incr acc).Wf from h [] Dict.wf_nil
    induction l with
    | nil => intro acc h; exact h
    | cons x l ih => intro acc h; exact ih _ (Dict.wf_set h _ _)
  have hcommon : ∀ a b, a ∈ addedShots ops → b ∈ addedShots ops →
      ∃ l, (run ops).getAllCommonObservations a b = .ok l := by
    intro a b ha hb
    cases hg : (run ops).getAllCommonObservations a b with
    | ok l => exact ⟨l, rfl⟩
    | error e =>
      have := ((C04_common ops a b).2).1 ⟨e, hg⟩
      rcases this with h | h
      · exact absurd ha h
      · exact absurd hb h
  -- the loop over any duplicate-free sub-list of the table
  let entry : List (T × O × O) → List T × List P × List P := fun tuples =>
    (tuples.map (·.1), tuples.map (fun x => point x.2.1), tuples.map (fun x => point x.2.2))
  have loop : ∀ (tbl : Dict (S × S) Nat), tbl.Wf →
      (∀ q ∈ tbl, q.1.1 ∈ addedShots ops ∧ q.1.2 ∈ addedShots ops) →
      ∀ acc : Dict (S × S) (List T × List P × List P), 
      ∃ d, tbl.foldl (allCommonStep point (run ops) minCommon) (.ok acc) = .ok d ∧
        ∀ k, d.get? k = match tbl.get? k with
          | none => acc.get? k
          | some size => if size < minCommon then acc.get? k else
            match (run ops).getAllCommonObservations k.1 k.2 with
            | .error _ => acc.get? k
            | .ok tuples => some (entry tuples) := by
    intro tbl
    induction tbl with
    | nil => intro _ _ acc; exact ⟨acc, rfl, fun k => rfl⟩
    | cons q tbl ih =>
      intro hw hq acc
      obtain ⟨⟨a, b⟩, size⟩ := q
      have hw' : Dict.Wf tbl := (List.nodup_cons.1 hw).2
      have hnot : (a, b) ∉ Dict.keys tbl := (List.nodup_cons.1 hw).1
      have hnone : Dict.get? tbl (a, b) = none := (Dict.get?_eq_none_iff _ _).2 hnot
      obtain ⟨l, hl⟩ := hcommon a b (hq _ List.mem_cons_self).1 (hq _ List.mem_cons_self).2
      rw [List.foldl_cons]
      by_cases hs : size < minCommon
      · simp only [allCommonStep, hs, if_true]
        obtain ⟨d, h1, h2⟩ := ih hw' (fun q hqq => hq q (List.mem_cons_of_mem _ hqq)) acc
        refine ⟨d, h1, fun k => ?_⟩
        rw [h2]
        by_cases hk : (a, b) = k
        · subst hk; rw [hnone]; simp [Dict.get?, hs]
        · simp [Dict.get?, hk]
      · simp only [allCommonStep, hs, if_false, hl]
        obtain ⟨d, h1, h2⟩ := ih hw' (fun q hqq => hq q (List.mem_cons_of_mem _ hqq))
          (acc.set (a, b) (entry l))
        refine ⟨d, h1, fun k => ?_⟩
        rw [h2]
        by_cases hk : (a, b) = k
        · subst hk; rw [hnone]; simp [Dict.get?, hs, hl]
        · simp [Dict.get?, hk, Dict.get?_set]
  obtain ⟨d, h1, h2⟩ := loop _ hwf (by
    rintro ⟨⟨a, b⟩, size⟩ hq
    have := (hconn a b size).1 (Dict.get?_of_mem hwf hq)
    simpa using this.2.1) []
  refine ⟨d, h1, ?_, ?_⟩
  · intro a b
    rw [h2]
    cases hg : ((run ops).getAllPairsConnectivity lt [] []).get? (a, b) with
    | none =>
      simp only [Dict.get?_nil, Option.isSome_none, Bool.false_eq_true, false_iff]
      rintro ⟨x1, x2, x3, x4, _⟩
      have := (hconn a b _).2 ⟨x1, .inl ⟨rfl, x2, x3⟩, x4, by simp⟩
      rw [hg] at this; cases this
    | some size =>
      obtain ⟨x1, x2, x3, x4⟩ := (hconn a b size).1 hg
      simp only [List.not_mem_nil, and_self, or_false, true_and, if_true] at x2 x4
      obtain ⟨l, hl⟩ := hcommon a b x2.1 x2.2
      simp only [hl]
      by_cases hs : size < minCommon
      · simp [hs, x1, x2]; omega
      · simp [hs, x1, x2]; omega
  · intro a b ts p1 p2 hd
    rw [h2] at hd
    cases hg : ((run ops).getAllPairsConnectivity lt [] []).get? (a, b) with
    | none => simp [hg] at hd
    | some size =>
      obtain ⟨x1, x2, x3, x4⟩ := (hconn a b size).1 hg
      simp only [List.not_mem_nil, and_self, or_false, true_and, if_true] at x2 x4
      obtain ⟨l, hl⟩ := hcommon a b x2.1 x2.2
      rw [hg] at hd
      simp only [hl] at hd
      split at hd
      · simp at hd
      · simp only [Option.some.injEq, entry, Prod.mk.injEq] at hd
        obtain ⟨rfl, rfl, rfl⟩ := hd
        obtain ⟨y1, y2⟩ := (C04_common ops a b).1 l hl
        have hmem : ∀ t, t ∈ l.map (·.1) ↔
            (lastWrite ops.reverse a t).isSome ∧ (lastWrite ops.reverse b t).isSome := by
          intro t
          rw [List.mem_map]
          constructor
          · rintro ⟨⟨t', o1, o2⟩, hm, rfl⟩
            obtain ⟨e1, e2⟩ := (y2 _ _ _).1 hm
            simp [e1, e2]
          · rintro ⟨e1, e2⟩
            obtain ⟨o1, e1⟩ := Option.isSome_iff_exists.1 e1
            obtain ⟨o2, e2⟩ := Option.isSome_iff_exists.1 e2
            exact ⟨(t, o1, o2), (y2 _ _ _).2 ⟨e1, e2⟩, rfl⟩
        refine ⟨y1, ?_, by simp, by simp, hmem, ?_⟩
        · unfold sharedTracks
          rw [List.countP_eq_length_filter]
          have hperm : (l.map (·.1)).Perm ((addedTracks ops).dedup.filter fun t =>
              decide ((lastWrite ops.reverse a t).isSome = true ∧
                (lastWrite ops.reverse b t).isSome = true)) := by
            rw [List.perm_ext_iff_of_nodup y1 ((List.nodup_dedup _).filter _)]
            intro t
            rw [hmem, List.mem_filter, List.mem_dedup, decide_eq_true_eq]
            refine ⟨fun h => ⟨?_, h⟩, fun h => h.2⟩
            obtain ⟨o, ho⟩ := Option.isSome_iff_exists.1 h.1
            obtain ⟨dd, hd1, hd2⟩ := (C01_trackView ops a t o).2 ho
            by_contra hcon
            rw [((C02_lookup ops a t).2.2.2).2 hcon] at hd1
            cases hd1
          exact hperm.length_eq
        · intro i t hi
          rw [List.getElem?_map, Option.map_eq_some_iff] at hi
          obtain ⟨⟨t', o1, o2⟩, hx, rfl⟩ := hi
          obtain ⟨e1, e2⟩ := (y2 _ _ _).1 (List.mem_of_getElem? hx)
          simp [List.getElem?_map, hx, e1, e2]

example : allCommonTracks (S := Nat) (T := Nat) (P := Nat) String.length
      (fun a b => decide (a < b)) (run TM.sampleOps) 1 = .ok [((1, 2), ([10], [2], [1]))] := by
  rfl

example : allCommonTracks (S := Nat) (T := Nat) (P := Nat) String.length
      (fun a b => decide (a < b)) (run TM.sampleOps) 2 = .ok [] := by
  rfl

theorem commonTracks_foldl (point : O → P) (t2 : Dict T O) (t1 : Dict T O)
    (acc : List T × List P × List P) :
    t1.foldl (fun acc p =>
      match t2.get? p.1 with
      | some o2 => (acc.1 ++ [p.1], acc.2.1 ++ [point p.2], acc.2.2 ++ [point o2])
      | none => acc) acc =
    (let l := t1.filterMap fun p => (t2.get? p.1).map fun o2 => (p.1, p.2, o2)
     (acc.1 ++ l.map (·.1), acc.2.1 ++ l.map (fun x => point x.2.1),
      acc.2.2 ++ l.map (fun x => point x.2.2))) := by
  induction t1 generalizing acc with
  | nil => simp
  | cons p t1 ih =>
    rw [List.foldl_cons, ih]
    cases hg : t2.get? p.1 <;> simp [hg]

/-- `common_tracks` and `get_all_common_observations` agree: the former lists the columns of the
latter (hence C04 describes its content). -/
theorem C13_common_tracks (point : O → P) (m : TM S T O) (im1 im2 : S) :
    (∀ l, m.getAllCommonObservations im1 im2 = .ok l →
      commonTracks point m im1 im2 =
        .ok (l.map (·.1), l.map (fun x => point x.2.1), l.map (fun x => point x.2.2))) ∧
    ((∃ e, m.getAllCommonObservations im1 im2 = .error e) ↔
      ∃ e, commonTracks point m im1 im2 = .error e) := by
  unfold getAllCommonObservations commonTracks getShotObservations
  cases h1 : m.perShot.get? im1 <;> cases h2 : m.perShot.get? im2 <;> simp
  rename_i t1 t2
  have := commonTracks_foldl point t2 t1 ([], [], [])
  simp only [List.nil_append] at this
  exact this

end common
end Verif.Tracking
