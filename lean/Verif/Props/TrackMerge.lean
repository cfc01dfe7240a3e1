import Verif.Model.TrackMerge
import Verif.Props.TracksManager
import Verif.Props.UnionFindCpp
import Mathlib.Data.List.Nodup

/-!
# C06: merging tracks managers yields connected components
-/
set_option linter.unusedSectionVars false
namespace Verif.TrackMerge
open Verif.TM
variable {S T O F : Type} [DecidableEq S] [DecidableEq T] [DecidableEq F]

/-! ## Specification -/

/-- Manager number `a.1` has a track `a.2`. -/
def IsTrack (ms : List (TM S T O)) (a : Nat × T) : Prop :=
  ∃ m, ms[a.1]? = some m ∧ a.2 ∈ m.getTrackIds

/-- Track `a` observes shot `s` as `o`. -/
def Holds (ms : List (TM S T O)) (a : Nat × T) (s : S) (o : O) : Prop :=
  ∃ m, ms[a.1]? = some m ∧ m.getObservation s a.2 = .ok o

/-- The two tracks observe one shot through the same feature. -/
def Touch (fid : O → F) (ms : List (TM S T O)) (a b : Nat × T) : Prop :=
  ∃ s o o', Holds ms a s o ∧ Holds ms b s o' ∧ fid o = fid o'

/-- Linked by a chain of touching tracks. -/
def Joined (fid : O → F) (ms : List (TM S T O)) : Nat × T → Nat × T → Prop :=
  Relation.EqvGen (Touch fid ms)

/-! ## Lemmas -/

theorem mem_elements (ms : List (TM S T O)) (t : T) (i : Nat) :
    (t, i) ∈ elements ms ↔ IsTrack ms (i, t) := by
  simp only [elements, IsTrack, List.mem_flatMap, List.mem_map, Prod.mk.injEq,
    List.mem_zipIdx_iff_getElem?, getTrackIds]
  constructor
  · rintro ⟨⟨m, j⟩, hm, t', ht, rfl, rfl⟩; exact ⟨m, hm, ht⟩
  · rintro ⟨m, hm, ht⟩; exact ⟨(m, i), hm, t, ht, rfl, rfl⟩

theorem nodup_elements {ms : List (TM S T O)} (h : ∀ m ∈ ms, Inv m) : (elements ms).Nodup := by
  unfold elements
  rw [List.nodup_flatMap]
  constructor
  · rintro ⟨m, i⟩ hm
    have : m ∈ ms := (List.mem_zipIdx_iff_getElem?.1 hm) |> List.mem_of_getElem?
    exact List.Nodup.map (by intro a b; simp) (h m this).wfT.1
  · have hz : (ms.zipIdx.map Prod.snd).Nodup := by
      rw [List.zipIdx_map_snd]; exact List.nodup_range'
    rw [List.Nodup, List.pairwise_map] at hz
    refine hz.imp ?_
    rintro ⟨m, i⟩ ⟨m', j⟩ hij
    simp only [Function.onFun, List.Disjoint, List.mem_map]
    rintro x ⟨a, _, rfl⟩ ⟨b, _, hb⟩
    exact hij (by cases hb; rfl)

theorem mem_trackOf {ms : List (TM S T O)} (h : ∀ m ∈ ms, Inv m) (t : T) (i : Nat) (s : S) (o : O) :
    (s, o) ∈ trackOf ms (t, i) ↔ Holds ms (i, t) s o := by
  unfold trackOf Holds
  cases hm : ms[i]? with
  | none => simp
  | some m =>
    have hinv := h m (List.mem_of_getElem? hm)
    simp only [Option.bind_some, Option.some.injEq, exists_eq_left', getObservation_ok_iff]
    rw [hinv.sym]
    unfold look2
    cases ht : m.perTrack.get? t with
    | none => simp
    | some d => simp [Dict.mem_iff_get? (hinv.wfT.2 _ _ ht)]

theorem holds_isTrack {ms : List (TM S T O)} (h : ∀ m ∈ ms, Inv m) {a : Nat × T} {s : S} {o : O}
    (ha : Holds ms a s o) : IsTrack ms a := by
  obtain ⟨m, hm, hg⟩ := ha
  refine ⟨m, hm, ?_⟩
  have hinv := h m (List.mem_of_getElem? hm)
  rw [getObservation_ok_iff, hinv.sym] at hg
  unfold look2 at hg
  unfold getTrackIds
  rw [Dict.mem_keys_iff]
  cases ht : m.perTrack.get? a.2 with
  | none => simp [ht] at hg
  | some d => rfl

/-- The (feature, position) list pushed to the feature table. -/
def pushes (fid : O → F) (ms : List (TM S T O)) : List ((S × F) × Nat) :=
  (elements ms).zipIdx.flatMap fun p => (trackOf ms p.1).map fun q => ((q.1, fid q.2), p.2)

theorem featureTable_eq (fid : O → F) (ms : List (TM S T O)) :
    featureTable fid ms = (pushes fid ms).foldl (fun tbl x => Dict.push tbl x.1 x.2) [] := by
  unfold featureTable pushes
  rw [List.foldl_flatMap]
  congr 1
  funext tbl p
  rw [List.foldl_map]

theorem foldl_push_pairs {A B : Type} [DecidableEq A] (l : List (A × B)) (m : Dict A (List B))
    (k : A) (x : B) :
    (∃ g, (l.foldl (fun tbl p => Dict.push tbl p.1 p.2) m).get? k = some g ∧ x ∈ g) ↔
      (∃ g, m.get? k = some g ∧ x ∈ g) ∨ (k, x) ∈ l := by
  induction l generalizing m with
  | nil => simp
  | cons p l ih =>
    rw [List.foldl_cons, ih]
    simp only [Dict.get?_push, List.mem_cons]
    by_cases hk : p.1 = k
    · simp only [hk, if_true, Option.some.injEq, exists_eq_left', List.mem_append,
        List.mem_singleton]
      have h1 : x ∈ (m.get? k).getD [] ↔ ∃ g, m.get? k = some g ∧ x ∈ g := by
        cases m.get? k <;> simp
      have h2 : (k, x) = p ↔ x = p.2 := by
        constructor
        · rintro rfl; rfl
        · rintro rfl; rw [← hk]
      rw [h1, h2, or_assoc]
    · simp only [hk, if_false]
      have : (k, x) ≠ p := by rintro rfl; exact hk rfl
      simp [this]

theorem wf_foldl_push_pairs {A B : Type} [DecidableEq A] (l : List (A × B)) {m : Dict A (List B)}
    (h : m.Wf) : (l.foldl (fun tbl p => Dict.push tbl p.1 p.2) m).Wf := by
  induction l generalizing m with
  | nil => exact h
  | cons p l ih => exact ih (Dict.wf_push h _ _)

/-- Two positions are in one list of the feature table iff their tracks share that feature. -/
theorem mem_table (fid : O → F) (ms : List (TM S T O)) (h : ∀ m ∈ ms, Inv m) (e e' : Nat) :
    (∃ g ∈ (featureTable fid ms).vals, e ∈ g ∧ e' ∈ g) ↔
      ∃ t i t' i', (elements ms)[e]? = some (t, i) ∧ (elements ms)[e']? = some (t', i') ∧
        Touch fid ms (i, t) (i', t') := by
  have hw : (featureTable fid ms).Wf := by
    rw [featureTable_eq]; exact wf_foldl_push_pairs _ Dict.wf_nil
  have hp : ∀ k x, (k, x) ∈ pushes fid ms ↔ ∃ t i, (elements ms)[x]? = some (t, i) ∧
      ∃ o, Holds ms (i, t) k.1 o ∧ fid o = k.2 := by
    rintro ⟨s, f⟩ x
    simp only [pushes, List.mem_flatMap, List.mem_map, Prod.mk.injEq,
      List.mem_zipIdx_iff_getElem?]
    constructor
    · rintro ⟨⟨⟨t, i⟩, x'⟩, hx, ⟨s', o⟩, hso, ⟨rfl, rfl⟩, rfl⟩
      exact ⟨t, i, hx, o, (mem_trackOf h _ _ _ _).1 hso, rfl⟩
    · rintro ⟨t, i, hx, o, ho, rfl⟩
      exact ⟨((t, i), x), hx, (s, o), (mem_trackOf h _ _ _ _).2 ho, ⟨rfl, rfl⟩, rfl⟩
  have hg : ∀ k x, (∃ g, (featureTable fid ms).get? k = some g ∧ x ∈ g) ↔ (k, x) ∈ pushes fid ms := by
    intro k x
    rw [featureTable_eq, foldl_push_pairs]; simp
  constructor
  · rintro ⟨g, hgv, he, he'⟩
    obtain ⟨⟨k, g'⟩, hk, rfl⟩ := List.mem_map.1 hgv
    have hk' := Dict.get?_of_mem hw hk
    obtain ⟨t, i, a1, o, a2, a3⟩ := (hp k e).1 ((hg k e).1 ⟨_, hk', he⟩)
    obtain ⟨t', i', b1, o', b2, b3⟩ := (hp k e').1 ((hg k e').1 ⟨_, hk', he'⟩)
    exact ⟨t, i, t', i', a1, b1, k.1, o, o', a2, b2, by rw [a3, b3]⟩
  · rintro ⟨t, i, t', i', a1, b1, s, o, o', a2, b2, hf⟩
    obtain ⟨g, g1, g2⟩ := (hg (s, fid o) e).2 ((hp _ _).2 ⟨t, i, a1, o, a2, rfl⟩)
    obtain ⟨g', g1', g2'⟩ := (hg (s, fid o) e').2 ((hp _ _).2 ⟨t', i', b1, o', b2, hf.symm⟩)
    rw [g1] at g1'; cases g1'
    exact ⟨g, List.mem_map.2 ⟨_, Dict.mem_of_get? g1, rfl⟩, g2, g2'⟩

theorem made_mergeOps (n : Nat) (order : List (List Nat)) (x : Nat) :
    x ∈ UFCpp.made (mergeOps n order) ↔ x < n := by
  simp only [UFCpp.made, mergeOps, List.filterMap_append, List.mem_append, List.mem_filterMap]
  constructor
  · rintro (⟨op, h1, h2⟩ | ⟨op, h1, h2⟩)
    · obtain ⟨y, hy, rfl⟩ := List.mem_map.1 h1
      simp only [Option.some.injEq] at h2
      subst h2; simpa using hy
    · obtain ⟨g, _, hg⟩ := List.mem_flatMap.1 h1
      cases g with
      | nil => cases hg
      | cons a l =>
        obtain ⟨b, _, rfl⟩ := List.mem_map.1 hg
        cases h2
  · intro hx
    exact .inl ⟨.make x, List.mem_map.2 ⟨x, by simpa using hx, rfl⟩, rfl⟩

theorem unions_mergeOps (n : Nat) (order : List (List Nat)) (g : List Nat) :
    g ∈ UFCpp.unions (mergeOps n order) ↔
      ∃ a l b, (a :: l) ∈ order ∧ b ∈ l ∧ g = [a, b] := by
  simp only [UFCpp.unions, mergeOps, List.filterMap_append, List.mem_append, List.mem_filterMap]
  constructor
  · rintro (⟨op, h1, h2⟩ | ⟨op, h1, h2⟩)
    · obtain ⟨y, hy, rfl⟩ := List.mem_map.1 h1
      cases h2
    · obtain ⟨g', hg', hg⟩ := List.mem_flatMap.1 h1
      cases g' with
      | nil => cases hg
      | cons a l =>
        obtain ⟨b, hb, rfl⟩ := List.mem_map.1 hg
        simp only [Option.some.injEq] at h2
        exact ⟨a, l, b, hg', hb, h2.symm⟩
  · rintro ⟨a, l, b, h1, h2, rfl⟩
    exact .inr ⟨.union a b, List.mem_flatMap.2 ⟨_, h1, List.mem_map.2 ⟨b, h2, rfl⟩⟩, rfl⟩

theorem linked_mergeOps (n : Nat) (order : List (List Nat)) (x y : Nat) :
    Linked (UFCpp.unions (mergeOps n order)) x y ↔ Linked order x y := by
  constructor
  · intro h
    induction h with
    | rel a b h =>
      obtain ⟨g, hg, ha, hb⟩ := h
      obtain ⟨c, l, e, h1, h2, rfl⟩ := (unions_mergeOps n order g).1 hg
      have hin : ∀ z ∈ [c, e], z ∈ c :: l := by
        intro z hz
        simp only [List.mem_cons, List.not_mem_nil, or_false] at hz
        rcases hz with rfl | rfl
        · simp
        · exact List.mem_cons_of_mem _ h2
      exact Linked.of_mem h1 (hin _ ha) (hin _ hb)
    | refl => exact Linked.refl _
    | symm _ _ _ ih => exact ih.symm
    | trans _ _ _ _ _ ih1 ih2 => exact ih1.trans ih2
  · intro h
    induction h with
    | rel a b h =>
      obtain ⟨g, hg, ha, hb⟩ := h
      cases g with
      | nil => cases ha
      | cons c l =>
        have hc : ∀ z ∈ c :: l, Linked (UFCpp.unions (mergeOps n order)) c z := by
          intro z hz
          rcases List.mem_cons.1 hz with rfl | hz
          · exact Linked.refl _
          · exact Linked.of_mem (g := [c, z]) ((unions_mergeOps n order _).2 ⟨c, l, z, hg, hz, rfl⟩)
              (by simp) (by simp)
        exact (hc a ha).symm.trans (hc b hb)
    | refl => exact Linked.refl _
    | symm _ _ _ ih => exact ih.symm
    | trans _ _ _ _ _ ih1 ih2 => exact ih1.trans ih2

theorem valid_mergeOps {n : Nat} {order : List (List Nat)}
    (ho : ∀ g ∈ order, ∀ x ∈ g, x < n) : UFCpp.ValidOps (mergeOps n order) := by
  -- a prefix of the history contains only earlier allocations
  have hmk : ∀ b op a, (List.range n).map UFCpp.Op.make = b ++ op :: a →
      ∃ k, op = .make k ∧ k < n ∧ k ∉ UFCpp.made b := by
    intro b op a hab
    have h0 : (UFCpp.made ((List.range n).map UFCpp.Op.make)) = List.range n := by
      simp [UFCpp.made, List.filterMap_map]
    have hop : op ∈ (List.range n).map UFCpp.Op.make := by rw [hab]; simp
    obtain ⟨k, hk, rfl⟩ := List.mem_map.1 hop
    refine ⟨k, rfl, by simpa using hk, ?_⟩
    have hnd : (UFCpp.made (b ++ UFCpp.Op.make k :: a)).Nodup := by
      rw [← hab, h0]; exact List.nodup_range
    simp only [UFCpp.made, List.filterMap_append, List.filterMap_cons] at hnd ⊢
    rw [List.nodup_append] at hnd
    intro hkb
    exact hnd.2.2 k hkb k (by simp) rfl
  intro b op a hab
  unfold mergeOps at hab
  rw [List.append_eq_append_iff] at hab
  rcases hab with ⟨c, hb, hc⟩ | ⟨c, hb, hc⟩
  · -- the call is a union after all allocations
    have hop : op ∈ order.flatMap unionGroup := by rw [hc]; simp
    obtain ⟨g, hg, hop⟩ := List.mem_flatMap.1 hop
    cases g with
    | nil => cases hop
    | cons e1 l =>
      obtain ⟨e2, he2, rfl⟩ := List.mem_map.1 hop
      have hall : ∀ x, x < n → x ∈ UFCpp.made b := by
        intro x hx
        rw [hb]
        simp only [UFCpp.made, List.filterMap_append, List.mem_append]
        left
        exact List.mem_filterMap.2 ⟨.make x, List.mem_map.2 ⟨x, by simpa using hx, rfl⟩, rfl⟩
      exact ⟨hall _ (ho _ hg _ (by simp)), hall _ (ho _ hg _ (List.mem_cons_of_mem _ he2))⟩
  · cases c with
    | nil =>
      have hop : op ∈ order.flatMap unionGroup := by
        simp only [List.nil_append] at hc; rw [← hc]; simp
      obtain ⟨g, hg, hop⟩ := List.mem_flatMap.1 hop
      cases g with
      | nil => cases hop
      | cons e1 l =>
        obtain ⟨e2, he2, rfl⟩ := List.mem_map.1 hop
        simp only [List.append_nil] at hb
        have hall : ∀ x, x < n → x ∈ UFCpp.made b := by
          intro x hx
          rw [← hb]
          exact List.mem_filterMap.2 ⟨.make x, List.mem_map.2 ⟨x, by simpa using hx, rfl⟩, rfl⟩
        exact ⟨hall _ (ho _ hg _ (by simp)), hall _ (ho _ hg _ (List.mem_cons_of_mem _ he2))⟩
    | cons op' c =>
      simp only [List.cons_append, List.cons.injEq] at hc
      obtain ⟨rfl, _⟩ := hc
      obtain ⟨k, rfl, _, hk⟩ := hmk b op c hb
      exact hk

/-- The triples added to the merged manager. -/
def buildList (ms : List (TM S T O)) (clusters : List (List Nat)) : List (S × Nat × O) :=
  clusters.zipIdx.flatMap fun p => p.1.flatMap fun e =>
    match (elements ms)[e]? with
    | none => []
    | some el => (trackOf ms el).map fun q => (q.1, p.2, q.2)

theorem build_eq (ms : List (TM S T O)) (clusters : List (List Nat)) :
    build ms clusters =
      (buildList ms clusters).foldl (fun m p => m.addObservation p.1 p.2.1 p.2.2) empty := by
  unfold build buildList
  rw [List.foldl_flatMap]
  congr 1
  funext m p
  rw [List.foldl_flatMap]
  congr 1
  funext m e
  cases (elements ms)[e]? with
  | none => rfl
  | some el => simp [List.foldl_map]

theorem look2_addMany_mem (l : List (S × Nat × O)) (s : S) (k : Nat) (o : O)
    (h : look2 (l.foldl (fun m p => m.addObservation p.1 p.2.1 p.2.2)
      (empty : TM S Nat O)).perShot s k = some o) : (s, k, o) ∈ l := by
  rw [look2_addMany] at h
  rw [show look2 (empty : TM S Nat O).perShot s k = none from rfl, Option.or_none] at h
  obtain ⟨p, hp, hpe⟩ := List.exists_of_findSome?_eq_some h
  rw [List.mem_reverse] at hp
  split at hpe
  · rename_i hc
    obtain ⟨ps, pt, po⟩ := p
    obtain ⟨rfl, rfl⟩ := hc
    cases hpe; exact hp
  · cases hpe

theorem look2_addMany_isSome (l : List (S × Nat × O)) (s : S) (k : Nat) (o : O)
    (h : (s, k, o) ∈ l) : ∃ o', look2 (l.foldl (fun m p => m.addObservation p.1 p.2.1 p.2.2)
      (empty : TM S Nat O)).perShot s k = some o' := by
  rw [look2_addMany]
  cases hf : (l.reverse.findSome? fun p => if p.1 = s ∧ p.2.1 = k then some p.2.2 else none) with
  | some o' => exact ⟨o', by simp⟩
  | none =>
    rw [List.findSome?_eq_none_iff] at hf
    have := hf _ (List.mem_reverse.2 h)
    simp at this

theorem mem_buildList {ms : List (TM S T O)} (h : ∀ m ∈ ms, Inv m) (clusters : List (List Nat))
    (s : S) (k : Nat) (o : O) :
    (s, k, o) ∈ buildList ms clusters ↔ ∃ c e t i, clusters[k]? = some c ∧ e ∈ c ∧
      (elements ms)[e]? = some (t, i) ∧ Holds ms (i, t) s o := by
  simp only [buildList, List.mem_flatMap, List.mem_zipIdx_iff_getElem?]
  constructor
  · rintro ⟨⟨c, k'⟩, hc, e, he, hm⟩
    cases hel : (elements ms)[e]? with
    | none => simp [hel] at hm
    | some el =>
      obtain ⟨t, i⟩ := el
      simp only [hel, List.mem_map, Prod.mk.injEq] at hm
      obtain ⟨⟨s', o'⟩, hq, rfl, rfl, rfl⟩ := hm
      exact ⟨c, e, t, i, hc, he, hel, (mem_trackOf h _ _ _ _).1 hq⟩
  · rintro ⟨c, e, t, i, hc, he, hel, hq⟩
    refine ⟨(c, k), hc, e, he, ?_⟩
    simp only [hel, List.mem_map, Prod.mk.injEq]
    exact ⟨(s, o), (mem_trackOf h _ _ _ _).2 hq, by simp⟩

/-- Clusters at two positions sharing an element are the same position. -/
theorem cluster_unique {cs : List (List Nat)} (h : cs.flatten.Nodup) {k k' : Nat}
    {c c' : List Nat} (hk : cs[k]? = some c) (hk' : cs[k']? = some c') {e : Nat} (he : e ∈ c)
    (he' : e ∈ c') : k = k' := by
  rw [List.nodup_flatten] at h
  have hp := List.pairwise_iff_getElem.1 h.2
  obtain ⟨hl, rfl⟩ := List.getElem?_eq_some_iff.1 hk
  obtain ⟨hl', rfl⟩ := List.getElem?_eq_some_iff.1 hk'
  rcases Nat.lt_trichotomy k k' with hlt | heq | hgt
  · exact absurd he' (hp k k' hl hl' hlt he)
  · exact heq
  · exact absurd he (hp k' k hl' hl hgt he')

/-! ## The property -/

/-- Merging always returns; every merged manager comes with a numbering `cl` of the input tracks
by output tracks `0..n-1` (all used) such that two input tracks get the same output track iff they
are linked by a chain of tracks sharing a feature; output observations come from the input tracks
of that number, and every input observation's (shot, output track) is observed. -/
theorem C06_merge (fid : O → F) (ms : List (TM S T O)) (hms : ∀ m ∈ ms, Reachable m) :
    (∃ out, Merged fid ms out) ∧
    ∀ out, Merged fid ms out →
      Reachable out ∧
      ∃ (n : Nat) (cl : Nat × T → Nat),
        (∀ a, IsTrack ms a → cl a < n) ∧
        (∀ k, k < n → ∃ a, IsTrack ms a ∧ cl a = k) ∧
        (∀ a b, IsTrack ms a → IsTrack ms b → (cl a = cl b ↔ Joined fid ms a b)) ∧
        (∀ s k o, out.getObservation s k = .ok o →
          ∃ a, IsTrack ms a ∧ cl a = k ∧ Holds ms a s o) ∧
        (∀ a s o, Holds ms a s o → ∃ o', out.getObservation s (cl a) = .ok o') := by
  have hinv : ∀ m ∈ ms, Inv m := fun m hm => inv_of_reachable (hms m hm)
  by_cases hel : elements ms = []
  · have hno : ∀ a, ¬ IsTrack ms a := by
      rintro ⟨i, t⟩ ha
      have := (mem_elements ms t i).2 ha
      rw [hel] at this; cases this
    refine ⟨⟨empty, by simp [Merged, hel]⟩, ?_⟩
    intro out hout
    rw [Merged, if_pos hel] at hout
    subst hout
    refine ⟨⟨[], rfl⟩, 0, fun _ => 0, fun a ha => absurd ha (hno a), ?_,
      fun a _ ha => absurd ha (hno a), ?_, ?_⟩
    · intro k hk; omega
    · intro s k o h; simp [getObservation, empty] at h
    · intro a s o h; exact absurd (holds_isTrack hinv h) (hno a)
  · set n := (elements ms).length with hn
    -- positions in the table are valid
    have hval : ∀ (order : List (List Nat)), order.Perm (featureTable fid ms).vals →
        ∀ g ∈ order, ∀ x ∈ g, x < n := by
      intro order hp g hg x hx
      obtain ⟨t, i, _, _, h1, _⟩ := (mem_table fid ms hinv x x).1 ⟨g, hp.mem_iff.1 hg, hx, hx⟩
      rw [hn]; exact (List.getElem?_eq_some_iff.1 h1).1
    have hmade : ∀ order, ∀ e ∈ List.range n, e ∈ UFCpp.made (mergeOps n order) := by
      intro order e he
      rw [made_mergeOps]; simpa using he
    refine ⟨?_, ?_⟩
    · have hv := valid_mergeOps (hval _ (List.Perm.refl _))
      obtain ⟨u, hu, _⟩ := UFCpp.C10_terminates _ hv
      obtain ⟨⟨cs, hcs⟩, _⟩ := UFCpp.C10_clusters _ hv (List.range n) (hmade _) hu
      exact ⟨build ms cs, by rw [Merged, if_neg hel]; exact ⟨_, u, cs, List.Perm.refl _, hu, hcs, rfl⟩⟩
    · intro out hout
      rw [Merged, if_neg hel] at hout
      obtain ⟨order, u, cs, hp, hu, hcs, rfl⟩ := hout
      have hv := valid_mergeOps (hval _ hp)
      obtain ⟨_, hc⟩ := UFCpp.C10_clusters _ hv (List.range n) (hmade _) hu
      obtain ⟨hflat, hne, hsame, _⟩ := hc cs hcs
      have hnd : cs.flatten.Nodup := hflat.nodup_iff.2 List.nodup_range
      -- the position of a track
      have hpos : ∀ a, IsTrack ms a → ∃ e : Nat, (elements ms)[e]? = some (a.2, a.1) := by
        rintro ⟨i, t⟩ ha
        exact List.getElem?_of_mem ((mem_elements ms t i).2 ha)
      have hposu : ∀ {e e' : Nat} {x : T × Nat}, (elements ms)[e]? = some x →
          (elements ms)[e']? = some x → e = e' := by
        intro e e' x h1 h2
        obtain ⟨hl, h1⟩ := List.getElem?_eq_some_iff.1 h1
        obtain ⟨hl', h2⟩ := List.getElem?_eq_some_iff.1 h2
        exact (List.Nodup.getElem_inj_iff (nodup_elements hinv)).1 (h1.trans h2.symm)
      have hclu : ∀ e, e < n → ∃ (k : Nat) (c : List Nat), cs[k]? = some c ∧ e ∈ c := by
        intro e he
        have : e ∈ cs.flatten := hflat.mem_iff.2 (by simpa using he)
        obtain ⟨c, hc, hec⟩ := List.mem_flatten.1 this
        obtain ⟨k, hk⟩ := List.getElem?_of_mem hc
        exact ⟨k, c, hk, hec⟩
      have hex : ∀ a, ∃ k : Nat, IsTrack ms a → ∃ (e : Nat) (c : List Nat), (elements ms)[e]? = some (a.2, a.1) ∧
          cs[k]? = some c ∧ e ∈ c := by
        intro a
        by_cases ha : IsTrack ms a
        · obtain ⟨e, he⟩ := hpos a ha
          obtain ⟨k, c, h1, h2⟩ := hclu e (List.getElem?_eq_some_iff.1 he).1
          exact ⟨k, fun _ => ⟨e, c, he, h1, h2⟩⟩
        · exact ⟨0, fun h => absurd h ha⟩
      choose cl hcl using hex
      have htrack : ∀ {e : Nat} {t i}, (elements ms)[e]? = some (t, i) → IsTrack ms (i, t) := by
        intro e t i h
        exact (mem_elements ms t i).1 (List.mem_of_getElem? h)
      -- `cl` is determined by membership in a cluster
      have hcl_eq : ∀ {e : Nat} {t i} {k : Nat} {c}, (elements ms)[e]? = some (t, i) → cs[k]? = some c → e ∈ c →
          cl (i, t) = k := by
        intro e t i k c h1 h2 h3
        obtain ⟨e', c', g1, g2, g3⟩ := hcl (i, t) (htrack h1)
        have := hposu h1 g1; subst this
        exact cluster_unique hnd g2 h2 g3 h3
      -- links between positions are links between tracks
      have hlj : ∀ {e e' : Nat}, Linked order e e' → ∀ {t i t' i'}, (elements ms)[e]? = some (t, i) →
          (elements ms)[e']? = some (t', i') → Joined fid ms (i, t) (i', t') := by
        intro e e' hl
        -- through a total function from positions to tracks
        have key : ∀ {e e' : Nat}, Linked order e e' →
            (e = e' ∨ ∃ t i t' i', (elements ms)[e]? = some (t, i) ∧
              (elements ms)[e']? = some (t', i') ∧ Joined fid ms (i, t) (i', t')) := by
          intro e e' hl
          induction hl with
          | rel a b h =>
            obtain ⟨g, hg, ha, hb⟩ := h
            obtain ⟨t, i, t', i', h1, h2, h3⟩ :=
              (mem_table fid ms hinv a b).1 ⟨g, hp.mem_iff.1 hg, ha, hb⟩
            exact .inr ⟨t, i, t', i', h1, h2, Relation.EqvGen.rel _ _ h3⟩
          | refl => exact .inl rfl
          | symm _ _ _ ih =>
            rcases ih with rfl | ⟨t, i, t', i', h1, h2, h3⟩
            · exact .inl rfl
            · exact .inr ⟨t', i', t, i, h2, h1, Relation.EqvGen.symm _ _ h3⟩
          | trans _ _ _ _ _ ih1 ih2 =>
            rcases ih1 with rfl | ⟨t, i, t', i', h1, h2, h3⟩
            · exact ih2
            · rcases ih2 with rfl | ⟨r, j, r', j', g1, g2, g3⟩
              · exact .inr ⟨t, i, t', i', h1, h2, h3⟩
              · rw [h2] at g1; cases g1
                exact .inr ⟨t, i, r', j', h1, g2, Relation.EqvGen.trans _ _ _ h3 g3⟩
        intro t i t' i' h1 h2
        rcases key hl with rfl | ⟨r, j, r', j', g1, g2, g3⟩
        · rw [h1] at h2; cases h2; exact Relation.EqvGen.refl _
        · rw [h1] at g1; rw [h2] at g2; cases g1; cases g2; exact g3
      have hjl : ∀ {a b}, Joined fid ms a b → ∀ {e e' : Nat}, (elements ms)[e]? = some (a.2, a.1) →
          (elements ms)[e']? = some (b.2, b.1) → Linked order e e' := by
        have key : ∀ {a b}, Joined fid ms a b → (a = b ∨ ∃ e e' : Nat,
            (elements ms)[e]? = some (a.2, a.1) ∧ (elements ms)[e']? = some (b.2, b.1) ∧
            Linked order e e') := by
          intro a b h
          induction h with
          | rel a b h =>
            obtain ⟨s, o, o', h1, h2, _⟩ := id h
            obtain ⟨e, he⟩ := hpos a (holds_isTrack hinv h1)
            obtain ⟨e', he'⟩ := hpos b (holds_isTrack hinv h2)
            obtain ⟨g, hg, ha, hb⟩ := (mem_table fid ms hinv e e').2
              ⟨a.2, a.1, b.2, b.1, he, he', h⟩
            exact .inr ⟨e, e', he, he', Linked.of_mem (hp.mem_iff.2 hg) ha hb⟩
          | refl => exact .inl rfl
          | symm _ _ _ ih =>
            rcases ih with rfl | ⟨e, e', h1, h2, h3⟩
            · exact .inl rfl
            · exact .inr ⟨e', e, h2, h1, h3.symm⟩
          | trans _ _ _ _ _ ih1 ih2 =>
            rcases ih1 with rfl | ⟨e, e', h1, h2, h3⟩
            · exact ih2
            · rcases ih2 with rfl | ⟨f, f', g1, g2, g3⟩
              · exact .inr ⟨e, e', h1, h2, h3⟩
              · have := hposu h2 g1; subst this
                exact .inr ⟨e, f', h1, g2, h3.trans g3⟩
        intro a b h e e' h1 h2
        rcases key h with rfl | ⟨f, f', g1, g2, g3⟩
        · have := hposu h1 h2; subst this; exact Linked.refl _
        · have := hposu h1 g1; subst this
          have := hposu h2 g2; subst this
          exact g3
      refine ⟨?_, cs.length, cl, ?_, ?_, ?_, ?_, ?_⟩
      · rw [build_eq]; exact reachable_addMany ⟨[], rfl⟩ _
      · intro a ha
        obtain ⟨e, c, _, h2, _⟩ := hcl a ha
        exact (List.getElem?_eq_some_iff.1 h2).1
      · intro k hk
        have hc : cs[k]? = some cs[k] := List.getElem?_eq_getElem hk
        obtain ⟨e, he⟩ := List.exists_mem_of_ne_nil _ (hne _ (List.mem_of_getElem? hc))
        have hen : e < n := by
          have : e ∈ List.range n := hflat.mem_iff.1
            (List.mem_flatten.2 ⟨_, List.mem_of_getElem? hc, he⟩)
          simpa using this
        have hee : (elements ms)[e]? = some (elements ms)[e] := List.getElem?_eq_getElem hen
        exact ⟨((elements ms)[e].2, (elements ms)[e].1), htrack hee, hcl_eq hee hc he⟩
      · intro a b ha hb
        obtain ⟨e, c, h1, h2, h3⟩ := hcl a ha
        obtain ⟨e', c', g1, g2, g3⟩ := hcl b hb
        have hen : e ∈ List.range n := by simpa using (List.getElem?_eq_some_iff.1 h1).1
        have hen' : e' ∈ List.range n := by simpa using (List.getElem?_eq_some_iff.1 g1).1
        have hs := hsame e hen e' hen'
        rw [linked_mergeOps] at hs
        constructor
        · intro hab
          rw [hab, g2] at h2; cases h2
          exact hlj (hs.1 ⟨c, List.mem_of_getElem? g2, h3, g3⟩) h1 g1
        · intro hj
          obtain ⟨c0, hc0, x1, x2⟩ := hs.2 (hjl hj h1 g1)
          obtain ⟨k, hk⟩ := List.getElem?_of_mem hc0
          have e1 := cluster_unique hnd h2 hk h3 x1
          have e2 := cluster_unique hnd g2 hk g3 x2
          rw [e1, e2]
      · intro s k o h
        rw [getObservation_ok_iff, build_eq] at h
        obtain ⟨c, e, t, i, h1, h2, h3, h4⟩ := (mem_buildList hinv cs s k o).1
          (look2_addMany_mem _ _ _ _ h)
        exact ⟨(i, t), htrack h3, hcl_eq h3 h1 h2, h4⟩
      · intro a s o h
        obtain ⟨e, c, h1, h2, h3⟩ := hcl a (holds_isTrack hinv h)
        obtain ⟨o', ho'⟩ := look2_addMany_isSome (buildList ms cs) s (cl a) o
          ((mem_buildList hinv cs s (cl a) o).2 ⟨c, e, a.2, a.1, h2, h3, h1, h⟩)
        exact ⟨o', by rw [getObservation_ok_iff, build_eq]; exact ho'⟩

/-- No observation is lost unless two linked tracks observe one shot differently: if all tracks
linked to `a` that see shot `s` see it as `o`, the merged track of `a` sees `s` as `o`. -/
theorem C06_no_loss (fid : O → F) (ms : List (TM S T O)) (hms : ∀ m ∈ ms, Reachable m)
    {out : TM S Nat O} (hout : Merged fid ms out) (a : Nat × T) (s : S) (o : O)
    (ha : Holds ms a s o)
    (hagree : ∀ b o', Joined fid ms a b → Holds ms b s o' → o' = o) :
    ∃ k, out.getObservation s k = .ok o := by
  have hinv : ∀ m ∈ ms, Inv m := fun m hm => inv_of_reachable (hms m hm)
  obtain ⟨_, n, cl, _, _, h3, h4, h5⟩ := (C06_merge fid ms hms).2 out hout
  obtain ⟨o', ho'⟩ := h5 a s o ha
  obtain ⟨b, hb1, hb2, hb3⟩ := h4 s (cl a) o' ho'
  have hj := (h3 a b (holds_isTrack hinv ha) hb1).1 hb2.symm
  have := hagree b o' hj hb3
  subst this
  exact ⟨cl a, ho'⟩

/-- Two managers whose tracks share feature `(1, 5)`; observations are `(feature id, payload)`. -/
def sampleA : TM Nat Nat (Nat × String) := run [.add 1 0 (5, "x"), .add 2 0 (6, "y"), .add 3 9 (1, "z")]
def sampleB : TM Nat Nat (Nat × String) := run [.add 1 4 (5, "x"), .add 4 4 (8, "w")]

example : (∀ m ∈ [sampleA, sampleB], Reachable m) ∧
    Joined Prod.fst [sampleA, sampleB] (0, 0) (1, 4) := by
  constructor
  · intro m hm
    simp only [List.mem_cons, List.not_mem_nil, or_false] at hm
    rcases hm with rfl | rfl
    · exact ⟨_, rfl⟩
    · exact ⟨_, rfl⟩
  · exact Relation.EqvGen.rel _ _
      ⟨1, (5, "x"), (5, "x"), ⟨sampleA, rfl, by decide⟩, ⟨sampleB, rfl, by decide⟩, rfl⟩

/-- Losing an observation is possible exactly in the excepted case: here two linked tracks see
shot 2 through features 6 and 7, and only one of the two observations survives. -/
example :
    let a : TM Nat Nat (Nat × String) := run [.add 1 0 (5, "x"), .add 2 0 (6, "y")]
    let b : TM Nat Nat (Nat × String) := run [.add 1 4 (5, "x"), .add 2 4 (7, "w")]
    (build [a, b] [[0, 1]]).getTrackObservations 0 = .ok [(1, (5, "x")), (2, (7, "w"))] := by
  decide

end Verif.TrackMerge
