import Verif.Model.PairsSelection

/-! Helper lemmas about the pair selection model. -/
set_option linter.unusedSectionVars false
set_option linter.unusedSimpArgs false
namespace Verif.PairsSelection

variable {Id : Type} [LinearOrder Id] {D C : Type}

/-! ### sorted pairs -/

theorem sortedPair_comm (a b : Id) : sortedPair a b = sortedPair b a := by
  unfold sortedPair
  rcases lt_trichotomy a b with h | h | h
  · simp [h, not_lt_of_gt h]
  · simp [h]
  · simp [h, not_lt_of_gt h]

theorem sortedPair_eq (a b : Id) : sortedPair a b = (a, b) ∨ sortedPair a b = (b, a) := by
  unfold sortedPair; split <;> simp

/-- Two sorted pairs are equal iff the unordered pairs are. -/
theorem sortedPair_inj {a b c d : Id} :
    sortedPair a b = sortedPair c d ↔ (a = c ∧ b = d) ∨ (a = d ∧ b = c) := by
  constructor
  · intro h
    rcases sortedPair_eq a b with e | e <;> rcases sortedPair_eq c d with e' | e' <;>
      rw [e, e'] at h <;> simp only [Prod.mk.injEq] at h <;> tauto
  · rintro (⟨rfl, rfl⟩ | ⟨rfl, rfl⟩)
    · rfl
    · exact sortedPair_comm _ _

theorem sortedPair_inj_right {a b c : Id} : sortedPair a b = sortedPair a c ↔ b = c := by
  rw [sortedPair_inj]
  constructor
  · rintro (⟨-, h⟩ | ⟨h1, h2⟩)
    · exact h
    · rw [h2, h1]
  · exact fun h => Or.inl ⟨rfl, h⟩

/-! ### per_image -/

theorem mem_push (d : Dict Id (List Id)) (k k' x y : Id) :
    y ∈ ((Dict.push d k x).get? k').getD [] ↔ y ∈ (d.get? k').getD [] ∨ (k = k' ∧ y = x) := by
  rw [Dict.get?_push]
  by_cases h : k = k' <;> simp [h]

theorem mem_perImage (pairs : List (Id × Id)) (a b : Id) :
    b ∈ ((perImage pairs).get? a).getD [] ↔ (a, b) ∈ pairs ∨ (b, a) ∈ pairs := by
  unfold perImage
  suffices H : ∀ d : Dict Id (List Id),
      b ∈ ((pairs.foldl (fun d p => Dict.push (Dict.push d p.1 p.2) p.2 p.1) d).get? a).getD [] ↔
        b ∈ (d.get? a).getD [] ∨ (a, b) ∈ pairs ∨ (b, a) ∈ pairs by
    simpa using H []
  induction pairs with
  | nil => simp
  | cons p ps ih =>
    intro d
    obtain ⟨u, v⟩ := p
    rw [List.foldl_cons, ih, mem_push, mem_push]
    simp only [List.mem_cons, Prod.mk.injEq]
    constructor
    · rintro ((( h | ⟨rfl, rfl⟩) | ⟨rfl, rfl⟩) | h | h) <;> tauto
    · rintro (h | (⟨rfl, rfl⟩ | h) | (⟨rfl, rfl⟩ | h)) <;> tauto

/-! ### the ordering loop -/

/-- What holds of `ordered` all along. -/
structure Good (per : Dict Id (List Id)) (ref : List Id) (o : List (Id × Id)) : Prop where
  nodup : o.Nodup
  mem : ∀ a b, (a, b) ∈ o → a ∈ ref ∧ b ∈ (per.get? a).getD []
  anti : ∀ a b, (a, b) ∈ o → (b, a) ∈ o → a = b

/-- Every pair of `p` is already there in one direction. -/
def Done (per : Dict Id (List Id)) (o : List (Id × Id)) (p : Id) : Prop :=
  ∀ q ∈ (per.get? p).getD [], (p, q) ∈ o ∨ (q, p) ∈ o

/-- `next_image` and `remaining` relative to their values before the inner loop. -/
def Next (rem0 : List Id) (st : OState Id) : Prop :=
  (st.next = none ∧ st.remaining = rem0) ∨
    ∃ n ∈ rem0, st.next = some n ∧ st.remaining = rem0.erase n

theorem visitOne_spec {per : Dict Id (List Id)} {ref rem0 : List Id} {im1 im2 : Id}
    (h1 : im1 ∈ ref) (h2 : im2 ∈ (per.get? im1).getD []) {st : OState Id}
    (hg : Good per ref st.ordered) (hn : Next rem0 st) :
    Good per ref (visitOne im1 st im2).ordered ∧ Next rem0 (visitOne im1 st im2) ∧
      (∀ p ∈ st.ordered, p ∈ (visitOne im1 st im2).ordered) ∧
      ((im1, im2) ∈ (visitOne im1 st im2).ordered ∨ (im2, im1) ∈ (visitOne im1 st im2).ordered) := by
  unfold visitOne
  by_cases hm : (im2, im1) ∈ st.ordered
  · simp only [hm, if_true]
    exact ⟨hg, hn, fun p hp => hp, Or.inr trivial⟩
  · simp only [hm, if_false]
    refine ⟨⟨hg.nodup.insert, ?_, ?_⟩, ?_, fun p hp => List.mem_insert_of_mem hp,
      Or.inl List.mem_insert_self⟩
    · intro a b hab
      rw [List.mem_insert_iff] at hab
      rcases hab with hab | hab
      · cases hab; exact ⟨h1, h2⟩
      · exact hg.mem a b hab
    · intro a b hab hba
      rw [List.mem_insert_iff] at hab hba
      rcases hab with hab | hab
      · cases hab
        rcases hba with hba | hba
        · cases hba; rfl
        · exact absurd hba hm
      · rcases hba with hba | hba
        · cases hba; exact absurd hab hm
        · exact hg.anti a b hab hba
    · rcases hn with ⟨h3, h4⟩ | ⟨n, hn, h3, h4⟩
      · by_cases hr : im2 ∈ rem0
        · right; exact ⟨im2, hr, by simp [h3, h4, hr], by simp [h3, h4, hr]⟩
        · left; exact ⟨by simp [h3, h4, hr], by simp [h3, h4, hr]⟩
      · right; exact ⟨n, hn, by simp [h3], by simp [h3, h4]⟩

theorem visit_spec {per : Dict Id (List Id)} {ref rem0 : List Id} {im1 : Id} (h1 : im1 ∈ ref)
    (nb : List Id) (h2 : ∀ x ∈ nb, x ∈ (per.get? im1).getD []) (st : OState Id)
    (hg : Good per ref st.ordered) (hn : Next rem0 st) :
    let st' := nb.foldl (visitOne im1) st
    Good per ref st'.ordered ∧ Next rem0 st' ∧ (∀ p ∈ st.ordered, p ∈ st'.ordered) ∧
      ∀ x ∈ nb, (im1, x) ∈ st'.ordered ∨ (x, im1) ∈ st'.ordered := by
  induction nb generalizing st with
  | nil => exact ⟨hg, hn, fun p hp => hp, by simp⟩
  | cons x nb ih =>
    obtain ⟨a1, a2, a3, a4⟩ := visitOne_spec h1 (h2 x List.mem_cons_self) hg hn
    obtain ⟨b1, b2, b3, b4⟩ := ih (fun y hy => h2 y (List.mem_cons_of_mem _ hy)) _ a1 a2
    refine ⟨b1, b2, fun p hp => b3 p (a3 p hp), ?_⟩
    intro y hy
    rcases List.mem_cons.1 hy with rfl | hy
    · exact a4.imp (b3 _) (b3 _)
    · exact b4 y hy

theorem popAt_none {pick : Nat} {l : List Id} (h : popAt pick l = none) : l = [] := by
  unfold popAt at h
  cases l with
  | nil => rfl
  | cons a l =>
    have : pick % (a :: l).length < (a :: l).length := Nat.mod_lt _ (by simp)
    rw [List.getElem?_eq_getElem this] at h
    cases h

theorem popAt_some {pick : Nat} {l : List Id} {n : Id} {rem : List Id}
    (h : popAt pick l = some (n, rem)) : n ∈ l ∧ rem = l.erase n := by
  unfold popAt at h
  split at h
  · cases h
  · rename_i x hx
    cases h
    exact ⟨List.mem_of_getElem? hx, rfl⟩

theorem orderLoop_spec (per : Dict Id (List Id)) (picks : Nat → Nat) (ref : List Id) :
    ∀ (fuel k : Nat) (im1 : Id) (o : List (Id × Id)) (rem : List Id), rem.Nodup →
      (∀ x ∈ rem, x ∈ ref) → im1 ∈ ref → Good per ref o →
      (∀ p ∈ ref, p ≠ im1 → p ∉ rem → Done per o p) → rem.length < fuel →
      ∃ out, orderLoop per picks fuel k im1 o rem = some out ∧ Good per ref out ∧
        ∀ p ∈ ref, Done per out p := by
  intro fuel
  induction fuel with
  | zero => intro k im1 o rem _ _ _ _ _ h; omega
  | succ fuel ih =>
    intro k im1 o rem hnd hsub h1 hg hdone hlen
    have hv := visit_spec h1 ((per.get? im1).getD []) (fun x hx => hx) ⟨o, rem, none⟩ hg
      (Or.inl ⟨rfl, rfl⟩) (rem0 := rem)
    simp only [orderLoop]
    generalize ((per.get? im1).getD []).foldl (visitOne im1) ⟨o, rem, none⟩ = st at hv ⊢
    obtain ⟨v1, v2, v3, v4⟩ := hv
    have hdone' : ∀ p ∈ ref, p ∉ rem → Done per st.ordered p := by
      intro p hp hpr
      by_cases hpi : p = im1
      · subst hpi; exact v4
      · exact fun q hq => (hdone p hp hpi hpr q hq).imp (v3 _) (v3 _)
    have next : ∀ n ∈ rem, ∃ out,
        orderLoop per picks fuel (k + 1) n st.ordered (rem.erase n) = some out ∧
          Good per ref out ∧ ∀ p ∈ ref, Done per out p := by
      intro n hn
      have hl : 0 < rem.length := List.length_pos_of_mem hn
      apply ih (k + 1) n st.ordered (rem.erase n) (hnd.erase _)
        (fun x hx => hsub x (List.mem_of_mem_erase hx)) (hsub n hn) v1
      · intro p hp hpn hpr
        apply hdone' p hp
        intro hpm
        exact hpr ((List.mem_erase_of_ne hpn).2 hpm)
      · rw [List.length_erase_of_mem hn]; omega
    rcases v2 with ⟨e1, e2⟩ | ⟨n, hn, e1, e2⟩
    · rw [e1, e2]
      cases hp : popAt (picks k) rem with
      | none =>
        have := popAt_none hp
        subst this
        exact ⟨_, rfl, v1, fun p hp' => hdone' p hp' (by simp)⟩
      | some nr =>
        obtain ⟨n, rem'⟩ := nr
        obtain ⟨hn, rfl⟩ := popAt_some hp
        exact next n hn
    · rw [e1, e2]; exact next n hn

theorem orderedPairs_spec (picks : Nat → Nat) (pairs : List (Id × Id)) (refs : List Id)
    (hnd : refs.Nodup) :
    ∃ out, orderedPairs picks pairs refs = some out ∧ Good (perImage pairs) refs out ∧
      ∀ p ∈ refs, Done (perImage pairs) out p := by
  unfold orderedPairs
  cases hp : popAt (picks 0) refs with
  | none =>
    have := popAt_none hp
    subst this
    exact ⟨[], rfl, ⟨List.nodup_nil, by simp, by simp⟩, by simp⟩
  | some nr =>
    obtain ⟨n, rem⟩ := nr
    obtain ⟨hn, rfl⟩ := popAt_some hp
    have hl : 0 < refs.length := List.length_pos_of_mem hn
    apply orderLoop_spec (perImage pairs) picks refs refs.length 1 n [] (refs.erase n)
      (hnd.erase _) (fun x hx => List.mem_of_mem_erase hx) hn ⟨List.nodup_nil, by simp, by simp⟩
    · intro p hp1 hpn hpr
      exact absurd ((List.mem_erase_of_ne hpn).2 hp1) hpr
    · rw [List.length_erase_of_mem hn]; omega

/-! ### sets of pairs -/

theorem mem_addPair (r c : Id) (ps : List (Id × Id)) (p : Id × Id) :
    p ∈ addPair r ps c ↔ p ∈ ps ∨ (r ≠ c ∧ p = sortedPair r c) := by
  unfold addPair
  split
  · rw [List.mem_insert_iff]; tauto
  · tauto

theorem mem_foldl_addPair (r : Id) (cs : List Id) (ps : List (Id × Id)) (p : Id × Id) :
    p ∈ cs.foldl (addPair r) ps ↔ p ∈ ps ∨ ∃ c ∈ cs, r ≠ c ∧ p = sortedPair r c := by
  induction cs generalizing ps with
  | nil => simp
  | cons c cs ih => rw [List.foldl_cons, ih, mem_addPair]; simp [or_assoc]

/-- Every fold of a function that adds elements satisfying `Q x`. -/
theorem mem_foldl_add {α β : Type} (f : List β → α → List β) (Q : α → β → Prop)
    (hf : ∀ ps x p, p ∈ f ps x ↔ p ∈ ps ∨ Q x p) (l : List α) (ps : List β) (p : β) :
    p ∈ l.foldl f ps ↔ p ∈ ps ∨ ∃ x ∈ l, Q x p := by
  induction l generalizing ps with
  | nil => simp
  | cons x l ih => rw [List.foldl_cons, ih, hf]; simp [or_assoc]

theorem mem_queryLoop (cand : List Id) (r : Id) (js : List Nat) (ps : List (Id × Id)) (p : Id × Id) :
    p ∈ queryLoop cand r js ps ↔
      p ∈ ps ∨ ∃ j ∈ js, ∃ c, cand[j]? = some c ∧ r ≠ c ∧ p = sortedPair r c := by
  unfold queryLoop
  apply mem_foldl_add _ (fun j p => ∃ c, cand[j]? = some c ∧ r ≠ c ∧ p = sortedPair r c)
  intro ps j p
  cases h : cand[j]? with
  | none => simp
  | some c => simp [mem_addPair]

theorem mem_foldl_query (cand : List Id) (js : Id → List Nat) (refs : List Id) (p : Id × Id) :
    p ∈ refs.foldl (fun ps r => queryLoop cand r (js r) ps) [] ↔
      ∃ r ∈ refs, ∃ j ∈ js r, ∃ c, cand[j]? = some c ∧ r ≠ c ∧ p = sortedPair r c := by
  rw [mem_foldl_add _ (fun r p => ∃ j ∈ js r, ∃ c, cand[j]? = some c ∧ r ≠ c ∧ p = sortedPair r c)
    (fun ps r p => mem_queryLoop cand r (js r) ps p)]
  simp

theorem mem_allPairs (refs cand : List Id) (p : Id × Id) :
    p ∈ allPairs refs cand ↔ ∃ i ∈ refs, ∃ j ∈ cand, i ≠ j ∧ p = sortedPair i j := by
  unfold allPairs
  rw [mem_foldl_add _ (fun i p => ∃ j ∈ cand, i ≠ j ∧ p = sortedPair i j)
    (fun ps i p => mem_foldl_addPair i cand ps p)]
  simp

theorem mem_window {α : Type} (l : List α) (a b : Nat) (x : α) :
    x ∈ (l.take b).drop a ↔ ∃ j, a ≤ j ∧ j < b ∧ l[j]? = some x := by
  rw [List.mem_iff_getElem?]
  constructor
  · rintro ⟨i, hi⟩
    rw [List.getElem?_drop] at hi
    by_cases h : a + i < b
    · rw [List.getElem?_take_of_lt h] at hi; exact ⟨a + i, by omega, h, hi⟩
    · rw [List.getElem?_take_eq_none (by omega)] at hi; cases hi
  · rintro ⟨j, h1, h2, h3⟩
    refine ⟨j - a, ?_⟩
    rw [List.getElem?_drop, show a + (j - a) = j by omega, List.getElem?_take_of_lt h2]
    exact h3

theorem mem_orderWindow (cand : List Id) (n i : Nat) (r : Id) (ps : List (Id × Id)) (p : Id × Id) :
    p ∈ orderWindow cand n i r ps ↔ p ∈ ps ∨ ∃ j c, i ≤ j + n ∧ j < i + n ∧ cand[j]? = some c ∧
      r ≠ c ∧ p = sortedPair r c := by
  unfold orderWindow
  simp only [mem_foldl_addPair, mem_window]
  constructor
  · rintro (h | ⟨c, ⟨j, h1, h2, h3⟩, h4, h5⟩)
    · exact Or.inl h
    · exact Or.inr ⟨j, c, by omega, by omega, h3, h4, h5⟩
  · rintro (h | ⟨j, c, h1, h2, h3, h4, h5⟩)
    · exact Or.inl h
    · refine Or.inr ⟨c, ⟨j, by omega, ?_, h3⟩, h4, h5⟩
      have := (List.getElem?_eq_some_iff.1 h3).1
      omega

theorem mem_orderLoopRefs (cand : List Id) (n i0 : Nat) (refs : List Id) (ps : List (Id × Id))
    (p : Id × Id) :
    p ∈ orderLoopRefs cand n i0 refs ps ↔ p ∈ ps ∨ ∃ i j r c, refs[i]? = some r ∧
      cand[j]? = some c ∧ i0 + i ≤ j + n ∧ j < i0 + i + n ∧ r ≠ c ∧ p = sortedPair r c := by
  induction refs generalizing i0 ps with
  | nil => simp [orderLoopRefs]
  | cons r refs ih =>
    rw [orderLoopRefs, ih, mem_orderWindow]
    constructor
    · rintro ((h | ⟨j, c, h1, h2, h3, h4, h5⟩) | ⟨i, j, r', c, h1, h2, h3, h4, h5, h6⟩)
      · exact Or.inl h
      · exact Or.inr ⟨0, j, r, c, rfl, h3, by omega, by omega, h4, h5⟩
      · exact Or.inr ⟨i + 1, j, r', c, by simpa using h1, h2, by omega, by omega, h5, h6⟩
    · rintro (h | ⟨i, j, r', c, h1, h2, h3, h4, h5, h6⟩)
      · exact Or.inl (Or.inl h)
      · cases i with
        | zero =>
          simp only [List.getElem?_cons_zero, Option.some.injEq] at h1
          subst h1
          exact Or.inl (Or.inr ⟨j, c, by omega, by omega, h2, h5, h6⟩)
        | succ i =>
          exact Or.inr ⟨i, j, r', c, by simpa using h1, h2, by omega, by omega, h5, h6⟩

/-! ### neighbour lists -/

theorem neighborLoop_eq [DecidableEq C] (cam : Id → C) (image : Id) (n : Nat)
    (l s o : List (Entry Id D)) (hs : s.length ≤ n) (ho : o.length ≤ n) :
    neighborLoop cam image n l s o =
      (s ++ (l.filter (fun e => cam e.1 = cam image)).take (n - s.length),
       o ++ (l.filter (fun e => cam e.1 ≠ cam image)).take (n - o.length)) := by
  induction l generalizing s o with
  | nil => simp [neighborLoop]
  | cons e l ih =>
    rw [neighborLoop]
    by_cases hc : cam e.1 = cam image
    · simp only [hc, if_true, ne_eq, not_true_eq_false, decide_true, decide_false,
        List.filter_cons_of_pos, Bool.false_eq_true, not_false_eq_true, List.filter_cons_of_neg]
      by_cases hl : s.length < n
      · simp only [hl, if_true, List.length_append, List.length_cons, List.length_nil]
        have e1 : (e :: l.filter (fun e => cam e.1 = cam image)).take (n - s.length) =
            e :: (l.filter (fun e => cam e.1 = cam image)).take (n - (s.length + 1)) := by
          rw [show n - s.length = (n - (s.length + 1)) + 1 by omega, List.take_succ_cons]
        split
        · rename_i hb
          rw [e1, show n - (s.length + 1) = 0 by omega, show n - o.length = 0 by omega]
          simp
        · rw [ih _ _ (by simp; omega) ho, e1]; simp
      · simp only [hl, if_false]
        rw [show n - s.length = 0 by omega]
        split
        · rename_i hb
          rw [show n - o.length = 0 by omega]; simp
        · rw [ih _ _ hs ho, show n - s.length = 0 by omega]; simp
    · simp only [hc, if_false, ne_eq, decide_false, Bool.false_eq_true, not_false_eq_true,
        List.filter_cons_of_neg, decide_true, List.filter_cons_of_pos]
      by_cases hl : o.length < n
      · simp only [hl, if_true, List.length_append, List.length_cons, List.length_nil]
        have e1 : (e :: l.filter (fun e => ¬ cam e.1 = cam image)).take (n - o.length) =
            e :: (l.filter (fun e => ¬ cam e.1 = cam image)).take (n - (o.length + 1)) := by
          rw [show n - o.length = (n - (o.length + 1)) + 1 by omega, List.take_succ_cons]
        split
        · rename_i hb
          rw [e1, show n - (o.length + 1) = 0 by omega, show n - s.length = 0 by omega]
          simp
        · rw [ih _ _ hs (by simp; omega), e1]; simp
      · simp only [hl, if_false]
        rw [show n - o.length = 0 by omega]
        split
        · rename_i hb
          rw [show n - s.length = 0 by omega]; simp
        · rw [ih _ _ hs ho, show n - o.length = 0 by omega]; simp

theorem putPairs_key (image : Id) (d : Dict (Id × Id) D) (es : List (Entry Id D)) (k : Id × Id) :
    ((putPairs image d es).get? k).isSome ↔
      (d.get? k).isSome ∨ ∃ e ∈ es, k = sortedPair image e.1 := by
  unfold putPairs
  induction es generalizing d with
  | nil => simp
  | cons e es ih =>
    rw [List.foldl_cons, ih, Dict.get?_set]
    by_cases h : sortedPair image e.1 = k
    · simp [h]
    · have h' : k ≠ sortedPair image e.1 := fun x => h x.symm
      simp [h, h']

theorem putPairs_get (image : Id) (d : Dict (Id × Id) D) (es : List (Entry Id D))
    (hnd : (es.map Prod.fst).Nodup) (e : Entry Id D) (he : e ∈ es) :
    (putPairs image d es).get? (sortedPair image e.1) = some e.2 := by
  unfold putPairs
  induction es generalizing d with
  | nil => cases he
  | cons a es ih =>
    rw [List.foldl_cons]
    simp only [List.map_cons, List.nodup_cons] at hnd
    rcases List.mem_cons.1 he with rfl | he
    · have : ∀ (l : List (Entry Id D)) (d : Dict (Id × Id) D), e.1 ∉ l.map Prod.fst →
          d.get? (sortedPair image e.1) = some e.2 →
          (l.foldl (fun d e => d.set (sortedPair image e.1) e.2) d).get? (sortedPair image e.1) =
            some e.2 := by
        intro l
        induction l with
        | nil => intro d _ h; exact h
        | cons b l ihl =>
          intro d hn h
          simp only [List.map_cons, List.mem_cons, not_or] at hn
          rw [List.foldl_cons]
          apply ihl _ hn.2
          rw [Dict.get?_set_ne _ _ (fun hh => hn.1 (sortedPair_inj_right.1 hh).symm)]
          exact h
      exact this es _ hnd.1 (Dict.get?_set_self _ _ _)
    · exact ih _ hnd.2 he

end Verif.PairsSelection
