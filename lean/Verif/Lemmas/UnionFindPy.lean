import Verif.Model.UnionFindPy
import Verif.Lemmas.Forest

/-! Lemmas about the Python union-find model. -/
set_option linter.unusedSectionVars false
namespace Verif.UFPy
variable {K : Type} [DecidableEq K]

section
variable {p : Dict K K} {rep : K → K} {d : K → Nat}

theorem walk_none (h : Forest p rep d) (fuel : Nat) {x y : K} (hx : p.get? x = some y)
    (hw : walk p fuel x = none) :
    ∃ l : List K, l.Nodup ∧ (∀ a ∈ l, a ∈ p.keys ∧ d a ≤ d x) ∧ l.length = fuel + 1 := by
  induction fuel generalizing x y with
  | zero =>
    exact ⟨[x], by simp, by simp [Dict.mem_keys_iff, hx], rfl⟩
  | succ n ih =>
    unfold walk at hw
    rw [hx] at hw
    simp only at hw
    split at hw
    · cases hw
    · rename_i hyx
      obtain ⟨z, hz⟩ := h.closed hx
      have hw' : walk p n y = none := by simpa using hw
      obtain ⟨l, hl1, hl2, hl3⟩ := ih hz hw'
      have hd := h.desc hx hyx
      refine ⟨x :: l, ?_, ?_, by simp [hl3]⟩
      · rw [List.nodup_cons]
        refine ⟨fun hm => ?_, hl1⟩
        have := (hl2 x hm).2
        omega
      · intro a ha
        rcases List.mem_cons.1 ha with rfl | ha
        · exact ⟨by rw [Dict.mem_keys_iff, hx]; rfl, Nat.le_refl _⟩
        · have := hl2 a ha
          exact ⟨this.1, by omega⟩

theorem walk_some (h : Forest p rep d) (fuel : Nat) {x y : K} (hx : p.get? x = some y)
    {q : List K × K} (hw : walk p fuel x = some q) :
    q.2 = rep x ∧ ∀ a ∈ q.1, (∃ b, p.get? a = some b) ∧ rep a = rep x := by
  induction fuel generalizing x y q with
  | zero =>
    unfold walk at hw
    rw [hx] at hw
    simp only at hw
    split at hw
    · rename_i hyx; subst hyx; cases hw
      refine ⟨(h.root hx).symm, ?_⟩
      simp [hx]
    · cases hw
  | succ n ih =>
    unfold walk at hw
    rw [hx] at hw
    simp only at hw
    split at hw
    · rename_i hyx; subst hyx; cases hw
      refine ⟨(h.root hx).symm, ?_⟩
      simp [hx]
    · rw [Option.map_eq_some_iff] at hw
      obtain ⟨q', hq', rfl⟩ := hw
      obtain ⟨z, hz⟩ := h.closed hx
      obtain ⟨h1, h2⟩ := ih hz hq'
      have hr := h.rep_parent hx
      refine ⟨by rw [h1, hr], ?_⟩
      intro a ha
      rcases List.mem_cons.1 ha with rfl | ha
      · exact ⟨⟨_, hx⟩, rfl⟩
      · obtain ⟨h3, h4⟩ := h2 a ha
        exact ⟨h3, by rw [h4, hr]⟩

theorem walk_total (h : Forest p rep d) {x y : K} (hx : p.get? x = some y) :
    ∃ q, walk p p.length x = some q := by
  cases hw : walk p p.length x with
  | some q => exact ⟨q, rfl⟩
  | none =>
    obtain ⟨l, hl1, hl2, hl3⟩ := walk_none h _ hx hw
    have := (hl1.subperm fun a ha => (hl2 a ha).1).length_le
    rw [hl3] at this
    simp only [Dict.keys, List.length_map] at this
    omega

end

/-- Invariant of a structure after unions of the given groups. -/
structure Inv (u : UFPy K) (groups : List (List K)) (rep : K → K) (d : K → Nat) : Prop where
  forest : Forest u.parents rep d
  weights : ∀ x, x ∈ u.parents.keys → x ∈ u.weights.keys
  mem : ∀ g ∈ groups, ∀ x ∈ g, x ∈ u.parents.keys
  sound : ∀ {x y}, x ∈ u.parents.keys → y ∈ u.parents.keys → rep x = rep y → Linked groups x y
  complete : ∀ {x y}, Linked groups x y → rep x = rep y

theorem inv_empty : Inv (empty : UFPy K) [] id (fun _ => 0) := by
  refine ⟨Forest.empty, ?_, ?_, ?_, ?_⟩
  · simp [empty]
  · simp
  · simp [empty]
  · intro x y h; exact Linked.eq_of (groups := []) id (by simp) h

theorem exists_of_mem {p : Dict K K} {x : K} (h : x ∈ p.keys) : ∃ y, p.get? x = some y := by
  rw [Dict.mem_keys_iff] at h; exact Option.isSome_iff_exists.1 h

theorem mem_of_exists {p : Dict K K} {x y : K} (h : p.get? x = some y) : x ∈ p.keys := by
  rw [Dict.mem_keys_iff, h]; rfl

/-- A lookup always ends, returns the representative, and keeps the partition. -/
theorem find_spec {u : UFPy K} {groups : List (List K)} {rep : K → K} {d : K → Nat}
    (h : Inv u groups rep d) (x : K) :
    ∃ u' rep', u.find x = some (u', rep' x) ∧ Inv u' groups rep' d ∧
      (∀ y, y ∈ u'.parents.keys ↔ y = x ∨ y ∈ u.parents.keys) ∧
      (∀ y, y ∈ u.parents.keys → rep' y = rep y) ∧
      (x ∈ u.parents.keys → rep' = rep) := by
  unfold find
  by_cases hx : u.parents.has x
  · rw [if_pos hx]
    have hxk : x ∈ u.parents.keys := by rwa [← Dict.has_iff_mem]
    obtain ⟨y, hy⟩ := exists_of_mem hxk
    obtain ⟨q, hq⟩ := walk_total h.forest hy
    obtain ⟨h1, h2⟩ := walk_some h.forest _ hy hq
    rw [← h1] at h2
    obtain ⟨hf, hk⟩ := h.forest.compress q.1 h2
    refine ⟨_, rep, by rw [hq, ← h1]; rfl, ?_, ?_, fun _ _ => rfl, fun _ => rfl⟩
    · refine ⟨hf, ?_, ?_, ?_, h.complete⟩
      · intro a ha; exact h.weights a (by simpa only [hk] using ha)
      · intro g hg a ha; simp only [hk]; exact h.mem g hg a ha
      · intro a b ha hb; simp only [hk] at ha hb; exact h.sound ha hb
    · intro a
      simp only [hk]
      constructor
      · exact fun ha => .inr ha
      · rintro (rfl | ha)
        · exact hxk
        · exact ha
  · rw [if_neg hx]
    have hxk : x ∉ u.parents.keys := by rwa [← Dict.has_iff_mem]
    have hnone : u.parents.get? x = none := by
      cases hg : u.parents.get? x with
      | none => rfl
      | some y => exact absurd (mem_of_exists hg) hxk
    have hlink : ∀ {a b}, Linked groups a b → a = x → b = x := by
      intro a b hab
      have := Linked.eq_of (groups := groups) (fun c => decide (c = x)) (by
        intro g hg c hc e he
        have h1 : c ≠ x := by rintro rfl; exact hxk (h.mem g hg _ hc)
        have h2 : e ≠ x := by rintro rfl; exact hxk (h.mem g hg _ he)
        simp [h1, h2]) hab
      intro hax
      simpa [hax] using this.symm
    refine ⟨{ parents := u.parents.set x x, weights := u.weights.set x 1 },
      fun y => if y = x then x else rep y, by simp, ?_, ?_, ?_, fun hh => absurd hh hxk⟩
    · refine ⟨h.forest.insert hnone, ?_, ?_, ?_, ?_⟩
      · intro a ha
        rw [Dict.mem_keys_set] at ha ⊢
        rcases ha with ha | ha
        · exact .inl ha
        · exact .inr (h.weights a ha)
      · intro g hg a ha
        rw [Dict.mem_keys_set]; exact .inr (h.mem g hg a ha)
      · intro a b ha hb hab
        rw [Dict.mem_keys_set] at ha hb
        have hr : ∀ {c}, c ∈ u.parents.keys → rep c ≠ x := by
          intro c hc hcx
          obtain ⟨y, hy⟩ := exists_of_mem hc
          have := h.forest.rep_root hy
          rw [hcx, hnone] at this; cases this
        by_cases hax : a = x
        · by_cases hbx : b = x
          · subst hax; subst hbx; exact Linked.refl _
          · simp only [hax, hbx, if_true, if_false] at hab
            exact absurd hab.symm (hr (hb.resolve_left hbx))
        · by_cases hbx : b = x
          · simp only [hax, hbx, if_true, if_false] at hab
            exact absurd hab (hr (ha.resolve_left hax))
          · simp only [hax, hbx, if_false] at hab
            exact h.sound (ha.resolve_left hax) (hb.resolve_left hbx) hab
      · intro a b hab
        by_cases hax : a = x
        · have := hlink hab hax
          simp [hax, this]
        · by_cases hbx : b = x
          · exact absurd (hlink hab.symm hbx) hax
          · simp [hax, hbx, h.complete hab]
    · intro a; simp only [Dict.mem_keys_set]
    · intro y hy
      have : y ≠ x := by rintro rfl; exact hxk hy
      simp [this]

theorem findAll_spec {u : UFPy K} {groups : List (List K)} {rep : K → K} {d : K → Nat}
    (h : Inv u groups rep d) (xs : List K) :
    ∃ u' rep', u.findAll xs = some (u', xs.map rep') ∧ Inv u' groups rep' d ∧
      (∀ y, y ∈ u'.parents.keys ↔ y ∈ xs ∨ y ∈ u.parents.keys) ∧
      (∀ y, y ∈ u.parents.keys → rep' y = rep y) := by
  induction xs generalizing u rep with
  | nil => exact ⟨u, rep, rfl, h, by simp, fun _ _ => rfl⟩
  | cons x xs ih =>
    obtain ⟨u1, rep1, h1, h2, h3, h4, _⟩ := find_spec h x
    obtain ⟨u2, rep2, g1, g2, g3, g4⟩ := ih h2
    refine ⟨u2, rep2, ?_, g2, ?_, ?_⟩
    · have : rep2 x = rep1 x := g4 x ((h3 x).2 (.inl rfl))
      simp [findAll, h1, g1, this]
    · intro y
      rw [g3, h3, List.mem_cons]
      constructor
      · rintro (h | h | h)
        · exact .inl (.inr h)
        · exact .inl (.inl h)
        · exact .inr h
      · rintro ((h | h) | h)
        · exact .inr (.inl h)
        · exact .inl h
        · exact .inr (.inr h)
    · intro y hy
      rw [g4 y ((h3 y).2 (.inr hy)), h4 y hy]

theorem heaviest_spec (lt : K → K → Bool) (w : Dict K Nat) (rs : List K) (hne : rs ≠ [])
    (hw : ∀ r ∈ rs, r ∈ w.keys) : ∃ b, heaviest lt w rs = some b ∧ b ∈ rs := by
  induction rs with
  | nil => exact absurd rfl hne
  | cons r rs ih =>
    cases rs with
    | nil =>
      refine ⟨r, ?_, by simp⟩
      have := hw r (by simp)
      rw [← Dict.has_iff_mem] at this
      simp [heaviest, this]
    | cons r' rs =>
      obtain ⟨b, hb, hbm⟩ := ih (by simp) (fun a ha => hw a (List.mem_cons_of_mem _ ha))
      have hr := hw r (by simp)
      rw [Dict.mem_keys_iff] at hr
      obtain ⟨wr, hwr⟩ := Option.isSome_iff_exists.1 hr
      unfold heaviest
      rw [hwr, hb]
      dsimp only
      split
      · exact ⟨b, rfl, List.mem_cons_of_mem _ hbm⟩
      · exact ⟨r, rfl, by simp⟩

/-- The merging loop sends every listed root to `t`. -/
theorem attach_spec {u : UFPy K} {rep : K → K} {d : K → Nat} (t : K) (l : List K)
    (hf : Forest u.parents rep d) (ht : u.parents.get? t = some t)
    (hl : ∀ a ∈ l, ∃ y, u.parents.get? a = some y ∧ (rep a = a ∨ rep a = t)) :
    ∃ rep' d', Forest (l.foldl (attach t) u).parents rep' d' ∧
      (∀ x, rep' x = if rep x ∈ l then t else rep x) ∧
      (l.foldl (attach t) u).parents.keys = u.parents.keys ∧
      (∀ x, x ∈ u.weights.keys → x ∈ (l.foldl (attach t) u).weights.keys) := by
  induction l generalizing u rep d with
  | nil => exact ⟨rep, d, hf, by simp, rfl, fun _ h => h⟩
  | cons r l ih =>
    have htt := hf.root ht
    obtain ⟨y, hy, hrr⟩ := hl r (by simp)
    by_cases hrt : r = t
    · subst hrt
      have hat : attach r u r = u := by simp [attach]
      obtain ⟨rep', d', h1, h2, h3, h4⟩ := ih hf ht (fun a ha => hl a (List.mem_cons_of_mem _ ha))
      refine ⟨rep', d', by simpa [hat] using h1, ?_, by simpa [hat] using h3,
        by simpa [hat] using h4⟩
      intro x
      rw [h2]
      by_cases hx : rep x = r <;> simp [hx]
    · have hkeys : (u.parents.set r t).keys = u.parents.keys := by
        rw [Dict.keys_set, if_pos (mem_of_exists hy)]
      have hpar : (attach t u r).parents = u.parents.set r t := by simp [attach, hrt]
      have ht' : (attach t u r).parents.get? t = some t := by
        rw [hpar, Dict.get?_set, if_neg hrt]; exact ht
      have hwt : ∀ x, x ∈ u.weights.keys → x ∈ (attach t u r).weights.keys := by
        intro x hx; simp only [attach, ne_eq, hrt, not_false_eq_true, if_true]
        rw [Dict.mem_keys_set]; exact .inr hx
      -- the forest after one step
      have key : ∃ rep1 d1, Forest (attach t u r).parents rep1 d1 ∧
          ∀ x, rep1 x = if rep x = r then t else rep x := by
        rcases hrr with hrr | hrr
        · have hrr' : u.parents.get? r = some r := by
            have := hf.rep_root hy; rwa [hrr] at this
          rw [hpar]
          exact ⟨_, _, hf.link hrr' ht hrt, fun x => rfl⟩
        · rw [hpar, ← hrr]
          refine ⟨fun x => if rep x = r then rep r else rep x, d, ?_, fun x => rfl⟩
          refine (hf.set_rep hy).congr ?_
          intro x z hz
          split
          · rename_i hx
            obtain ⟨z', hz'⟩ := (Forest.has_set_rep hy).1 ⟨z, hz⟩
            have := hf.rep_rep hz'
            rw [hx] at this
            rw [this, hx]
          · rfl
      obtain ⟨rep1, d1, hf1, hr1⟩ := key
      have hl1 : ∀ a ∈ l, ∃ y, (attach t u r).parents.get? a = some y ∧
          (rep1 a = a ∨ rep1 a = t) := by
        intro a ha
        obtain ⟨z, hz, haz⟩ := hl a (List.mem_cons_of_mem _ ha)
        have : ∃ y, (attach t u r).parents.get? a = some y := by
          rw [hpar]; exact (Forest.has_set_rep hy).2 ⟨z, hz⟩
        obtain ⟨w, hw⟩ := this
        refine ⟨w, hw, ?_⟩
        rw [hr1]
        by_cases har : rep a = r
        · simp [har]
        · simpa [har] using haz
      obtain ⟨rep', d', h1, h2, h3, h4⟩ := ih hf1 ht' hl1
      refine ⟨rep', d', h1, ?_, ?_, fun x hx => h4 x (hwt x hx)⟩
      · intro x
        rw [h2, hr1]
        by_cases hx : rep x = r
        · simp only [hx, if_true, List.mem_cons, true_or]
          split <;> rfl
        · simp [hx]
      · rw [List.foldl_cons, h3, hpar, hkeys]

theorem union_spec {u : UFPy K} {groups : List (List K)} {rep : K → K} {d : K → Nat}
    (h : Inv u groups rep d) (lt : K → K → Bool) (objs : List K) (hne : objs ≠ []) :
    ∃ u' rep' d', u.union lt objs = some u' ∧ Inv u' (objs :: groups) rep' d' ∧
      (∀ y, y ∈ u'.parents.keys ↔ y ∈ objs ∨ y ∈ u.parents.keys) := by
  obtain ⟨u1, rep1, h1, hI, hk, _⟩ := findAll_spec h objs
  have hkey : ∀ x ∈ objs, ∃ y, u1.parents.get? x = some y :=
    fun x hx => exists_of_mem ((hk x).2 (.inl hx))
  have hroot : ∀ r ∈ objs.map rep1, u1.parents.get? r = some r := by
    intro r hr
    obtain ⟨x, hx, rfl⟩ := List.mem_map.1 hr
    obtain ⟨y, hy⟩ := hkey x hx
    exact hI.forest.rep_root hy
  obtain ⟨t, ht, htm⟩ := heaviest_spec lt u1.weights (objs.map rep1) (by simpa using hne)
    (fun r hr => hI.weights r (mem_of_exists (hroot r hr)))
  obtain ⟨rep2, d2, hf2, hr2, hk2, hw2⟩ := attach_spec (u := u1) t (objs.map rep1) hI.forest
    (hroot t htm) (fun a ha => ⟨a, hroot a ha, .inl (hI.forest.root (hroot a ha))⟩)
  refine ⟨_, rep2, d2, by unfold union; simp only [h1, ht]; rfl, ?_, ?_⟩
  · have hmono : ∀ {x y}, Linked groups x y → Linked (objs :: groups) x y :=
      fun hxy => hxy.mono (fun g hg => List.mem_cons_of_mem _ hg)
    refine ⟨hf2, ?_, ?_, ?_, ?_⟩
    · intro x hx
      exact hw2 x (hI.weights x (by rwa [hk2] at hx))
    · intro g hg x hx
      rw [hk2]
      rcases List.mem_cons.1 hg with rfl | hg
      · exact (hk x).2 (.inl hx)
      · exact hI.mem g hg x hx
    · intro x y hx hy hxy
      rw [hk2] at hx hy
      rw [hr2, hr2] at hxy
      -- an element whose root was collected is linked to a member of `objs`
      have hin : ∀ z, z ∈ u1.parents.keys → rep1 z ∈ objs.map rep1 →
          ∃ o ∈ objs, Linked (objs :: groups) z o := by
        intro z hz hm
        obtain ⟨o, ho, hoz⟩ := List.mem_map.1 hm
        exact ⟨o, ho, hmono (hI.sound hz ((hk o).2 (.inl ho)) hoz.symm)⟩
      by_cases hxm : rep1 x ∈ objs.map rep1
      · by_cases hym : rep1 y ∈ objs.map rep1
        · obtain ⟨o, ho, hxo⟩ := hin x hx hxm
          obtain ⟨o', ho', hyo⟩ := hin y hy hym
          exact hxo.trans ((Linked.of_mem (by simp) ho ho').trans hyo.symm)
        · rw [if_pos hxm, if_neg hym] at hxy
          exact absurd (hxy ▸ htm) hym
      · by_cases hym : rep1 y ∈ objs.map rep1
        · rw [if_neg hxm, if_pos hym] at hxy
          exact absurd (hxy ▸ htm) hxm
        · rw [if_neg hxm, if_neg hym] at hxy
          exact hmono (hI.sound hx hy hxy)
    · intro x y hxy
      refine Linked.eq_of (groups := objs :: groups) rep2 ?_ hxy
      intro g hg a ha b hb
      rcases List.mem_cons.1 hg with rfl | hg
      · rw [hr2, hr2, if_pos (List.mem_map_of_mem ha), if_pos (List.mem_map_of_mem hb)]
      · have : rep1 a = rep1 b := hI.complete (Linked.of_mem hg ha hb)
        rw [hr2, hr2, this]
  · intro y
    rw [hk2, hk]

end Verif.UFPy
