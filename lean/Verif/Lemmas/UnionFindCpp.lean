import Verif.Model.UnionFindCpp
import Verif.Lemmas.Forest

/-! Lemmas about the C++ union-find model. -/
set_option linter.unusedSectionVars false
namespace Verif.UFCpp
variable {K : Type} [DecidableEq K]

theorem exists_of_mem {p : Dict K K} {x : K} (h : x ∈ p.keys) : ∃ y, p.get? x = some y := by
  rw [Dict.mem_keys_iff] at h; exact Option.isSome_iff_exists.1 h

theorem mem_of_exists {p : Dict K K} {x y : K} (h : p.get? x = some y) : x ∈ p.keys := by
  rw [Dict.mem_keys_iff, h]; rfl

theorem findAux_none {u : UFCpp K} {rep : K → K} {d : K → Nat} (h : Forest u.parent rep d)
    (fuel : Nat) {x : K} (hx : x ∈ u.parent.keys) (hw : findAux fuel u x = none) :
    ∃ l : List K, l.Nodup ∧ (∀ a ∈ l, a ∈ u.parent.keys ∧ d a ≤ d x) ∧ l.length = fuel + 1 := by
  induction fuel generalizing x with
  | zero => exact ⟨[x], by simp, by simp [hx], rfl⟩
  | succ n ih =>
    obtain ⟨y, hy⟩ := exists_of_mem hx
    unfold findAux at hw
    rw [hy] at hw
    simp only at hw
    split at hw
    · cases hw
    · rename_i hyx
      obtain ⟨z, hz⟩ := h.closed hy
      have hw' : findAux n u y = none := by
        cases hq : findAux n u y with
        | none => rfl
        | some q => simp [hq] at hw
      obtain ⟨l, hl1, hl2, hl3⟩ := ih (mem_of_exists hz) hw'
      have hd := h.desc hy hyx
      refine ⟨x :: l, ?_, ?_, by simp [hl3]⟩
      · rw [List.nodup_cons]
        refine ⟨fun hm => ?_, hl1⟩
        have := (hl2 x hm).2
        omega
      · intro a ha
        rcases List.mem_cons.1 ha with rfl | ha
        · exact ⟨hx, Nat.le_refl _⟩
        · have := hl2 a ha
          exact ⟨this.1, by omega⟩

theorem findAux_some {u u' : UFCpp K} {rep : K → K} {d : K → Nat} (h : Forest u.parent rep d)
    (fuel : Nat) {x r : K} (hx : x ∈ u.parent.keys) (hw : findAux fuel u x = some (u', r)) :
    r = rep x ∧ Forest u'.parent rep d ∧ u'.parent.keys = u.parent.keys ∧ u'.rank = u.rank := by
  induction fuel generalizing x u' r with
  | zero =>
    obtain ⟨y, hy⟩ := exists_of_mem hx
    unfold findAux at hw
    rw [hy] at hw
    simp only at hw
    split at hw
    · rename_i hyx; subst hyx; cases hw
      exact ⟨(h.root hy).symm, h, rfl, rfl⟩
    · cases hw
  | succ n ih =>
    obtain ⟨y, hy⟩ := exists_of_mem hx
    unfold findAux at hw
    rw [hy] at hw
    simp only at hw
    split at hw
    · rename_i hyx; subst hyx; cases hw
      exact ⟨(h.root hy).symm, h, rfl, rfl⟩
    · obtain ⟨z, hz⟩ := h.closed hy
      cases hq : findAux n u y with
      | none => simp [hq] at hw
      | some q =>
        obtain ⟨u1, r1⟩ := q
        simp only [hq, Option.some.injEq, Prod.mk.injEq] at hw
        obtain ⟨rfl, rfl⟩ := hw
        obtain ⟨h1, h2, h3, h4⟩ := ih (mem_of_exists hz) hq
        have hr := h.rep_parent hy
        have hx1 : x ∈ u1.parent.keys := by rw [h3]; exact hx
        obtain ⟨w, hw⟩ := exists_of_mem hx1
        refine ⟨by rw [h1, hr], ?_, ?_, h4⟩
        · have := h2.set_rep hw
          simpa only [h1, hr] using this
        · simp only
          rw [Dict.keys_set, if_pos hx1, h3]

theorem find_total {u : UFCpp K} {rep : K → K} {d : K → Nat} (h : Forest u.parent rep d) {x : K}
    (hx : x ∈ u.parent.keys) :
    ∃ u', u.find x = some (u', rep x) ∧ Forest u'.parent rep d ∧
      u'.parent.keys = u.parent.keys ∧ u'.rank = u.rank := by
  cases hq : u.find x with
  | some q =>
    obtain ⟨u', r⟩ := q
    obtain ⟨h1, h2⟩ := findAux_some h _ hx hq
    exact ⟨u', by rw [h1], h2⟩
  | none =>
    obtain ⟨l, hl1, hl2, hl3⟩ := findAux_none h _ hx hq
    have := (hl1.subperm fun a ha => (hl2 a ha).1).length_le
    rw [hl3] at this
    simp only [Dict.keys, List.length_map] at this
    omega

/-- The forest represents the partition generated by the groups. -/
structure Inv (u : UFCpp K) (groups : List (List K)) (rep : K → K) (d : K → Nat) : Prop where
  forest : Forest u.parent rep d
  mem : ∀ g ∈ groups, ∀ x ∈ g, x ∈ u.parent.keys
  sound : ∀ {x y}, x ∈ u.parent.keys → y ∈ u.parent.keys → rep x = rep y → Linked groups x y
  complete : ∀ {x y}, Linked groups x y → rep x = rep y

theorem inv_empty : Inv (empty : UFCpp K) [] id (fun _ => 0) := by
  refine ⟨Forest.empty, ?_, ?_, ?_⟩
  · simp
  · simp [empty]
  · intro x y h; exact Linked.eq_of (groups := []) id (by simp) h

theorem Inv.of_forest {u u' : UFCpp K} {groups : List (List K)} {rep : K → K} {d : K → Nat}
    (h : Inv u groups rep d) (hf : Forest u'.parent rep d)
    (hk : u'.parent.keys = u.parent.keys) : Inv u' groups rep d := by
  refine ⟨hf, ?_, ?_, h.complete⟩
  · intro g hg x hx; rw [hk]; exact h.mem g hg x hx
  · intro x y hx hy; rw [hk] at hx hy; exact h.sound hx hy

theorem find_spec {u : UFCpp K} {groups : List (List K)} {rep : K → K} {d : K → Nat}
    (h : Inv u groups rep d) {x : K} (hx : x ∈ u.parent.keys) :
    ∃ u', u.find x = some (u', rep x) ∧ Inv u' groups rep d ∧ u'.parent.keys = u.parent.keys := by
  obtain ⟨u', h1, h2, h3, _⟩ := find_total h.forest hx
  exact ⟨u', h1, h.of_forest h2 h3, h3⟩

theorem make_spec {u : UFCpp K} {groups : List (List K)} {rep : K → K} {d : K → Nat}
    (h : Inv u groups rep d) {x : K} (hxk : x ∉ u.parent.keys) :
    ∃ rep', Inv (u.make x) groups rep' d ∧
      ∀ y, y ∈ (u.make x).parent.keys ↔ y = x ∨ y ∈ u.parent.keys := by
  have hnone : u.parent.get? x = none := by
    cases hg : u.parent.get? x with
    | none => rfl
    | some y => exact absurd (mem_of_exists hg) hxk
  have hlink : ∀ {a b}, Linked groups a b → a = x → b = x := by
    intro a b hab
    have := Linked.eq_of (groups := groups) (fun c => decide (c = x)) (by
      intro g hg c hc e he
      have h1 : c ≠ x := by rintro rfl; exact hxk (h.mem g hg _ hc)
      have h2 : e ≠ x := by rintro rfl; exact hxk (h.mem g hg _ he)
      simp [h1, h2]) hab
    intro hax
    simpa [hax] using this.symm
  refine ⟨fun y => if y = x then x else rep y, ⟨h.forest.insert hnone, ?_, ?_, ?_⟩, ?_⟩
  · intro g hg a ha
    simp only [make, Dict.mem_keys_set]; exact .inr (h.mem g hg a ha)
  · intro a b ha hb hab
    simp only [make, Dict.mem_keys_set] at ha hb
    have hr : ∀ {c}, c ∈ u.parent.keys → rep c ≠ x := by
      intro c hc hcx
      obtain ⟨y, hy⟩ := exists_of_mem hc
      have := h.forest.rep_root hy
      rw [hcx, hnone] at this; cases this
    by_cases hax : a = x
    · by_cases hbx : b = x
      · subst hax; subst hbx; exact Linked.refl _
      · simp only [hax, hbx, if_true, if_false] at hab
        exact absurd hab.symm (hr (hb.resolve_left hbx))
    · by_cases hbx : b = x
      · simp only [hax, hbx, if_true, if_false] at hab
        exact absurd hab (hr (ha.resolve_left hax))
      · simp only [hax, hbx, if_false] at hab
        exact h.sound (ha.resolve_left hax) (hb.resolve_left hbx) hab
  · intro a b hab
    by_cases hax : a = x
    · have := hlink hab hax
      simp [hax, this]
    · by_cases hbx : b = x
      · exact absurd (hlink hab.symm hbx) hax
      · simp [hax, hbx, h.complete hab]
  · intro y; simp only [make, Dict.mem_keys_set]

/-- Merging two classes of representatives. -/
theorem merge_inv {u u' : UFCpp K} {groups : List (List K)} {rep rep' : K → K} {d d' : K → Nat}
    (h : Inv u groups rep d) {x y r t : K} (hx : x ∈ u.parent.keys) (hy : y ∈ u.parent.keys)
    (hrt : (r = rep x ∧ t = rep y) ∨ (r = rep y ∧ t = rep x))
    (hf : Forest u'.parent rep' d') (hk : u'.parent.keys = u.parent.keys)
    (hr : ∀ z, rep' z = if rep z = r then t else rep z) : Inv u' ([x, y] :: groups) rep' d' := by
  have hmono : ∀ {a b}, Linked groups a b → Linked ([x, y] :: groups) a b :=
    fun hab => hab.mono (fun g hg => List.mem_cons_of_mem _ hg)
  have hxy : Linked ([x, y] :: groups) x y :=
    Linked.of_mem (g := [x, y]) (by simp) (by simp) (by simp)
  refine ⟨hf, ?_, ?_, ?_⟩
  · intro g hg a ha
    rw [hk]
    rcases List.mem_cons.1 hg with rfl | hg
    · rcases List.mem_cons.1 ha with rfl | ha
      · exact hx
      · rw [List.mem_singleton] at ha; subst ha; exact hy
    · exact h.mem g hg a ha
  · intro a b ha hb hab
    rw [hk] at ha hb
    rw [hr, hr] at hab
    have hin : ∀ z, z ∈ u.parent.keys → (rep z = r ∨ rep z = t) →
        Linked ([x, y] :: groups) z x := by
      intro z hz hzr
      rcases hrt with ⟨rfl, rfl⟩ | ⟨rfl, rfl⟩ <;> rcases hzr with hzr | hzr
      · exact hmono (h.sound hz hx hzr)
      · exact (hmono (h.sound hz hy hzr)).trans hxy.symm
      · exact (hmono (h.sound hz hy hzr)).trans hxy.symm
      · exact hmono (h.sound hz hx hzr)
    by_cases har : rep a = r
    · by_cases hbr : rep b = r
      · exact (hin a ha (.inl har)).trans (hin b hb (.inl hbr)).symm
      · rw [if_pos har, if_neg hbr] at hab
        exact (hin a ha (.inl har)).trans (hin b hb (.inr hab.symm)).symm
    · by_cases hbr : rep b = r
      · rw [if_neg har, if_pos hbr] at hab
        exact (hin a ha (.inr hab)).trans (hin b hb (.inl hbr)).symm
      · rw [if_neg har, if_neg hbr] at hab
        exact hmono (h.sound ha hb hab)
  · intro a b hab
    refine Linked.eq_of (groups := [x, y] :: groups) rep' ?_ hab
    intro g hg c hc e he
    rcases List.mem_cons.1 hg with rfl | hg
    · have : ∀ c ∈ [x, y], rep' c = t := by
        intro c hc
        rw [hr]
        rcases List.mem_cons.1 hc with rfl | hc
        · rcases hrt with ⟨rfl, rfl⟩ | ⟨rfl, rfl⟩
          · simp
          · split <;> rfl
        · rw [List.mem_singleton] at hc; subst hc
          rcases hrt with ⟨rfl, rfl⟩ | ⟨rfl, rfl⟩
          · split <;> rfl
          · simp
      rw [this c hc, this e he]
    · rw [hr, hr, h.complete (Linked.of_mem hg hc he)]

theorem union_spec {u : UFCpp K} {groups : List (List K)} {rep : K → K} {d : K → Nat}
    (h : Inv u groups rep d) {x y : K} (hx : x ∈ u.parent.keys) (hy : y ∈ u.parent.keys) :
    ∃ u' rep' d', u.union x y = some u' ∧ Inv u' ([x, y] :: groups) rep' d' ∧
      u'.parent.keys = u.parent.keys := by
  obtain ⟨u1, h1, h2, h3⟩ := find_spec h hx
  obtain ⟨u2, g1, g2, g3⟩ := find_spec h2 (x := y) (by rw [h3]; exact hy)
  have hx2 : x ∈ u2.parent.keys := by rw [g3, h3]; exact hx
  have hy2 : y ∈ u2.parent.keys := by rw [g3, h3]; exact hy
  obtain ⟨ax, hax⟩ := exists_of_mem hx2
  obtain ⟨ay, hay⟩ := exists_of_mem hy2
  have hrx := g2.forest.rep_root hax
  have hry := g2.forest.rep_root hay
  unfold union
  simp only [h1, g1]
  by_cases hne : rep x = rep y
  · refine ⟨u2, rep, d, by simp [hne], ?_, by rw [g3, h3]⟩
    refine merge_inv g2 hx2 hy2 (.inl ⟨rfl, rfl⟩) g2.forest rfl ?_
    intro z
    by_cases hz : rep z = rep x <;> simp [hz, hne]
  · rw [if_pos (by simpa using hne)]
    unfold link
    simp only
    split
    · refine ⟨_, _, _, rfl, merge_inv g2 hx2 hy2 (.inl ⟨rfl, rfl⟩)
        (g2.forest.link hrx hry hne) ?_ (fun z => rfl), ?_⟩
      · simp only; rw [Dict.keys_set, if_pos (mem_of_exists hrx)]
      · simp only; rw [Dict.keys_set, if_pos (mem_of_exists hrx), g3, h3]
    · refine ⟨_, _, _, rfl, merge_inv g2 hx2 hy2 (.inr ⟨rfl, rfl⟩)
        (g2.forest.link hry hrx (Ne.symm hne)) ?_ (fun z => rfl), ?_⟩
      · simp only; rw [Dict.keys_set, if_pos (mem_of_exists hry)]
      · simp only; rw [Dict.keys_set, if_pos (mem_of_exists hry), g3, h3]

theorem aggregate_spec {u : UFCpp K} {groups : List (List K)} {rep : K → K} {d : K → Nat}
    (h : Inv u groups rep d) (es : List K) (hes : ∀ e ∈ es, e ∈ u.parent.keys)
    (agg : Dict K (List K)) :
    ∃ u', aggregate u es agg = some (u', es.foldl (fun m e => m.push (rep e) e) agg) ∧
      Inv u' groups rep d ∧ u'.parent.keys = u.parent.keys := by
  induction es generalizing u agg with
  | nil => exact ⟨u, rfl, h, rfl⟩
  | cons e es ih =>
    obtain ⟨u1, h1, h2, h3⟩ := find_spec h (hes e (by simp))
    obtain ⟨u2, g1, g2, g3⟩ := ih h2
      (fun a ha => by rw [h3]; exact hes a (List.mem_cons_of_mem _ ha)) (agg.push (rep e) e)
    refine ⟨u2, ?_, g2, by rw [g3, h3]⟩
    simp only [aggregate, h1, g1, List.foldl_cons]

end Verif.UFCpp
