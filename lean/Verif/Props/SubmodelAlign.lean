import Verif.Model.SubmodelAlign
import Verif.Base.PyText
import Mathlib.Data.List.Nodup
import Mathlib.Data.List.Perm.Basic
import Mathlib.Data.String.Basic
import Mathlib.Tactic.Common

/-!
# C70: aligning submodels
-/
set_option linter.unusedSectionVars false
set_option linter.unusedSimpArgs false
namespace Verif.SubmodelAlign

variable {P S R T : Type} [LinearOrder P] [DecidableEq S]

/-! ### Names -/

/-- C70. Different partial reconstructions have different names in the alignment problem. -/
theorem C70_names (a b : Key (List Char)) (h : recName a = recName b) : a = b := by
  have hrev : ∀ k : Key (List Char), (recName k).reverse =
      (Text.fmtNat k.2).reverse ++ 'x' :: ("_inde".toList.reverse ++ k.1.reverse) := by
    intro k
    unfold recName
    rw [show "_index".toList = "_inde".toList ++ ['x'] from rfl]
    simp
  have hdig : ∀ n, ∀ c ∈ (Text.fmtNat n).reverse, Text.isDigit c = true := by
    intro n c hc
    obtain ⟨d, hd, rfl⟩ := (Text.fmtNat_spec n).2.2 c (List.mem_reverse.1 hc)
    exact (Text.digitChar_props hd).2.1
  have htake : ∀ k : Key (List Char), (recName k).reverse.takeWhile Text.isDigit =
      (Text.fmtNat k.2).reverse := by
    intro k
    rw [hrev, List.takeWhile_append_of_pos (hdig k.2), List.takeWhile_cons,
      if_neg (by decide), List.append_nil]
  have h1 : Text.fmtNat a.2 = Text.fmtNat b.2 := by
    have := htake a
    rw [h, htake b] at this
    exact (List.reverse_injective this).symm
  have h2 : a.2 = b.2 := by
    have := congrArg Text.natOf h1
    rwa [(Text.fmtNat_spec a.2).1, (Text.fmtNat_spec b.2).1] at this
  have h3 : a.1 = b.1 := by
    unfold recName at h
    rw [h1] at h
    exact List.append_cancel_right (List.append_cancel_right h)
  exact Prod.ext h3 h2

/-- C70. With the hard camera constraints two shots of different reconstructions can get the same name. -/
theorem C70_hard_clash : ∃ (a b : Key (List Char)) (s t : List Char), a ≠ b ∧
    hardShotName a s = hardShotName b t := by
  refine ⟨("m".toList, 1), ("m".toList, 10), "0.jpg".toList, ".jpg".toList, by decide, by decide +kernel⟩

/-! ### Connected reconstructions -/

theorem mem_neighbours2 (m : Dict (Key P) (List S)) (hm : m.Wf) (u v : Key P) :
    v ∈ neighbours2 m u ↔ v ≠ u ∧ ∃ sh, m.get? v = some sh ∧ ∃ s ∈ sh, s ∈ (m.get? u).getD [] := by
  unfold neighbours2
  rw [Dict.mem_keys_iff, Dict.get?_filterKV hm]
  cases hv : m.get? v with
  | none => simp
  | some sh =>
    by_cases h : v ≠ u ∧ ∃ s ∈ sh, s ∈ (m.get? u).getD []
    · simp [h]
    · simp only [Option.filter, h, decide_false, Option.isSome, false_iff, Option.some.injEq,
        exists_eq_left', Bool.false_eq_true, if_false]

theorem addEdge_spec (l : List (Key P × Key P)) (e : List (Key P × Key P))
    (he : e.Nodup) (ha : ∀ a ∈ e, (a.2, a.1) ∉ e) (hl : ∀ a ∈ l, a.1 ≠ a.2) :
    (l.foldl addEdge e).Nodup ∧ (∀ a ∈ l.foldl addEdge e, (a.2, a.1) ∉ l.foldl addEdge e) ∧
    ∀ u v, ((u, v) ∈ l.foldl addEdge e ∨ (v, u) ∈ l.foldl addEdge e) ↔
      ((u, v) ∈ e ∨ (v, u) ∈ e ∨ (u, v) ∈ l ∨ (v, u) ∈ l) := by
  induction l generalizing e with
  | nil => exact ⟨he, ha, fun u v => by simp⟩
  | cons a l ih =>
    rw [List.foldl_cons]
    have hl' : ∀ a ∈ l, a.1 ≠ a.2 := fun x hx => hl x (List.mem_cons_of_mem _ hx)
    unfold addEdge
    by_cases h : a ∈ e ∨ (a.2, a.1) ∈ e
    · rw [if_pos h]
      obtain ⟨h1, h2, h3⟩ := ih e he ha hl'
      refine ⟨h1, h2, fun u v => ?_⟩
      unfold addEdge at h3
      rw [h3]
      simp only [List.mem_cons]
      have : (u, v) = a ∨ (v, u) = a → (u, v) ∈ e ∨ (v, u) ∈ e := by
        rintro (rfl | rfl)
        · exact h
        · exact h.symm
      tauto
    · rw [if_neg h]
      push Not at h
      obtain ⟨h1, h2, h3⟩ := ih (e ++ [a]) (by
        rw [List.nodup_append]
        refine ⟨he, by simp, ?_⟩
        intro x hx y hy
        rw [List.mem_singleton] at hy
        subst hy
        rintro rfl
        exact h.1 hx) (by
        intro b hb hb2
        rw [List.mem_append, List.mem_singleton] at hb hb2
        rcases hb with hb | rfl
        · rcases hb2 with hb2 | hb2
          · exact ha b hb hb2
          · apply h.2
            rw [← hb2]
            exact hb
        · rcases hb2 with hb2 | hb2
          · exact h.2 hb2
          · exact hl b (by simp) (congrArg Prod.snd hb2)) hl'
      refine ⟨h1, h2, fun u v => ?_⟩
      unfold addEdge at h3
      rw [h3]
      simp only [List.mem_append, List.mem_singleton, List.mem_cons, List.not_mem_nil, or_false]
      tauto

/-- C70. Two partial reconstructions are connected, once, exactly if they are different and share an image. -/
theorem C70_connected (m : Dict (Key P) (List S)) (hm : m.Wf) :
    (connected m).Nodup ∧ (∀ a ∈ connected m, (a.2, a.1) ∉ connected m) ∧
    ∀ u v, ((u, v) ∈ connected m ∨ (v, u) ∈ connected m) ↔
      u ≠ v ∧ ∃ su sv s, m.get? u = some su ∧ m.get? v = some sv ∧ s ∈ su ∧ s ∈ sv := by
  unfold connected
  have hmem : ∀ u v, (u, v) ∈ m.keys.flatMap (fun u => (neighbours2 m u).map (fun v => (u, v))) ↔
      u ≠ v ∧ ∃ su sv s, m.get? u = some su ∧ m.get? v = some sv ∧ s ∈ su ∧ s ∈ sv := by
    intro u v
    rw [List.mem_flatMap]
    constructor
    · rintro ⟨x, hx, h⟩
      obtain ⟨y, hy, he⟩ := List.mem_map.1 h
      cases he
      rw [mem_neighbours2 m hm] at hy
      obtain ⟨hne, sh, hsh, s, hs, hsu⟩ := hy
      obtain ⟨su, hsu'⟩ := Option.isSome_iff_exists.1 ((Dict.mem_keys_iff m u).1 hx)
      rw [hsu'] at hsu
      exact ⟨hne.symm, su, sh, s, hsu', hsh, hsu, hs⟩
    · rintro ⟨hne, su, sv, s, h1, h2, h3, h4⟩
      refine ⟨u, (Dict.mem_keys_iff m u).2 (by rw [h1]; rfl), List.mem_map.2 ⟨v, ?_, rfl⟩⟩
      rw [mem_neighbours2 m hm]
      exact ⟨hne.symm, sv, h2, s, h4, by rw [h1]; exact h3⟩
  obtain ⟨h1, h2, h3⟩ := addEdge_spec
    (m.keys.flatMap (fun u => (neighbours2 m u).map (fun v => (u, v)))) [] (by simp) (by simp)
    (fun a ha => ((hmem a.1 a.2).1 ha).1)
  refine ⟨h1, h2, fun u v => ?_⟩
  rw [h3, hmem, hmem]
  simp only [List.not_mem_nil, false_or]
  constructor
  · rintro (h | ⟨hne, su, sv, s, h1, h2, h3, h4⟩)
    · exact h
    · exact ⟨hne.symm, sv, su, s, h2, h1, h4, h3⟩
  · exact Or.inl

/-! ### The soft camera constraints -/

theorem softShot_spec (k : Key P) (l : List S) (hl : l.Nodup) (r : List S × List (Call P S)) :
    (∀ s, s ∈ (l.foldl (softShot k) r).1 ↔ s ∈ r.1 ∨ s ∈ l) ∧
    (∀ s k', (l.foldl (softShot k) r).2.count (.shot s k') =
      r.2.count (.shot s k') + if k' = k ∧ s ∈ l ∧ s ∉ r.1 then 1 else 0) ∧
    (∀ s k', (l.foldl (softShot k) r).2.count (.position s k') =
      r.2.count (.position s k') + if k' = k ∧ s ∈ l ∧ s ∉ r.1 then 1 else 0) ∧
    (∀ s k', (l.foldl (softShot k) r).2.count (.motion k' s) =
      r.2.count (.motion k' s) + if k' = k ∧ s ∈ l then 1 else 0) ∧
    (∀ k', (l.foldl (softShot k) r).2.count (.reconstruction k') = r.2.count (.reconstruction k')) := by
  induction l generalizing r with
  | nil => simp
  | cons a l ih =>
    have hnd := List.nodup_cons.1 hl
    rw [List.foldl_cons]
    obtain ⟨h1, h2, h3, h4, h5⟩ := ih hnd.2 (softShot k r a)
    unfold softShot at h1 h2 h3 h4 h5 ⊢
    by_cases ha : a ∈ r.1
    · rw [if_pos ha] at h1 h2 h3 h4 h5 ⊢
      refine ⟨?_, ?_, ?_, ?_, ?_⟩
      · intro s
        rw [h1]
        simp only [List.mem_cons]
        constructor
        · tauto
        · rintro (h | rfl | h)
          · exact Or.inl h
          · exact Or.inl ha
          · exact Or.inr h
      · intro s k'
        rw [h2]
        simp only [List.count_append, List.mem_cons]
        have : List.count (Call.shot s k' : Call P S) [.motion k a] = 0 := by
          rw [List.count_eq_zero]; simp
        rw [this]
        by_cases hs : s = a
        · subst hs; simp [ha]
        · simp [hs]
      · intro s k'
        rw [h3]
        simp only [List.count_append, List.mem_cons]
        have : List.count (Call.position s k' : Call P S) [.motion k a] = 0 := by
          rw [List.count_eq_zero]; simp
        rw [this]
        by_cases hs : s = a
        · subst hs; simp [ha]
        · simp [hs]
      · intro s k'
        rw [h4]
        simp only [List.count_append, List.mem_cons]
        by_cases hs : s = a
        · subst hs
          by_cases hk : k' = k
          · subst hk; simp [hnd.1]
          · have : List.count (Call.motion k' s : Call P S) [.motion k s] = 0 := by
              rw [List.count_eq_zero]; simp [hk]
            simp [hk, this]
        · have : List.count (Call.motion k' s : Call P S) [.motion k a] = 0 := by
            rw [List.count_eq_zero]; simp [hs]
          simp [hs, this]
      · intro k'
        rw [h5]
        simp only [List.count_append]
        have : List.count (Call.reconstruction k' : Call P S) [.motion k a] = 0 := by
          rw [List.count_eq_zero]; simp
        omega
    · rw [if_neg ha] at h1 h2 h3 h4 h5 ⊢
      refine ⟨?_, ?_, ?_, ?_, ?_⟩
      · intro s
        rw [h1]
        simp only [List.mem_append, List.mem_singleton, List.mem_cons]
        tauto
      · intro s k'
        rw [h2]
        simp only [List.count_append, List.mem_cons, List.mem_append, List.mem_singleton,
          List.not_mem_nil, or_false]
        by_cases hs : s = a
        · subst hs
          by_cases hk : k' = k
          · subst hk
            have : List.count (Call.shot s k' : Call P S)
                [.shot s k', .position s k', .motion k' s] = 1 := by
              rw [List.count_cons_self, List.count_eq_zero.2 (by simp)]
            simp [ha, this]
          · have : List.count (Call.shot s k' : Call P S)
                [.shot s k, .position s k, .motion k s] = 0 := by
              rw [List.count_eq_zero]; simp [hk]
            simp [hk, this]
        · have : List.count (Call.shot s k' : Call P S)
              [.shot a k, .position a k, .motion k a] = 0 := by
            rw [List.count_eq_zero]; simp [hs]
          simp [hs, this]
      · intro s k'
        rw [h3]
        simp only [List.count_append, List.mem_cons, List.mem_append, List.mem_singleton,
          List.not_mem_nil, or_false]
        by_cases hs : s = a
        · subst hs
          by_cases hk : k' = k
          · subst hk
            have : List.count (Call.position s k' : Call P S)
                [.shot s k', .position s k', .motion k' s] = 1 := by
              rw [List.count_cons_of_ne (by simp), List.count_cons_self, List.count_eq_zero.2 (by simp)]
            simp [ha, this]
          · have : List.count (Call.position s k' : Call P S)
                [.shot s k, .position s k, .motion k s] = 0 := by
              rw [List.count_eq_zero]; simp [hk]
            simp [hk, this]
        · have : List.count (Call.position s k' : Call P S)
              [.shot a k, .position a k, .motion k a] = 0 := by
            rw [List.count_eq_zero]; simp [hs]
          simp [hs, this]
      · intro s k'
        rw [h4]
        simp only [List.count_append, List.mem_cons]
        by_cases hs : s = a
        · subst hs
          by_cases hk : k' = k
          · subst hk
            have : List.count (Call.motion k' s : Call P S)
                [.shot s k', .position s k', .motion k' s] = 1 := by
              rw [List.count_cons_of_ne (by simp), List.count_cons_of_ne (by simp), List.count_cons_self,
                List.count_nil]
            simp [hnd.1, this]
          · have : List.count (Call.motion k' s : Call P S)
                [.shot s k, .position s k, .motion k s] = 0 := by
              rw [List.count_eq_zero]; simp [hk]
            simp [hk, this]
        · have : List.count (Call.motion k' s : Call P S)
              [.shot a k, .position a k, .motion k a] = 0 := by
            rw [List.count_eq_zero]; simp [hs]
          simp [hs, this]
      · intro k'
        rw [h5]
        simp only [List.count_append]
        have : List.count (Call.reconstruction k' : Call P S)
            [.shot a k, .position a k, .motion k a] = 0 := by
          rw [List.count_eq_zero]; simp
        omega

theorem soft_fold (m : Dict (Key P) (List S)) (hm : m.Wf) (hs : ∀ q ∈ m, q.2.Nodup)
    (r : List S × List (Call P S)) :
    (∀ s k, (m.foldl softRec r).2.count (.shot s k) = r.2.count (.shot s k) +
      if s ∉ r.1 ∧ (m.find? (fun q => s ∈ q.2)).map Prod.fst = some k then 1 else 0) ∧
    (∀ s k, (m.foldl softRec r).2.count (.position s k) = r.2.count (.position s k) +
      if s ∉ r.1 ∧ (m.find? (fun q => s ∈ q.2)).map Prod.fst = some k then 1 else 0) ∧
    (∀ s k, (m.foldl softRec r).2.count (.motion k s) = r.2.count (.motion k s) +
      if s ∈ (m.get? k).getD [] then 1 else 0) ∧
    (∀ k, (m.foldl softRec r).2.count (.reconstruction k) = r.2.count (.reconstruction k) +
      if k ∈ m.keys then 1 else 0) := by
  induction m generalizing r with
  | nil => simp [Dict.get?]
  | cons q m ih =>
    obtain ⟨k, l⟩ := q
    have hnd := List.nodup_cons.1 hm
    rw [List.foldl_cons]
    obtain ⟨h1, h2, h3, h4⟩ := ih hnd.2 (fun q hq => hs q (List.mem_cons_of_mem _ hq)) (softRec r (k, l))
    obtain ⟨e1, e2, e3, e4, e5⟩ := softShot_spec k l (hs (k, l) (by simp))
      (r.1, r.2 ++ [.reconstruction k])
    have hkm : Dict.get? m k = none := by rw [Dict.get?_eq_none_iff]; exact hnd.1
    have hfind : ∀ s (k' : Key P), (m.find? (fun q => decide (s ∈ q.2))).map Prod.fst = some k' → k' ≠ k := by
      intro s k' hf he
      subst he
      obtain ⟨q, hq, hk⟩ := Option.map_eq_some_iff.1 hf
      exact hnd.1 (by rw [← hk]; exact List.mem_map.2 ⟨q, List.mem_of_find?_eq_some hq, rfl⟩)
    unfold softRec at h1 h2 h3 h4 ⊢
    simp only at h1 h2 h3 h4 e1 e2 e3 e4 e5
    refine ⟨?_, ?_, ?_, ?_⟩
    · intro s k'
      rw [h1, e2]
      have hz : List.count (Call.shot s k' : Call P S) [.reconstruction k] = 0 := by
        rw [List.count_eq_zero]; simp
      simp only [List.count_append, hz, e1]
      by_cases hsl : s ∈ l
      · rw [List.find?_cons_of_pos (by simpa using hsl), Option.map_some]
        have hneg : ¬ (¬(s ∈ r.1 ∨ s ∈ l) ∧
            Option.map Prod.fst (m.find? (fun q => decide (s ∈ q.2))) = some k') :=
          fun h => h.1 (Or.inr hsl)
        rw [if_neg hneg, Nat.add_zero, Nat.add_zero]
        refine congrArg _ (if_congr ?_ rfl rfl)
        constructor
        · rintro ⟨rfl, -, h⟩; exact ⟨h, rfl⟩
        · rintro ⟨h, he⟩; exact ⟨(Option.some.inj he).symm, hsl, h⟩
      · rw [List.find?_cons_of_neg (by simpa using hsl)]
        rw [if_neg (fun h => hsl h.2.1)]
        rw [Nat.add_zero]
        refine congrArg _ (if_congr ?_ rfl rfl)
        constructor
        · rintro ⟨h, he⟩; exact ⟨fun h' => h (Or.inl h'), he⟩
        · rintro ⟨h, he⟩; exact ⟨fun h' => h'.elim h hsl, he⟩
    · intro s k'
      rw [h2, e3]
      have hz : List.count (Call.position s k' : Call P S) [.reconstruction k] = 0 := by
        rw [List.count_eq_zero]; simp
      simp only [List.count_append, hz, e1]
      by_cases hsl : s ∈ l
      · rw [List.find?_cons_of_pos (by simpa using hsl), Option.map_some]
        have hneg : ¬ (¬(s ∈ r.1 ∨ s ∈ l) ∧
            Option.map Prod.fst (m.find? (fun q => decide (s ∈ q.2))) = some k') :=
          fun h => h.1 (Or.inr hsl)
        rw [if_neg hneg, Nat.add_zero, Nat.add_zero]
        refine congrArg _ (if_congr ?_ rfl rfl)
        constructor
        · rintro ⟨rfl, -, h⟩; exact ⟨h, rfl⟩
        · rintro ⟨h, he⟩; exact ⟨(Option.some.inj he).symm, hsl, h⟩
      · rw [List.find?_cons_of_neg (by simpa using hsl)]
        rw [if_neg (fun h => hsl h.2.1)]
        rw [Nat.add_zero]
        refine congrArg _ (if_congr ?_ rfl rfl)
        constructor
        · rintro ⟨h, he⟩; exact ⟨fun h' => h (Or.inl h'), he⟩
        · rintro ⟨h, he⟩; exact ⟨fun h' => h'.elim h hsl, he⟩
    · intro s k'
      rw [h3, e4]
      have hz : List.count (Call.motion k' s : Call P S) [.reconstruction k] = 0 := by
        rw [List.count_eq_zero]; simp
      simp only [List.count_append, hz, Dict.get?]
      by_cases hk : k = k'
      · subst hk
        simp [hkm]
      · simp [hk, Ne.symm hk]
    · intro k'
      rw [h4, e5]
      simp only [List.count_append, Dict.keys_cons, List.mem_cons]
      by_cases hk : k' = k
      · subst hk
        have hnk : k' ∉ Dict.keys m := hnd.1
        simp [hnk]
      · have hz : List.count (Call.reconstruction k' : Call P S) [.reconstruction k] = 0 := by
          rw [List.count_eq_zero]; simp [hk]
        simp [hk, hz]

/-- C70. In the alignment problem with soft camera constraints every reconstruction appears once; every image
appears once, with the pose and GPS position of the first reconstruction that has it; and every reconstruction is tied once to each of
its images. -/
theorem C70_soft (m : Dict (Key P) (List S)) (hm : m.Wf) (hs : ∀ q ∈ m, q.2.Nodup) (k : Key P) (s : S) :
    (softConstraints m).count (.reconstruction k) = (if k ∈ m.keys then 1 else 0) ∧
    (softConstraints m).count (.shot s k) =
      (if (m.find? (fun q => s ∈ q.2)).map Prod.fst = some k then 1 else 0) ∧
    (softConstraints m).count (.position s k) =
      (if (m.find? (fun q => s ∈ q.2)).map Prod.fst = some k then 1 else 0) ∧
    (softConstraints m).count (.motion k s) = (if s ∈ (m.get? k).getD [] then 1 else 0) := by
  obtain ⟨h1, h2, h3, h4⟩ := soft_fold m hm hs ([], [])
  unfold softConstraints
  refine ⟨by simpa using h4 k, ?_, ?_, by simpa using h3 s k⟩
  · rw [h1 s k]
    simp only [List.count_nil, Nat.zero_add]
    exact if_congr (by simp) rfl rfl
  · rw [h2 s k]
    simp only [List.count_nil, Nat.zero_add]
    exact if_congr (by simp) rfl rfl

/-! ### Applying the transformations -/

theorem get?_loadShots (shots : R → List S) (subs : List (P × Option (List R)))
    (hs : (subs.map Prod.fst).Nodup) :
    (loadShots shots subs).Wf ∧ ∀ p i, (loadShots shots subs).get? (p, i) =
      (((Dict.get? subs p).join).getD [])[i]?.map shots := by
  have hin : ∀ (p : P) (recs : List R) (n : Nat) (m : Dict (Key P) (List S)), m.Wf →
      ((recs.zipIdx n).foldl (fun m r => Dict.set m (p, r.2) (shots r.1)) m).Wf ∧
      ∀ p' i, ((recs.zipIdx n).foldl (fun m r => Dict.set m (p, r.2) (shots r.1)) m).get? (p', i) =
        if p' = p ∧ n ≤ i ∧ i < n + recs.length then recs[i - n]?.map shots else m.get? (p', i) := by
    intro p recs
    induction recs with
    | nil => intro n m hm; exact ⟨hm, fun p' i => by simp⟩
    | cons r l ih =>
      intro n m hm
      rw [List.zipIdx_cons, List.foldl_cons]
      obtain ⟨h1, h2⟩ := ih (n + 1) (Dict.set m (p, n) (shots r)) (Dict.wf_set hm _ _)
      refine ⟨h1, ?_⟩
      intro p' i
      rw [h2, Dict.get?_set]
      by_cases hp : p' = p
      · subst hp
        by_cases hi : i = n
        · subst hi
          simp
        · by_cases hc : n + 1 ≤ i ∧ i < n + 1 + l.length
          · rw [if_pos ⟨rfl, hc⟩, if_pos ⟨rfl, by simp; omega⟩, show i - n = (i - (n + 1)) + 1 by omega]
            rfl
          · rw [if_neg (fun h => hc h.2), if_neg (by simp; exact fun h => hi h.symm), if_neg]
            rintro ⟨-, h⟩
            simp at h
            omega
      · simp [hp, Ne.symm hp]
  have key : ∀ (subs : List (P × Option (List R))) (m : Dict (Key P) (List S)),
      (subs.map Prod.fst).Nodup → m.Wf →
      (subs.foldl (addSubmodel shots) m).Wf ∧
      ∀ p i, (subs.foldl (addSubmodel shots) m).get? (p, i) =
        match (((Dict.get? subs p).join).getD [])[i]? with
        | some r => some (shots r)
        | none => m.get? (p, i) := by
    intro subs
    induction subs with
    | nil => intro m _ hm; exact ⟨hm, fun p i => by simp [Dict.get?]⟩
    | cons q l ih =>
      intro m hs hm
      obtain ⟨p0, o⟩ := q
      have hnd := List.nodup_cons.1 hs
      have hnone : Dict.get? l p0 = none := by rw [Dict.get?_eq_none_iff]; exact hnd.1
      rw [List.foldl_cons]
      cases o with
      | none =>
        obtain ⟨h1, h2⟩ := ih m hnd.2 hm
        refine ⟨h1, fun p i => ?_⟩
        show (l.foldl (addSubmodel shots) m).get? (p, i) = _
        rw [h2]
        by_cases hp : p0 = p
        · subst hp; simp [Dict.get?, hnone]
        · simp [Dict.get?, hp]
      | some recs =>
        obtain ⟨g1, g2⟩ := hin p0 recs 0 m hm
        obtain ⟨h1, h2⟩ := ih (addSubmodel shots m (p0, some recs)) hnd.2 g1
        refine ⟨h1, fun p i => ?_⟩
        rw [h2]
        have : addSubmodel shots m (p0, some recs) =
          (recs.zipIdx 0).foldl (fun m r => Dict.set m (p0, r.2) (shots r.1)) m := rfl
        rw [this, g2]
        by_cases hp : p0 = p
        · subst hp
          simp only [hnone, Option.join_none, Option.getD_none, List.getElem?_nil, Dict.get?, if_true,
            Option.join_some, Option.getD_some, true_and, Nat.zero_le, Nat.zero_add, Nat.sub_zero]
          by_cases hi : i < recs.length
          · simp [hi]
          · rw [if_neg hi, List.getElem?_eq_none (by omega)]
        · simp [Dict.get?, hp, Ne.symm hp]
  obtain ⟨h1, h2⟩ := key subs [] hs Dict.wf_nil
  refine ⟨h1, fun p i => ?_⟩
  unfold loadShots
  rw [h2]
  cases (((Dict.get? subs p).join).getD [])[i]? <;> rfl

theorem get?_transformations (solve : Key P → T) (inv : T → T) (m : Dict (Key P) (List S)) :
    (transformations solve inv m).Wf ∧ ∀ k, (transformations solve inv m).get? k =
      if k ∈ m.keys then some (inv (solve k)) else none := by
  unfold transformations
  have key : ∀ (l : List (Key P)) (t : Dict (Key P) T), t.Wf →
      (l.foldl (fun t k => Dict.set t k (inv (solve k))) t).Wf ∧
      ∀ k, (l.foldl (fun t k => Dict.set t k (inv (solve k))) t).get? k =
        if k ∈ l then some (inv (solve k)) else t.get? k := by
    intro l
    induction l with
    | nil => intro t ht; exact ⟨ht, fun k => by simp⟩
    | cons a l ih =>
      intro t ht
      obtain ⟨h1, h2⟩ := ih (Dict.set t a (inv (solve a))) (Dict.wf_set ht _ _)
      refine ⟨h1, fun k => ?_⟩
      rw [List.foldl_cons, h2, Dict.get?_set]
      by_cases hk : k ∈ l
      · simp [hk]
      · by_cases ha : a = k
        · subst ha; simp [hk]
        · simp [hk, ha, Ne.symm ha]
  obtain ⟨h1, h2⟩ := key m.keys [] Dict.wf_nil
  exact ⟨h1, fun k => by rw [h2]; simp⟩

theorem runs_head (k : Key P) (l : List (Key P)) : ∃ ks rest, runs (k :: l) = (k.1, k :: ks) :: rest := by
  unfold runs
  cases h : runs l with
  | nil => exact ⟨[], [], rfl⟩
  | cons q rest =>
    obtain ⟨p, ks⟩ := q
    by_cases hk : k.1 = p
    · simp only [hk, if_true]; exact ⟨ks, rest, rfl⟩
    · simp only [hk, if_false]; exact ⟨[], _, rfl⟩

theorem runs_spec (l : List (Key P)) (hs : l.Pairwise (fun a b => a.1 ≤ b.1)) :
    ((runs l).map Prod.fst).Nodup ∧
    (∀ p ks, (p, ks) ∈ runs l ↔ ks ≠ [] ∧ ks = l.filter (fun k => k.1 = p)) := by
  induction l with
  | nil => exact ⟨by simp [runs], by simp [runs]⟩
  | cons k l ih =>
    have hc := List.pairwise_cons.1 hs
    obtain ⟨h1, h2⟩ := ih hc.2
    cases l with
    | nil =>
      refine ⟨by simp [runs], ?_⟩
      intro p ks
      simp only [runs, List.mem_singleton, Prod.mk.injEq]
      constructor
      · rintro ⟨rfl, rfl⟩; simp
      · rintro ⟨hne, rfl⟩
        by_cases hk : k.1 = p
        · simp [hk]
        · simp [hk] at hne
    | cons k2 l2 =>
      obtain ⟨ks2, rest, hr⟩ := runs_head k2 l2
      have hunf : runs (k :: k2 :: l2) = if k.1 = k2.1 then (k2.1, k :: k2 :: ks2) :: rest
          else (k.1, [k]) :: (k2.1, k2 :: ks2) :: rest := by
        conv_lhs => unfold runs
        rw [hr]
      rw [hr] at h1 h2
      rw [hunf]
      by_cases hk : k.1 = k2.1
      · rw [if_pos hk]
        refine ⟨h1, ?_⟩
        intro p ks
        rw [List.mem_cons, List.filter_cons]
        have hnr : ∀ ks', (k2.1, ks') ∉ rest := by
          intro ks' hm
          exact (List.nodup_cons.1 h1).1 (List.mem_map.2 ⟨_, hm, rfl⟩)
        have hbase := (h2 k2.1 (k2 :: ks2)).1 (by simp)
        by_cases hp : k.1 = p
        · subst hp
          simp only [decide_true, if_true]
          constructor
          · rintro (he | hm)
            · have he2 := congrArg Prod.snd he
              simp only at he2
              subst he2
              refine ⟨by simp, ?_⟩
              rw [hk, ← hbase.2]
            · exact absurd hm (by rw [hk]; exact hnr ks)
          · rintro ⟨-, rfl⟩
            left
            rw [hk, ← hbase.2]
        · simp only [hp, decide_false, Bool.false_eq_true, if_false]
          have := h2 p ks
          rw [List.mem_cons] at this
          rw [← this]
          constructor
          · rintro (he | hm)
            · exact absurd (hk.trans (congrArg Prod.fst he).symm) hp
            · exact Or.inr hm
          · rintro (he | hm)
            · exact absurd (hk.trans (congrArg Prod.fst he).symm) hp
            · exact Or.inr hm
      · rw [if_neg hk]
        have hlt : ∀ x ∈ k2 :: l2, k.1 < x.1 := by
          intro x hx
          rcases List.mem_cons.1 hx with rfl | hx
          · exact lt_of_le_of_ne (hc.1 _ (by simp)) hk
          · have a1 := lt_of_le_of_ne (hc.1 k2 (by simp)) hk
            exact lt_of_lt_of_le a1 ((List.pairwise_cons.1 hc.2).1 x hx)
        have hnone : (k2 :: l2).filter (fun x => decide (x.1 = k.1)) = [] := by
          rw [List.filter_eq_nil_iff]
          intro x hx
          have := hlt x hx
          simp [ne_of_gt this]
        have hnot : k.1 ∉ ((k2.1, k2 :: ks2) :: rest).map Prod.fst := by
          intro hm
          obtain ⟨q, hq, he⟩ := List.mem_map.1 hm
          obtain ⟨p, ks⟩ := q
          have := (h2 p ks).1 hq
          simp only at he
          subst he
          rw [hnone] at this
          exact this.1 this.2
        refine ⟨List.nodup_cons.2 ⟨hnot, h1⟩, ?_⟩
        intro p ks
        rw [List.mem_cons, List.filter_cons, h2]
        by_cases hp : k.1 = p
        · subst hp
          simp only [decide_true, if_true, hnone, Prod.mk.injEq, true_and]
          constructor
          · rintro (rfl | ⟨h, h'⟩)
            · simp
            · exact absurd h' h
          · rintro ⟨-, rfl⟩; exact Or.inl rfl
        · simp only [hp, decide_false, Bool.false_eq_true, if_false, Prod.mk.injEq]
          constructor
          · rintro (⟨he, -⟩ | h)
            · exact absurd he.symm hp
            · exact h
          · exact Or.inr

theorem applyKeys_spec (act : T → R → R) (tr : Dict (Key P) T) (p : P) (ks : List (Key P))
    (hks : ∀ k ∈ ks, k.1 = p ∧ (tr.get? k).isSome) (hn : ks.Nodup) (recs : List R)
    (hlen : ∀ k ∈ ks, k.2 < recs.length) :
    ∃ recs', ks.foldlM (applyKey act tr) recs = some recs' ∧ recs'.length = recs.length ∧
      ∀ i, recs'[i]? = recs[i]?.map (fun r => match tr.get? (p, i) with
        | some t => if (p, i) ∈ ks then act t r else r
        | none => r) := by
  induction ks generalizing recs with
  | nil =>
    refine ⟨recs, rfl, rfl, fun i => ?_⟩
    cases hr : recs[i]? <;> cases tr.get? (p, i) <;> simp
  | cons k l ih =>
    obtain ⟨hkp, hkt⟩ := hks k (by simp)
    obtain ⟨t, ht⟩ := Option.isSome_iff_exists.1 hkt
    have hk := hlen k (by simp)
    have hnd := List.nodup_cons.1 hn
    have hstep : applyKey act tr recs k = some (recs.set k.2 (act t recs[k.2])) := by
      unfold applyKey
      rw [List.getElem?_eq_getElem hk, ht]
    obtain ⟨recs', h1, h2, h3⟩ := ih (fun x hx => hks x (List.mem_cons_of_mem _ hx)) hnd.2
      (recs.set k.2 (act t recs[k.2]))
      (fun x hx => by rw [List.length_set]; exact hlen x (List.mem_cons_of_mem _ hx))
    refine ⟨recs', ?_, by rw [h2, List.length_set], ?_⟩
    · rw [List.foldlM_cons, hstep]; exact h1
    · intro i
      rw [h3]
      have hkk : k = (p, k.2) := by rw [← hkp]
      by_cases hi : i = k.2
      · subst hi
        have hnl : (p, k.2) ∉ l := by rw [← hkk]; exact hnd.1
        have hmem : (p, k.2) ∈ k :: l := by rw [← hkk]; simp
        have ht' : tr.get? (p, k.2) = some t := by rw [← hkk]; exact ht
        rw [List.getElem?_set_self hk, List.getElem?_eq_getElem hk]
        simp only [Option.map_some, ht', hnl, hmem, if_false, if_true]
      · rw [List.getElem?_set_ne (Ne.symm hi)]
        have hiff : (p, i) ∈ k :: l ↔ (p, i) ∈ l := by
          rw [List.mem_cons]
          constructor
          · rintro (h | h)
            · exact absurd (congrArg Prod.snd h) hi
            · exact h
          · exact Or.inr
        simp only [hiff]

theorem applyAll_spec (act : T → R → R) (tr : Dict (Key P) T) (files : P → Option (List R))
    (gs : List (P × List (Key P))) (hg : (gs.map Prod.fst).Nodup)
    (hks : ∀ g ∈ gs, ∀ k ∈ g.2, k.1 = g.1 ∧ (tr.get? k).isSome)
    (hn : ∀ g ∈ gs, g.2.Nodup)
    (hlen : ∀ g ∈ gs, ∀ k ∈ g.2, ∀ recs, files g.1 = some recs → k.2 < recs.length)
    (out : Dict P (List R)) :
    ∃ out', gs.foldlM (applySubmodel act tr files) out = some out' ∧
      (∀ p, p ∉ gs.map Prod.fst → out'.get? p = out.get? p) ∧
      (∀ g ∈ gs, ∀ recs, files g.1 = some recs → ∃ recs', out'.get? g.1 = some recs' ∧
        recs'.length = recs.length ∧ ∀ i, recs'[i]? = recs[i]?.map (fun r => match tr.get? (g.1, i) with
          | some t => if (g.1, i) ∈ g.2 then act t r else r
          | none => r)) ∧
      (∀ g ∈ gs, files g.1 = none → out'.get? g.1 = out.get? g.1) := by
  induction gs generalizing out with
  | nil => exact ⟨out, rfl, by simp, by simp, by simp⟩
  | cons g l ih =>
    have hnd := List.nodup_cons.1 hg
    have ihl := ih hnd.2 (fun x hx => hks x (List.mem_cons_of_mem _ hx))
      (fun x hx => hn x (List.mem_cons_of_mem _ hx)) (fun x hx => hlen x (List.mem_cons_of_mem _ hx))
    cases hf : files g.1 with
    | none =>
      have hstep : applySubmodel act tr files out g = some out := by
        unfold applySubmodel; rw [hf]
      obtain ⟨out', h1, h2, h3, h4⟩ := ihl out
      refine ⟨out', ?_, ?_, ?_, ?_⟩
      · rw [List.foldlM_cons, hstep]; exact h1
      · intro p hp
        exact h2 p (fun h => hp (List.mem_cons_of_mem _ h))
      · intro x hx recs hr
        rcases List.mem_cons.1 hx with rfl | hx
        · rw [hf] at hr; cases hr
        · exact h3 x hx recs hr
      · intro x hx hr
        rcases List.mem_cons.1 hx with rfl | hx
        · exact h2 _ hnd.1
        · exact h4 x hx hr
    | some recs =>
      obtain ⟨recs', e1, e2, e3⟩ := applyKeys_spec act tr g.1 g.2 (hks g (by simp)) (hn g (by simp)) recs
        (fun k hk => hlen g (by simp) k hk recs hf)
      have hstep : applySubmodel act tr files out g = some (out.set g.1 recs') := by
        unfold applySubmodel; rw [hf]; simp only; rw [e1]; rfl
      obtain ⟨out', h1, h2, h3, h4⟩ := ihl (out.set g.1 recs')
      have hne : ∀ x ∈ l, x.1 ≠ g.1 := by
        intro x hx he
        exact hnd.1 (by rw [← he]; exact List.mem_map.2 ⟨x, hx, rfl⟩)
      refine ⟨out', ?_, ?_, ?_, ?_⟩
      · rw [List.foldlM_cons, hstep]; exact h1
      · intro p hp
        rw [h2 p (fun h => hp (List.mem_cons_of_mem _ h)), Dict.get?_set_ne]
        rintro rfl
        exact hp (by simp)
      · intro x hx recs2 hr
        rcases List.mem_cons.1 hx with rfl | hx
        · rw [hf] at hr
          cases hr
          refine ⟨recs', ?_, e2, e3⟩
          rw [h2 _ hnd.1]
          simp
        · exact h3 x hx recs2 hr
      · intro x hx hr
        rcases List.mem_cons.1 hx with rfl | hx
        · rw [hf] at hr; cases hr
        · rw [h4 x hx hr, Dict.get?_set_ne _ _ (hne x hx).symm]

/-- C70. Every partial reconstruction of every submodel is transformed once, with the inverse of the similarity found under
its own name, and written next to the original; submodels without reconstructions get no file. -/
theorem C70_align (shots : R → List S) (solve : Key P → T) (inv : T → T) (act : T → R → R)
    (subs : List (P × Option (List R))) (hs : (subs.map Prod.fst).Nodup) :
    ∃ out, alignSubmodels shots solve inv act subs = some out ∧
      ∀ p, out.get? p = match (Dict.get? subs p).join with
        | some (r :: l) => some ((r :: l).mapIdx (fun i r => act (inv (solve (p, i))) r))
        | _ => none := by
  obtain ⟨hw1, hl⟩ := get?_loadShots shots subs hs
  obtain ⟨hw2, ht⟩ := get?_transformations solve inv (loadShots shots subs)
  set m := loadShots shots subs with hm
  set tr := transformations solve inv m with htr
  have hkey : ∀ p i, (tr.get? (p, i)) = if i < (((Dict.get? subs p).join).getD []).length
      then some (inv (solve (p, i))) else none := by
    intro p i
    rw [ht]
    have : (p, i) ∈ m.keys ↔ i < (((Dict.get? subs p).join).getD []).length := by
      rw [Dict.mem_keys_iff, hl]; simp
    by_cases h : i < (((Dict.get? subs p).join).getD []).length
    · rw [if_pos h, if_pos (this.2 h)]
    · rw [if_neg h, if_neg (fun h' => h (this.1 h'))]
  set srt := tr.keys.mergeSort (fun a b => decide (a.1 ≤ b.1)) with hsrt
  have hperm : srt.Perm tr.keys := List.mergeSort_perm _ _
  have hsorted : srt.Pairwise (fun a b => a.1 ≤ b.1) := by
    have := List.pairwise_mergeSort (le := fun a b : Key P => decide (a.1 ≤ b.1))
      (by intro a b c; simp only [decide_eq_true_eq]; exact le_trans)
      (by intro a b; simp only [Bool.or_eq_true, decide_eq_true_eq]; exact le_total _ _) tr.keys
    simpa using this
  have hnd : srt.Nodup := hperm.nodup_iff.2 hw2
  obtain ⟨r1, r2⟩ := runs_spec srt hsorted
  have hmemk : ∀ k, k ∈ srt ↔ (tr.get? k).isSome := fun k => by
    rw [hperm.mem_iff, Dict.mem_keys_iff]
  have hsome : ∀ p i, (tr.get? (p, i)).isSome ↔ i < (((Dict.get? subs p).join).getD []).length := by
    intro p i
    rw [hkey]
    split <;> simp [*]
  obtain ⟨out, h1, h2, h3, h4⟩ := applyAll_spec act tr (fun p => (Dict.get? subs p).join) (runs srt) r1
    (by
      intro g hg k hk
      obtain ⟨-, he⟩ := (r2 g.1 g.2).1 hg
      rw [he, List.mem_filter] at hk
      exact ⟨by simpa using hk.2, (hmemk k).1 hk.1⟩)
    (by
      intro g hg
      obtain ⟨-, he⟩ := (r2 g.1 g.2).1 hg
      rw [he]
      exact hnd.filter _)
    (by
      intro g hg k hk recs hr
      obtain ⟨-, he⟩ := (r2 g.1 g.2).1 hg
      rw [he, List.mem_filter] at hk
      have hk1 : k.1 = g.1 := by simpa using hk.2
      have := (hsome k.1 k.2).1 ((hmemk k).1 hk.1)
      rw [hk1] at this
      rw [hr] at this
      exact this) []
  refine ⟨out, h1, ?_⟩
  intro p
  cases hj : (Dict.get? subs p).join with
  | none =>
    by_cases hp : p ∈ (runs srt).map Prod.fst
    · obtain ⟨g, hg, rfl⟩ := List.mem_map.1 hp
      rw [h4 g hg hj]; rfl
    · rw [h2 p hp]; rfl
  | some recs =>
    cases recs with
    | nil =>
      have hp : p ∉ (runs srt).map Prod.fst := by
        intro hp
        obtain ⟨g, hg, rfl⟩ := List.mem_map.1 hp
        obtain ⟨hne, he⟩ := (r2 g.1 g.2).1 hg
        obtain ⟨k, hk⟩ := List.exists_mem_of_ne_nil _ hne
        rw [he, List.mem_filter] at hk
        have hk1 : k.1 = g.1 := by simpa using hk.2
        have := (hsome k.1 k.2).1 ((hmemk k).1 hk.1)
        rw [hk1, hj] at this
        simp at this
      rw [h2 p hp]; rfl
    | cons r l =>
      have hmem0 : (p, 0) ∈ srt := by
        rw [hmemk, hsome, hj]; simp
      have hg : (p, srt.filter (fun k => k.1 = p)) ∈ runs srt := by
        rw [r2]
        refine ⟨?_, rfl⟩
        intro he
        rw [List.filter_eq_nil_iff] at he
        exact he (p, 0) hmem0 (by simp)
      obtain ⟨recs', e1, e2, e3⟩ := h3 _ hg (r :: l) hj
      simp only at e1 e3
      rw [e1]
      simp only [Option.some.injEq]
      refine List.ext_getElem? ?_
      intro i
      rw [e3, List.getElem?_mapIdx]
      cases hr : (r :: l)[i]? with
      | none => rfl
      | some x =>
        have hi : i < (r :: l).length := by
          by_contra hn
          rw [List.getElem?_eq_none (by omega)] at hr
          cases hr
        simp only [Option.map_some, hkey, hj, Option.getD_some, hi, if_true, Option.some.injEq]
        rw [if_pos]
        rw [List.mem_filter]
        refine ⟨?_, by simp⟩
        rw [hmemk, hsome, hj]
        exact hi

/-- The hypotheses are met: two submodels with three partial reconstructions that share an image. -/
example : softConstraints (P := Nat) (S := Nat) [((0, 0), [10, 11]), ((1, 0), [11])] =
    [.reconstruction (0, 0), .shot 10 (0, 0), .position 10 (0, 0), .motion (0, 0) 10, .shot 11 (0, 0),
      .position 11 (0, 0), .motion (0, 0) 11, .reconstruction (1, 0), .motion (1, 0) 11] := by decide

example : connected (P := Nat) (S := Nat) [((0, 0), [10, 11]), ((1, 0), [11]), ((1, 1), [12])] =
    [((0, 0), (1, 0))] := by decide

end Verif.SubmodelAlign
