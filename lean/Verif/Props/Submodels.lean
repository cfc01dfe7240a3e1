import Verif.Model.Submodels
import Mathlib.Data.List.Sort
import Mathlib.Data.List.Perm.Basic
import Mathlib.Algebra.Order.Floor.Ring
import Mathlib.Tactic.Linarith
import Mathlib.Tactic.FieldSimp

/-!
# C57: the submodels of a large dataset
-/
set_option linter.unusedSectionVars false
set_option linter.unusedSimpArgs false
namespace Verif.Submodels

theorem mem_union1d (a b : List Nat) (x : Nat) : x ∈ union1d a b ↔ x ∈ a ∨ x ∈ b := by
  unfold union1d
  rw [List.mem_dedup, List.mem_mergeSort, List.mem_append]

theorem mem_own (labels : List Nat) (c i : Nat) : i ∈ ownIndices labels c ↔ labels[i]? = some c := by
  unfold ownIndices
  rw [List.mem_filter, List.mem_range, decide_eq_true_eq]
  constructor
  · exact fun h => h.2
  · intro h
    refine ⟨?_, h⟩
    by_contra hn
    rw [List.getElem?_eq_none (by omega)] at h
    cases h

theorem mem_cluster (query : Nat → List Nat) (labels : List Nat) (c j : Nat) :
    j ∈ clusterWithNeighbors query labels c ↔
      labels[j]? = some c ∨ ∃ i, labels[i]? = some c ∧ j ∈ query i := by
  unfold clusterWithNeighbors
  rw [mem_union1d, mem_own, List.mem_flatMap]
  simp only [mem_own]

theorem mapM_mem {A B : Type} (f : A → Option B) (l : List A) (r : List B) (h : l.mapM f = some r) :
    (∀ b, b ∈ r ↔ ∃ a ∈ l, f a = some b) ∧ (∀ i : Nat, r[i]? = (l[i]?).bind f) := by
  induction l generalizing r with
  | nil =>
    simp at h
    subst h
    simp
  | cons a l ih =>
    rw [List.mapM_cons] at h
    cases ha : f a with
    | none => rw [ha] at h; cases h
    | some b =>
      rw [ha] at h
      cases hl : l.mapM f with
      | none => rw [hl] at h; cases h
      | some r' =>
        rw [hl] at h
        have : b :: r' = r := Option.some.inj h
        subst this
        obtain ⟨h1, h2⟩ := ih r' hl
        constructor
        · intro x
          rw [List.mem_cons, h1]
          constructor
          · rintro (rfl | ⟨y, hy, he⟩)
            · exact ⟨a, by simp, ha⟩
            · exact ⟨y, List.mem_cons_of_mem _ hy, he⟩
          · rintro ⟨y, hy, he⟩
            rcases List.mem_cons.1 hy with rfl | hy
            · rw [ha] at he; cases he; exact Or.inl rfl
            · exact Or.inr ⟨y, hy, he⟩
        · intro i
          cases i with
          | zero => simp [ha]
          | succ i => simpa using h2 i

theorem mapM_isSome {A B : Type} (f : A → Option B) (l : List A) :
    (l.mapM f).isSome ↔ ∀ a ∈ l, (f a).isSome := by
  induction l with
  | nil => simp
  | cons a l ih =>
    rw [List.mapM_cons]
    cases ha : f a with
    | none => simp [ha]
    | some b =>
      cases hl : l.mapM f with
      | none =>
        rw [hl] at ih
        simp only [Option.isSome_none, Bool.false_eq_true, false_iff] at ih
        constructor
        · intro h; cases h
        · intro h
          exact absurd (fun x hx => h x (List.mem_cons_of_mem _ hx)) ih
      | some r =>
        rw [hl] at ih
        simp only [Option.isSome_some, true_iff] at ih
        constructor
        · intro _ x hx
          rcases List.mem_cons.1 hx with rfl | hx
          · rw [ha]; rfl
          · exact ih x hx
        · intro _; rfl

/-! ### Clusters -/

/-- C57. A submodel holds the images of its cluster and the images within reach of one of them, nothing
else. -/
theorem C57_members (query : Nat → List Nat) (images : List String) (labels : List Nat) (K : Nat)
    (cs : List (List String)) (h : imageClusters query images labels K = some cs) :
    cs.length = K ∧ ∀ c g, cs[c]? = some g → ∀ im, (im ∈ g ↔ ∃ j, images[j]? = some im ∧
      (labels[j]? = some c ∨ ∃ i, labels[i]? = some c ∧ j ∈ query i)) := by
  unfold imageClusters at h
  obtain ⟨-, h2⟩ := mapM_mem _ _ _ h
  have hget : ∀ c, (addClusterNeighbors query labels K)[c]? =
      if c < K then some (clusterWithNeighbors query labels c) else none := by
    intro c
    unfold addClusterNeighbors
    rw [List.getElem?_map]
    by_cases hc : c < K
    · rw [if_pos hc, List.getElem?_range hc]; rfl
    · rw [if_neg hc, List.getElem?_eq_none (by simpa using hc)]; rfl
  constructor
  · have hlen := mapM_isSome (takeImages images) (addClusterNeighbors query labels K)
    rw [h] at hlen
    have hall := hlen.1 rfl
    apply le_antisymm
    · by_contra hlt
      push Not at hlt
      have := h2 K
      rw [hget K, if_neg (lt_irrefl _), List.getElem?_eq_getElem hlt] at this
      cases this
    · by_contra hlt
      push Not at hlt
      have := h2 cs.length
      rw [List.getElem?_eq_none (le_refl _), hget, if_pos hlt] at this
      have hs := hall (clusterWithNeighbors query labels cs.length)
        (List.mem_map.2 ⟨_, List.mem_range.2 hlt, rfl⟩)
      simp only [Option.bind_some] at this
      rw [← this] at hs
      cases hs
  · intro c g hg im
    have := h2 c
    rw [hg, hget] at this
    split at this
    · simp only [Option.bind_some] at this
      unfold takeImages at this
      split at this
      · cases this
      · obtain ⟨h3, -⟩ := mapM_mem _ _ _ this.symm
        rw [h3]
        constructor
        · rintro ⟨j, hj, he⟩
          exact ⟨j, he, (mem_cluster query labels c j).1 hj⟩
        · rintro ⟨j, he, hj⟩
          exact ⟨j, (mem_cluster query labels c j).2 hj, he⟩
    · cases this

/-- C57. Every image with a position is in a submodel, namely in the one of its own cluster. -/
theorem C57_cover (query : Nat → List Nat) (images : List String) (labels : List Nat) (K : Nat)
    (cs : List (List String)) (h : imageClusters query images labels K = some cs)
    (hl : labels.length = images.length) (hK : ∀ c ∈ labels, c < K) (j : Nat) (im : String)
    (hj : images[j]? = some im) :
    ∃ c g, labels[j]? = some c ∧ cs[c]? = some g ∧ im ∈ g := by
  have hlt : j < labels.length := by
    rw [hl]
    by_contra hn
    rw [List.getElem?_eq_none (by omega)] at hj
    cases hj
  obtain ⟨hlen, hm⟩ := C57_members query images labels K cs h
  have hc : labels[j] < cs.length := by rw [hlen]; exact hK _ (List.getElem_mem hlt)
  refine ⟨labels[j], cs[labels[j]], List.getElem?_eq_getElem hlt, List.getElem?_eq_getElem hc, ?_⟩
  exact (hm _ _ (List.getElem?_eq_getElem hc) im).2
    ⟨j, hj, Or.inl (List.getElem?_eq_getElem hlt)⟩

theorem sorted_union1d (a b : List Nat) : (union1d a b).Pairwise (· < ·) := by
  unfold union1d
  have h1 : ((a ++ b).mergeSort (fun x y => decide (x ≤ y))).Pairwise (· ≤ ·) := by
    have := List.pairwise_mergeSort (le := fun x y : Nat => decide (x ≤ y))
      (by intro a b c; simp; omega) (by intro a b; simp; omega) (a ++ b)
    simpa using this
  have h2 := h1.sublist (List.dedup_sublist _)
  have h3 := List.nodup_dedup ((a ++ b).mergeSort (fun x y => decide (x ≤ y)))
  exact (h2.and h3).imp (fun h => lt_of_le_of_ne h.1 h.2)

theorem mapM_sublist {A : Type} (l : List A) (js : List Nat) (hs : js.Pairwise (· < ·)) (r : List A)
    (h : js.mapM (fun i => l[i]?) = some r) : r.Sublist l := by
  have key : ∀ (l : List A) (n : Nat) (js : List Nat) (r : List A), js.Pairwise (· < ·) →
      (∀ j ∈ js, n ≤ j) → js.mapM (fun i => l[i - n]?) = some r → r.Sublist l := by
    intro l
    induction l with
    | nil =>
      intro n js r _ _ h
      cases js with
      | nil => simp at h; subst h; simp
      | cons j js => rw [List.mapM_cons] at h; simp at h
    | cons a l ih =>
      intro n js r hs hn h
      cases js with
      | nil => simp at h; subst h; simp
      | cons j js =>
        have hrest : ∀ j' ∈ js, n + 1 ≤ j' := by
          intro j' hj'
          have h1 := (List.pairwise_cons.1 hs).1 j' hj'
          have h2 := hn j (by simp)
          omega
        have hcong : ∀ (js' : List Nat), (∀ j' ∈ js', n + 1 ≤ j') →
            js'.mapM (fun i => (a :: l)[i - n]?) = js'.mapM (fun i => l[i - (n + 1)]?) := by
          intro js' h'
          induction js' with
          | nil => rfl
          | cons x xs ihx =>
            rw [List.mapM_cons, List.mapM_cons, ihx (fun y hy => h' y (List.mem_cons_of_mem _ hy))]
            have hx := h' x (by simp)
            rw [show x - n = (x - (n + 1)) + 1 by omega, List.getElem?_cons_succ]
        by_cases hj : j = n
        · subst hj
          rw [List.mapM_cons, hcong js hrest] at h
          cases hm : js.mapM (fun i => l[i - (j + 1)]?) with
          | none => rw [hm] at h; simp at h
          | some r' =>
            rw [hm] at h
            simp at h
            subst h
            exact (ih (j + 1) js r' (List.pairwise_cons.1 hs).2 hrest hm).cons_cons a
        · have hall : ∀ j' ∈ j :: js, n + 1 ≤ j' := by
            intro j' hj'
            rcases List.mem_cons.1 hj' with rfl | hj'
            · have := hn j' (by simp); omega
            · exact hrest j' hj'
          rw [hcong (j :: js) hall] at h
          exact (ih (n + 1) (j :: js) r hs hall h).cons a
  exact key l 0 js r hs (by simp) (by simpa using h)

/-- C57. A submodel lists its images in the order of the dataset, each once. -/
theorem C57_order (query : Nat → List Nat) (images : List String) (labels : List Nat) (K : Nat)
    (cs : List (List String)) (h : imageClusters query images labels K = some cs) (g : List String)
    (hg : g ∈ cs) : g.Sublist images := by
  unfold imageClusters at h
  obtain ⟨h1, -⟩ := mapM_mem _ _ _ h
  obtain ⟨cl, hcl, ht⟩ := (h1 g).1 hg
  obtain ⟨c, -, rfl⟩ := List.mem_map.1 hcl
  unfold takeImages at ht
  split at ht
  · cases ht
  · exact mapM_sublist images _ (sorted_union1d _ _) g ht

/-- C57. The split fails if and only if some cluster has no image at all. -/
theorem C57_fails_iff (query : Nat → List Nat) (images : List String) (labels : List Nat) (K : Nat)
    (hl : labels.length = images.length) (hq : ∀ i < images.length, ∀ j ∈ query i, j < images.length) :
    imageClusters query images labels K = none ↔ ∃ c < K, c ∉ labels := by
  have hsome := mapM_isSome (takeImages images) (addClusterNeighbors query labels K)
  have hlt : ∀ c i, labels[i]? = some c → i < images.length := by
    intro c i h
    rw [← hl]
    by_contra hn
    rw [List.getElem?_eq_none (by omega)] at h
    cases h
  have htake : ∀ c, (takeImages images (clusterWithNeighbors query labels c)).isSome ↔ c ∈ labels := by
    intro c
    unfold takeImages
    constructor
    · intro h
      split at h
      · cases h
      · rename_i hne
        obtain ⟨j, hj⟩ := List.exists_mem_of_ne_nil _ hne
        rcases (mem_cluster query labels c j).1 hj with h | ⟨i, h, -⟩ <;>
          exact List.mem_of_getElem? h
    · intro h
      obtain ⟨i, hi, rfl⟩ := List.getElem_of_mem h
      rw [if_neg]
      · rw [mapM_isSome]
        intro j hj
        have hjl : j < images.length := by
          rcases (mem_cluster query labels _ j).1 hj with h | ⟨k, h, hk⟩
          · exact hlt _ j h
          · exact hq k (hlt _ k h) j hk
        rw [List.getElem?_eq_getElem hjl]; rfl
      · intro he
        have := (mem_cluster query labels labels[i] i).2 (Or.inl (List.getElem?_eq_getElem hi))
        rw [he] at this
        cases this
  rw [← Option.not_isSome_iff_eq_none]
  unfold imageClusters
  rw [hsome]
  push Not
  constructor
  · rintro ⟨cl, hcl, h⟩
    obtain ⟨c, hc, rfl⟩ := List.mem_map.1 hcl
    exact ⟨c, List.mem_range.1 hc, fun hm => h ((htake c).2 hm)⟩
  · rintro ⟨c, hc, h⟩
    exact ⟨_, List.mem_map.2 ⟨c, List.mem_range.2 hc, rfl⟩, fun hs => h ((htake c).1 hs)⟩

/-- C57. Images without a complete position take no part. -/
theorem C57_positioned {F : Type} (images : List (String × Gps F)) (im : String) (lat lon : F) :
    (im, lat, lon) ∈ imageList images ↔ (im, some (some lat, some lon)) ∈ images := by
  unfold imageList
  rw [List.mem_filterMap]
  constructor
  · rintro ⟨⟨a, g⟩, hm, he⟩
    rcases g with - | ⟨- | x, - | y⟩ <;> simp at he
    obtain ⟨rfl, rfl, rfl⟩ := he
    exact hm
  · intro h
    exact ⟨_, h, rfl⟩

/-- C57. The number of clusters is the smallest that keeps the average at most `submodel_size`. -/
theorem C57_count (n : Nat) (size : ℚ) (hs : 0 < size) (k : ℤ) :
    clusterCount n size ≤ k ↔ (n : ℚ) ≤ k * size := by
  unfold clusterCount
  rw [Int.ceil_le, div_le_iff₀ hs]

/-! ### The files -/

/-- C57. The list of images with positions is read back as written, if no name has a tab or a newline. -/
theorem C57_list_roundtrip {F : Type} (fmt : F → List Char) (parse : List Char → Option F)
    (hp : ∀ x, parse (fmt x) = some x) (hf : ∀ x, '\t' ∉ fmt x ∧ '\n' ∉ fmt x)
    (l : List (List Char × F × F)) (hn : ∀ q ∈ l, '\t' ∉ q.1 ∧ '\n' ∉ q.1) :
    readList parse (writeList fmt l) = some l := by
  unfold readList writeList
  rw [Text.segs_unlines]
  · induction l with
    | nil => rfl
    | cons q l ih =>
      have hq := hn q (by simp)
      rw [List.map_cons, List.mapM_cons, ih (fun q hq => hn q (List.mem_cons_of_mem _ hq))]
      have : readLine parse (Text.joinSep '\t' [q.1, fmt q.2.1, fmt q.2.2]) = some q := by
        unfold readLine
        rw [Text.splitAll_joinSep (by simp)]
        · simp [hp]
        · intro x hx
          simp only [List.mem_cons, List.not_mem_nil, or_false] at hx
          rcases hx with rfl | rfl | rfl
          · exact hq.1
          · exact (hf _).1
          · exact (hf _).1
      rw [this]
      rfl
  · intro x hx
    obtain ⟨q, hq, rfl⟩ := List.mem_map.1 hx
    refine Text.not_mem_joinSep (by decide) ?_
    intro y hy
    simp only [List.mem_cons, List.not_mem_nil, or_false] at hy
    rcases hy with rfl | rfl | rfl
    · exact (hn q hq).2
    · exact (hf _).2
    · exact (hf _).2

/-- C57. A tab in an image name makes the list unreadable. -/
theorem C57_tab {F : Type} (fmt : F → List Char) (parse : List Char → Option F)
    (hf : ∀ x, '\t' ∉ fmt x ∧ '\n' ∉ fmt x) (lat lon : F) :
    readList parse (writeList fmt [("a\tb".toList, lat, lon)]) = none := by
  unfold readList writeList
  rw [Text.segs_unlines]
  · have : readLine parse (Text.joinSep '\t' ["a\tb".toList, fmt lat, fmt lon]) = none := by
      unfold readLine
      have : Text.joinSep '\t' ["a\tb".toList, fmt lat, fmt lon] =
          Text.joinSep '\t' [['a'], ['b'], fmt lat, fmt lon] := rfl
      rw [this, Text.splitAll_joinSep (by simp)]
      intro x hx
      simp only [List.mem_cons, List.not_mem_nil, or_false] at hx
      rcases hx with rfl | rfl | rfl | rfl
      · decide
      · decide
      · exact (hf _).1
      · exact (hf _).1
    simp only [List.map_cons, List.map_nil]
    rw [List.mapM_cons, this]
    rfl
  · intro x hx
    simp only [List.map_cons, List.map_nil, List.mem_singleton] at hx
    subst hx
    refine Text.not_mem_joinSep (by decide) ?_
    intro y hy
    simp only [List.mem_cons, List.not_mem_nil, or_false] at hy
    rcases hy with rfl | rfl | rfl
    · decide
    · exact (hf _).2
    · exact (hf _).2

theorem imageCluster_mem (l : List (String × String)) (im g : String)
    (h : (imageCluster l).get? im = some g) : (im, g) ∈ l := by
  unfold imageCluster at h
  have key : ∀ (l : List (String × String)) (m : Dict String String),
      (l.foldl (fun m q => Dict.set m q.1 q.2) m).get? im = some g → (im, g) ∈ l ∨ m.get? im = some g := by
    intro l
    induction l with
    | nil => intro m h; exact Or.inr h
    | cons q l ih =>
      intro m h
      rw [List.foldl_cons] at h
      rcases ih _ h with h | h
      · exact Or.inl (List.mem_cons_of_mem _ h)
      · rw [Dict.get?_set] at h
        split at h
        · rename_i he
          cases h
          left
          rw [← he]
          simp
        · exact Or.inr h
  rcases key l [] h with h | h
  · exact h
  · cases h

theorem mem_groupNames (l : List (String × String)) (g : String) :
    g ∈ groupNames l ↔ ∃ im, (im, g) ∈ l := by
  unfold groupNames
  rw [List.mem_mergeSort, Dict.mem_keys_groupBy]
  constructor
  · rintro ⟨⟨a, b⟩, hm, rfl⟩; exact ⟨a, hm⟩
  · rintro ⟨im, hm⟩; exact ⟨(im, g), hm, rfl⟩

theorem sorted_groupNames (l : List (String × String)) : (groupNames l).Pairwise (· < ·) := by
  unfold groupNames
  have h1 : ((Dict.groupBy Prod.snd l).keys.mergeSort (fun a b => decide (a ≤ b))).Pairwise (· ≤ ·) := by
    have := List.pairwise_mergeSort (le := fun x y : String => decide (x ≤ y))
      (by intro a b c; simp only [decide_eq_true_eq]; exact le_trans)
      (by intro a b; simp only [Bool.or_eq_true, decide_eq_true_eq]; exact le_total a b)
      (Dict.groupBy Prod.snd l).keys
    simpa using this
  have h3 : ((Dict.groupBy Prod.snd l).keys.mergeSort (fun a b => decide (a ≤ b))).Nodup :=
    (List.mergeSort_perm _ _).nodup_iff.2 (Dict.wf_groupBy _ _)
  exact (h1.and h3).imp (fun h => lt_of_le_of_ne h.1 h.2)

/-- C57. With an image groups file the images of a group, and only they, share a label; groups are
numbered in the order of their names. -/
theorem C57_groups (l : List (String × String)) (a b ga gb : String)
    (ha : (imageCluster l).get? a = some ga) (hb : (imageCluster l).get? b = some gb) :
    ∃ i j, groupLabel l a = some i ∧ groupLabel l b = some j ∧ i < (groupNames l).length ∧
      (i < j ↔ ga < gb) ∧ (i = j ↔ ga = gb) := by
  have hma := (mem_groupNames l ga).2 ⟨a, imageCluster_mem l a ga ha⟩
  have hmb := (mem_groupNames l gb).2 ⟨b, imageCluster_mem l b gb hb⟩
  have hia := List.idxOf_lt_length_iff.2 hma
  have hib := List.idxOf_lt_length_iff.2 hmb
  have hs := sorted_groupNames l
  have hlt : ∀ i j (hi : i < (groupNames l).length) (hj : j < (groupNames l).length), i < j →
      (groupNames l)[i] < (groupNames l)[j] := fun i j hi hj h => List.pairwise_iff_getElem.1 hs i j hi hj h
  refine ⟨_, _, by rw [groupLabel, ha]; rfl, by rw [groupLabel, hb]; rfl, hia, ?_, ?_⟩
  · constructor
    · intro h
      have := hlt _ _ hia hib h
      rwa [List.getElem_idxOf, List.getElem_idxOf] at this
    · intro h
      by_contra hn
      rcases lt_or_eq_of_le (not_lt.1 hn) with h' | h'
      · have := hlt _ _ hib hia h'
        rw [List.getElem_idxOf, List.getElem_idxOf] at this
        exact lt_asymm h this
      · have : ga = gb := (List.idxOf_inj hma).1 h'.symm
        exact absurd this (ne_of_lt h)
  · exact List.idxOf_inj hma

/-- C57. The groups file must have two words per line and mention every image with a position. -/
theorem C57_groups_total (lines : List (List String)) (images : List String) :
    (readGroups lines images).isSome ↔
      ∃ l : List (String × String), lines = l.map (fun q => [q.1, q.2]) ∧
        ∀ im ∈ images, ∃ g, (im, g) ∈ l := by
  have hline : ∀ (lines : List (List String)) (l : List (String × String)),
      lines.mapM readGroupLine = some l ↔ lines = l.map (fun q => [q.1, q.2]) := by
    intro lines
    induction lines with
    | nil => intro l; cases l <;> simp
    | cons w lines ih =>
      intro l
      rw [List.mapM_cons]
      match w with
      | [] => cases l <;> simp [readGroupLine]
      | [x] => cases l <;> simp [readGroupLine]
      | [x, y] =>
        cases l with
        | nil =>
          cases h : lines.mapM readGroupLine <;> simp [readGroupLine, h]
        | cons q l =>
          have := ih l
          cases h : lines.mapM readGroupLine with
          | none =>
            rw [h] at this
            simp only [readGroupLine, Option.pure_def, Option.bind_eq_bind, Option.bind_some,
              Option.bind_none, List.map_cons, List.cons.injEq]
            constructor
            · intro h; cases h
            · rintro ⟨-, h⟩; exact absurd (this.2 h) (by simp)
          | some r =>
            rw [h] at this
            simp only [readGroupLine, Option.pure_def, Option.bind_eq_bind, Option.bind_some,
              List.map_cons, List.cons.injEq, Option.some.injEq] at this ⊢
            rw [this]
            constructor
            · rintro ⟨rfl, h⟩; simp [h]
            · rintro ⟨⟨rfl, rfl, -⟩, h⟩; exact ⟨rfl, h⟩
      | x :: y :: z :: w => cases l <;> simp [readGroupLine]
  have hget : ∀ (l : List (String × String)) (im : String),
      (groupLabel l im).isSome ↔ ∃ g, (im, g) ∈ l := by
    intro l im
    unfold groupLabel
    rw [Option.isSome_map]
    constructor
    · intro h
      obtain ⟨g, hg⟩ := Option.isSome_iff_exists.1 h
      exact ⟨g, imageCluster_mem l im g hg⟩
    · rintro ⟨g, hg⟩
      have key : ∀ (l : List (String × String)) (m : Dict String String),
          ((im, g) ∈ l ∨ (m.get? im).isSome) →
          ((l.foldl (fun m q => Dict.set m q.1 q.2) m).get? im).isSome := by
        intro l
        induction l with
        | nil => rintro m (h | h); cases h; exact h
        | cons q l ih =>
          rintro m h
          rw [List.foldl_cons]
          refine ih _ ?_
          rcases h with h | h
          · rcases List.mem_cons.1 h with rfl | h
            · right; simp
            · exact Or.inl h
          · right
            rw [Dict.get?_set]
            split
            · rfl
            · exact h
      exact key l [] (Or.inl hg)
  unfold readGroups
  constructor
  · intro h
    cases hl : lines.mapM readGroupLine with
    | none => rw [hl] at h; cases h
    | some l =>
      rw [hl] at h
      simp only [Option.bind_some, Option.isSome_map] at h
      rw [mapM_isSome] at h
      exact ⟨l, (hline lines l).1 hl, fun im him => (hget l im).1 (h im him)⟩
  · rintro ⟨l, hl, him⟩
    rw [(hline lines l).2 hl]
    simp only [Option.bind_some, Option.isSome_map]
    rw [mapM_isSome]
    exact fun im h => (hget l im).2 (him im h)

/-! ### The directories -/

variable {P : Type} [DecidableEq P]

/-- C57. The submodels found are those before the first gap. -/
theorem C57_paths (path : Nat → P) (fs : Fs P) (i : Nat) :
    i ∈ submodelIndices path fs ↔ i < 999999 ∧ ∀ j ≤ i, path j ∈ fs.keys := by
  unfold submodelIndices
  have key : ∀ (p : Nat → Bool) (n s : Nat), i ∈ (List.range' s n).takeWhile p ↔
      (s ≤ i ∧ i < s + n ∧ ∀ j, s ≤ j → j ≤ i → p j = true) := by
    intro p n
    induction n with
    | zero => intro s; simp; omega
    | succ n ih =>
      intro s
      rw [List.range'_succ, List.takeWhile_cons]
      by_cases hp : p s = true
      · rw [if_pos hp, List.mem_cons, ih]
        constructor
        · rintro (rfl | ⟨h1, h2, h3⟩)
          · refine ⟨le_refl _, by omega, ?_⟩
            intro j hj1 hj2
            have : j = i := by omega
            rw [this]; exact hp
          · refine ⟨by omega, by omega, ?_⟩
            intro j hj1 hj2
            by_cases hj : j = s
            · rw [hj]; exact hp
            · exact h3 j (by omega) hj2
        · rintro ⟨h1, h2, h3⟩
          by_cases h : i = s
          · exact Or.inl h
          · exact Or.inr ⟨by omega, by omega, fun j hj1 hj2 => h3 j (by omega) hj2⟩
      · rw [if_neg hp]
        constructor
        · intro h; cases h
        · rintro ⟨h1, h2, h3⟩
          exact absurd (h3 s (le_refl _) h1) hp
  rw [List.range_eq_range', key]
  simp only [Nat.zero_le, Nat.zero_add, true_and, forall_const, Dict.has_iff_mem]

theorem createOne_links (l acc : List String) (h : (acc ++ l).Nodup) :
    l.foldl (fun l im => if im ∈ l then l else l ++ [im]) acc = acc ++ l := by
  induction l generalizing acc with
  | nil => simp
  | cons a l ih =>
    have hna : a ∉ acc := by
      intro ha
      have := List.disjoint_of_nodup_append h
      exact this ha (by simp)
    rw [List.foldl_cons, if_neg hna, ih]
    · simp
    · simpa using h

theorem create_get (path : Nat → P) (hinj : ∀ i j, path i = path j → i = j)
    (clusters : List (List String)) (n : Nat) (fs : Fs P)
    (hfree : ∀ i, n ≤ i → fs.get? (path i) = none) (hnd : ∀ g ∈ clusters, g.Nodup) :
    (∀ i, n ≤ i → ((clusters.zipIdx n).foldl (createOne path) fs).get? (path i) =
      (clusters[i - n]?).map (fun g => ⟨g, g⟩)) ∧
    (∀ p, (∀ i, n ≤ i → path i ≠ p) →
      ((clusters.zipIdx n).foldl (createOne path) fs).get? p = fs.get? p) := by
  induction clusters generalizing n fs with
  | nil => exact ⟨fun i hi => by simpa using hfree i hi, fun p _ => rfl⟩
  | cons g l ih =>
    rw [List.zipIdx_cons, List.foldl_cons]
    have hone : createOne path fs (g, n) = fs.set (path n) ⟨g, g⟩ := by
      unfold createOne
      simp only [hfree n (le_refl _), Option.map_none, Option.getD_none]
      rw [createOne_links g [] (by simpa using hnd g (by simp))]
      rfl
    have hne : ∀ i, n + 1 ≤ i → path n ≠ path i := by
      intro i hi he
      have := hinj _ _ he
      omega
    obtain ⟨h1, h2⟩ := ih (n + 1) (createOne path fs (g, n))
      (by intro i hi; rw [hone, Dict.get?_set_ne _ _ (hne i hi)]; exact hfree i (by omega))
      (fun g hg => hnd g (List.mem_cons_of_mem _ hg))
    constructor
    · intro i hi
      by_cases h : i = n
      · subst h
        rw [h2 _ (fun j hj => (hne j hj).symm), hone]
        simp
      · rw [h1 i (by omega), show i - n = (i - (n + 1)) + 1 by omega]
        rfl
    · intro p hp
      rw [h2 p (fun i hi => hp i (by omega)), hone, Dict.get?_set_ne _ _ (hp n (le_refl _))]

/-- C57. After any runs, completed or stopped at any point, a complete run leaves exactly its own submodels
with exactly their images, and exactly they are found. Other directories are not touched. -/
theorem C57_history (inside : P → Bool) (path : Nat → P) (hin : ∀ i, inside (path i) = true)
    (hinj : ∀ i j, path i = path j → i = j) (fs : Fs P) (hfs : fs.Wf)
    (history : List (List (List String) × Nat)) (clusters : List (List String)) (n : Nat)
    (hn : clusters.length ≤ n) (hnd : ∀ g ∈ clusters, g.Nodup) :
    let fs' := run inside path (history.foldl (run inside path) fs) (clusters, n)
    (∀ i, fs'.get? (path i) = (clusters[i]?).map (fun g => ⟨g, g⟩)) ∧
    submodelIndices path fs' = List.range (min clusters.length 999999) ∧
    (∀ p, inside p = false → fs'.get? p = fs.get? p) := by
  have hwf : ∀ fs : Fs P, fs.Wf → ∀ r, (run inside path fs r).Wf := by
    intro fs h r
    unfold run createSubmodels removeSubmodels
    have : ∀ (l : List (List String × Nat)) (fs : Fs P), fs.Wf → (l.foldl (createOne path) fs).Wf := by
      intro l
      induction l with
      | nil => exact fun fs h => h
      | cons q l ih => exact fun fs h => ih _ (Dict.wf_set h _ _)
    exact this _ _ (Dict.wf_filterKV h _)
  have hwfh : (history.foldl (run inside path) fs).Wf := by
    induction history generalizing fs with
    | nil => exact hfs
    | cons r l ih => exact ih _ (hwf fs hfs r)
  have hrun : ∀ (fs : Fs P) (hw : fs.Wf) (cl : List (List String)), (∀ p, inside p = false →
      (createSubmodels path (removeSubmodels inside fs) cl).get? p = fs.get? p) := by
    intro fs hw cl p hp
    unfold createSubmodels
    have key : ∀ (l : List (List String × Nat)) (fs : Fs P),
        (l.foldl (createOne path) fs).get? p = fs.get? p := by
      intro l
      induction l with
      | nil => exact fun fs => rfl
      | cons q l ih =>
        intro fs
        rw [List.foldl_cons, ih]
        unfold createOne
        rw [Dict.get?_set_ne]
        intro he
        rw [← he, hin] at hp
        cases hp
    rw [key]
    unfold removeSubmodels
    rw [Dict.get?_filterKV hw]
    cases fs.get? p <;> simp [hp]
  have hout : ∀ p, inside p = false → (history.foldl (run inside path) fs).get? p = fs.get? p := by
    intro p hp
    clear hwfh
    induction history generalizing fs with
    | nil => rfl
    | cons r l ih =>
      rw [List.foldl_cons, ih _ (hwf fs hfs r)]
      exact hrun fs hfs _ p hp
  intro fs'
  set base := history.foldl (run inside path) fs with hbase
  have hfree : ∀ i, 0 ≤ i → (removeSubmodels inside base).get? (path i) = none := by
    intro i _
    unfold removeSubmodels
    rw [Dict.get?_filterKV hwfh]
    cases base.get? (path i) <;> simp [hin]
  have htake : clusters.take n = clusters := List.take_of_length_le hn
  obtain ⟨h1, h2⟩ := create_get path hinj clusters 0 (removeSubmodels inside base) hfree hnd
  have hfs' : fs' = (clusters.zipIdx 0).foldl (createOne path) (removeSubmodels inside base) := by
    show run inside path base (clusters, n) = _
    unfold run createSubmodels
    rw [htake]
  have hget : ∀ i, fs'.get? (path i) = (clusters[i]?).map (fun g => ⟨g, g⟩) := by
    intro i
    rw [hfs', h1 i (Nat.zero_le _)]
    rfl
  refine ⟨hget, ?_, ?_⟩
  · have hmem : ∀ i, i ∈ submodelIndices path fs' ↔ i ∈ List.range (min clusters.length 999999) := by
      intro i
      rw [C57_paths, List.mem_range, lt_min_iff]
      have hk : ∀ j, path j ∈ fs'.keys ↔ j < clusters.length := by
        intro j
        rw [Dict.mem_keys_iff, hget, Option.isSome_map]
        simp
      simp only [hk]
      constructor
      · exact fun h => ⟨h.2 i (le_refl _), h.1⟩
      · exact fun h => ⟨h.2, fun j hj => lt_of_le_of_lt hj h.1⟩
    have hsub : (submodelIndices path fs').Sublist (List.range 999999) := by
      unfold submodelIndices; exact (List.takeWhile_prefix _).sublist
    have hp : (submodelIndices path fs').Perm (List.range (min clusters.length 999999)) := by
      rw [List.perm_ext_iff_of_nodup (List.nodup_range.sublist hsub) List.nodup_range]
      exact hmem
    refine List.Perm.eq_of_pairwise (le := (· < ·)) ?_ ?_ ?_ hp
    · intro a b _ _ h1 h2; exact absurd h1 (lt_asymm h2)
    · exact List.pairwise_lt_range.sublist hsub
    · exact List.pairwise_lt_range
  · intro p hp
    have : fs'.get? p = base.get? p := by
      rw [hfs']
      have := hrun base hwfh clusters p hp
      unfold createSubmodels at this
      exact this
    rw [this, hout p hp]

theorem natOf_pad (k : Nat) (ds : List Char) : Text.natOf (List.replicate k '0' ++ ds) = Text.natOf ds := by
  unfold Text.natOf
  rw [List.foldl_append]
  congr 1
  induction k with
  | zero => rfl
  | succ k ih => rw [List.replicate_succ, List.foldl_cons]; exact ih

/-- C57. The default path template gives different numbers different paths, all below the default submodels
folder: the number in at least four digits. -/
theorem C57_default_template :
    (∀ i, defaultInside (defaultPath i) = true) ∧ (∀ i j, defaultPath i = defaultPath j → i = j) ∧
    (∀ i, ∃ ds : List Char, defaultPath i = "submodels/submodel_".toList ++ ds ∧ Text.natOf ds = i ∧
      4 ≤ ds.length ∧ ∀ c ∈ ds, ∃ d, d < 10 ∧ c = Text.digitChar d) := by
  refine ⟨?_, ?_, ?_⟩
  · intro i
    unfold defaultInside defaultPath
    rw [List.isPrefixOf_iff_prefix]
    exact ⟨"submodel_".toList ++ pad4 i, rfl⟩
  · intro i j h
    unfold defaultPath at h
    have h' := List.append_cancel_left h
    unfold pad4 at h'
    have := congrArg Text.natOf h'
    rwa [natOf_pad, natOf_pad, (Text.fmtNat_spec i).1, (Text.fmtNat_spec j).1] at this
  · intro i
    obtain ⟨h1, h2, h3⟩ := Text.fmtNat_spec i
    refine ⟨pad4 i, rfl, ?_, ?_, ?_⟩
    · unfold pad4; rw [natOf_pad, h1]
    · unfold pad4; rw [List.length_append, List.length_replicate]; omega
    · intro c hc
      unfold pad4 at hc
      rcases List.mem_append.1 hc with hc | hc
      · rw [List.mem_replicate] at hc
        exact ⟨0, by omega, hc.2⟩
      · exact h3 c hc

/-- C57. If the template does not point below the submodels folder, submodels of earlier runs are found
after later runs. -/
theorem C57_stale : ∃ (inside : Nat → Bool) (h : List (List (List String) × Nat)),
    submodelIndices id (run inside id (h.foldl (run inside id) []) ([["a"]], 1)) = [0, 1] := by
  refine ⟨fun _ => false, [([["a"], ["b"]], 2)], ?_⟩
  have h : run (fun _ => false) id (List.foldl (run (fun _ => false) id) [] [([["a"], ["b"]], 2)])
      ([["a"]], 1) = [(0, ⟨["a"], ["a"]⟩), (1, ⟨["b"], ["b"]⟩)] := by decide +kernel
  rw [h]
  have hm := fun i => C57_paths (P := Nat) id [(0, ⟨["a"], ["a"]⟩), (1, ⟨["b"], ["b"]⟩)] i
  unfold submodelIndices
  rw [show (999999 : Nat) = 999996 + 1 + 1 + 1 from rfl, List.range_succ_eq_map, List.range_succ_eq_map,
    List.range_succ_eq_map]
  rfl

/-! ### The hypotheses are met -/

/-- Five images on a line, two clusters, overlap one. -/
def sampleQuery (i : Nat) : List Nat := ([i + 1, i, i - 1]).filter (fun j => decide (j < 5))

example : ∃ cs, imageClusters sampleQuery ["a", "b", "c", "d", "e"] [0, 0, 0, 1, 1] 2 = some cs ∧
    ∃ g, cs[1]? = some g ∧ "c" ∈ g ∧ "d" ∈ g := by
  have hne : imageClusters sampleQuery ["a", "b", "c", "d", "e"] [0, 0, 0, 1, 1] 2 ≠ none := by
    rw [Ne, C57_fails_iff _ _ _ _ rfl (by decide)]
    decide
  obtain ⟨cs, hcs⟩ := Option.ne_none_iff_exists'.1 hne
  obtain ⟨hlen, hm⟩ := C57_members _ _ _ _ cs hcs
  have h1 : 1 < cs.length := by omega
  refine ⟨cs, hcs, cs[1], List.getElem?_eq_getElem h1, ?_, ?_⟩
  · exact (hm 1 _ (List.getElem?_eq_getElem h1) "c").2 ⟨2, rfl, Or.inr ⟨3, rfl, by decide⟩⟩
  · exact (hm 1 _ (List.getElem?_eq_getElem h1) "d").2 ⟨3, rfl, Or.inl rfl⟩

/-- A cluster without images. -/
example : imageClusters sampleQuery ["a", "b", "c", "d", "e"] [0, 0, 0, 2, 2] 3 = none := by
  rw [C57_fails_iff _ _ _ _ rfl (by decide)]
  decide

example : (readGroups [["a", "north"], ["b", "south"], ["c", "north"]] ["b", "a"]).isSome :=
  (C57_groups_total _ _).2 ⟨[("a", "north"), ("b", "south"), ("c", "north")], rfl, by simp⟩

example : defaultPath 12 = "submodels/submodel_0012".toList := by decide +kernel

end Verif.Submodels
