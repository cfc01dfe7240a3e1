import Verif.Model.PatchMatch
import Verif.Props.Depthmap
import Mathlib.Data.List.Sort

/-!
# C80: depthmaps of the estimator
-/
set_option linter.unusedSectionVars false
set_option linter.unusedSimpArgs false
namespace Verif.PatchMatch
open Verif.Depthmap

/-! ### Specification -/

/-- The pixels whose patch is inside the image. -/
def Est.inner (e : Est) (i j : ℤ) : Prop :=
  (e.hpz : ℤ) ≤ i ∧ i < (e.images 0).rows - e.hpz ∧ (e.hpz : ℤ) ≤ j ∧ j < (e.images 0).cols - e.hpz

/-- A neighbor that can be compared: another view. -/
def Est.other (e : Est) (n : ℕ) : Prop := 1 ≤ n ∧ n < e.count

/-- The score and neighbor of a pixel are those of its plane: with `sample` the score against the stored neighbor, else
the best score over the other views (`-1` and neighbor 0 if none has more than `-1`). -/
def Est.Scored (e : Est) (sample : Bool) (i j : ℤ) (p : Px) : Prop :=
  if sample then e.other p.nghbr ∧ p.score = e.imageScore i j p.plane p.nghbr
  else (∀ n, e.other n → e.imageScore i j p.plane n ≤ p.score) ∧
    ((e.other p.nghbr ∧ p.score = e.imageScore i j p.plane p.nghbr) ∨ (p.nghbr = 0 ∧ p.score = -1))

/-- The random outcomes are possible ones: positive depths; neighbors are other views; the loop that looks for another
neighbor ends with another one. -/
structure Est.Draws (e : Est) (w : ℤ → ℤ → InitDraw) (d d' : ℕ → ℤ → ℤ → Draw) : Prop where
  depth : ∀ i j, 0 < (w i j).depth
  nghbr : ∀ i j, e.other (w i j).nghbr
  fwd : ∀ k i j n, e.other n → 2 < e.count → e.other ((d k i j).other n) ∧ (d k i j).other n ≠ n
  bwd : ∀ k i j n, e.other n → 2 < e.count → e.other ((d' k i j).other n) ∧ (d' k i j).other n ≠ n

/-! ### Lemmas -/

theorem mem_intRange (a b x : ℤ) : x ∈ intRange a b ↔ a ≤ x ∧ x < b := by
  unfold intRange
  rw [List.mem_map]
  constructor
  · rintro ⟨k, hk, rfl⟩
    rw [List.mem_range] at hk
    omega
  · rintro ⟨h1, h2⟩
    exact ⟨(x - a).toNat, by rw [List.mem_range]; omega, by omega⟩

theorem mem_pixels (e : Est) (p : ℤ × ℤ) : p ∈ e.pixels ↔ e.inner p.1 p.2 := by
  unfold Est.pixels Est.inner
  rw [List.mem_flatMap]
  constructor
  · rintro ⟨i, hi, hp⟩
    obtain ⟨j, hj, rfl⟩ := List.mem_map.1 hp
    rw [mem_intRange] at hi hj
    exact ⟨hi.1, hi.2, hj.1, hj.2⟩
  · rintro ⟨h1, h2, h3, h4⟩
    refine ⟨p.1, (mem_intRange _ _ _).2 ⟨h1, h2⟩, ?_⟩
    exact List.mem_map.2 ⟨p.2, (mem_intRange _ _ _).2 ⟨h3, h4⟩, rfl⟩

theorem assign_same (r : Res) (i j : ℤ) (p : Px) : assign r i j p i j = p := by
  unfold assign; rw [if_pos ⟨rfl, rfl⟩]

theorem assign_other (r : Res) (i j : ℤ) (p : Px) (a b : ℤ) (h : ¬(a = i ∧ b = j)) : assign r i j p a b = r a b := by
  unfold assign; rw [if_neg h]

/-- `ComputePlaneScore` finds the best one. -/
theorem planeScore_spec (e : Est) (i j : ℤ) (v : V3) :
    (∀ n, e.other n → e.imageScore i j v n ≤ (e.planeScore i j v).1) ∧
    ((e.other (e.planeScore i j v).2 ∧ (e.planeScore i j v).1 = e.imageScore i j v (e.planeScore i j v).2) ∨
      ((e.planeScore i j v).2 = 0 ∧ (e.planeScore i j v).1 = -1)) := by
  have key : ∀ m, (∀ n, 1 ≤ n → n ≤ m → e.imageScore i j v n ≤ ((List.range m).foldl (e.scoreStep i j v) (-1, 0)).1) ∧
      ((1 ≤ ((List.range m).foldl (e.scoreStep i j v) (-1, 0)).2 ∧
        ((List.range m).foldl (e.scoreStep i j v) (-1, 0)).2 ≤ m ∧
        ((List.range m).foldl (e.scoreStep i j v) (-1, 0)).1 =
          e.imageScore i j v ((List.range m).foldl (e.scoreStep i j v) (-1, 0)).2) ∨
       ((List.range m).foldl (e.scoreStep i j v) (-1, 0)) = (-1, 0)) := by
    intro m
    induction m with
    | zero => exact ⟨fun n h1 h2 => by omega, Or.inr rfl⟩
    | succ m ih =>
      rw [List.range_succ, List.foldl_append, List.foldl_cons, List.foldl_nil]
      generalize (List.range m).foldl (e.scoreStep i j v) (-1, 0) = acc at ih ⊢
      unfold Est.scoreStep
      split_ifs with h
      · refine ⟨?_, Or.inl ⟨by omega, by omega, rfl⟩⟩
        intro n h1 h2
        rcases Nat.lt_or_ge n (m + 1) with h3 | h3
        · exact le_trans (ih.1 n h1 (by omega)) (le_of_lt h)
        · rw [show n = m + 1 by omega]
      · refine ⟨?_, ?_⟩
        · intro n h1 h2
          rcases Nat.lt_or_ge n (m + 1) with h3 | h3
          · exact ih.1 n h1 (by omega)
          · rw [show n = m + 1 by omega]; exact not_lt.1 h
        · rcases ih.2 with ⟨h1, h2, h3⟩ | h1
          · exact Or.inl ⟨h1, by omega, h3⟩
          · exact Or.inr h1
  obtain ⟨h1, h2⟩ := key (e.count - 1)
  refine ⟨fun n hn => h1 n hn.1 (by have := hn.2; omega), ?_⟩
  unfold Est.planeScore
  rcases h2 with ⟨h3, h4, h5⟩ | h3
  · exact Or.inl ⟨⟨h3, by omega⟩, h5⟩
  · right; rw [h3]; exact ⟨rfl, rfl⟩

theorem planeScore_ge (e : Est) (i j : ℤ) (v : V3) : -1 ≤ (e.planeScore i j v).1 := by
  rcases (planeScore_spec e i j v).2 with ⟨-, h⟩ | ⟨-, h⟩
  · rw [h]; exact (C79_score _ _ _ _ _ _).1
  · rw [h]

/-- A pixel that was replaced: its depth is that of its plane and its score that of its plane. -/
def Est.Good (e : Est) (sample : Bool) (i j : ℤ) (p : Px) : Prop :=
  p.depth = depthOfPlane j i (e.views 0).K p.plane ∧ e.Scored sample i j p

/-- Every pixel is the same, or was not ignored and is replaced by a better one. -/
def Est.Improves (e : Est) (sample : Bool) (r r' : Res) : Prop :=
  ∀ a b, r' a b = r a b ∨
    (e.inner a b ∧ (r a b).depth ≠ 0 ∧ (r a b).score < (r' a b).score ∧ e.Good sample a b (r' a b))

theorem good_pos {e : Est} {sample : Bool} {i j : ℤ} {p : Px} (h : e.Good sample i j p) : 0 < p.depth := by
  rw [h.1]; exact (C79_depth_range _ _ _ _).1

theorem improves_refl (e : Est) (sample : Bool) (r : Res) : e.Improves sample r r := fun _ _ => Or.inl rfl

theorem improves_trans {e : Est} {sample : Bool} {r r' r'' : Res} (h : e.Improves sample r r')
    (h' : e.Improves sample r' r'') : e.Improves sample r r'' := by
  intro a b
  rcases h a b with h1 | ⟨h1, h2, h3, h4⟩
  · rcases h' a b with h5 | ⟨h5, h6, h7, h8⟩
    · left; rw [h5, h1]
    · right; rw [h1] at h6 h7; exact ⟨h5, h6, h7, h8⟩
  · rcases h' a b with h5 | ⟨h5, h6, h7, h8⟩
    · right; rw [h5]; exact ⟨h1, h2, h3, h4⟩
    · right; exact ⟨h5, h2, lt_trans h3 h7, h8⟩

theorem improves_score {e : Est} {sample : Bool} {r r' : Res} (h : e.Improves sample r r') (a b : ℤ) :
    (r a b).score ≤ (r' a b).score := by
  rcases h a b with h1 | ⟨-, -, h3, -⟩
  · rw [h1]
  · exact h3.le

theorem improves_zero {e : Est} {sample : Bool} {r r' : Res} (h : e.Improves sample r r') (a b : ℤ) :
    (r' a b).depth = 0 ↔ (r a b).depth = 0 := by
  rcases h a b with h1 | ⟨-, h2, -, h4⟩
  · rw [h1]
  · exact ⟨fun h => absurd h (good_pos h4).ne', fun h => absurd h h2⟩

theorem checkAll_improves (e : Est) (r : Res) (i j : ℤ) (v : V3) (hi : e.inner i j) (hd : (r i j).depth ≠ 0) :
    e.Improves false r (e.checkAll r i j v) := by
  intro a b
  unfold Est.checkAll
  split_ifs with h
  · by_cases hab : a = i ∧ b = j
    · obtain ⟨rfl, rfl⟩ := hab
      right
      rw [assign_same]
      refine ⟨hi, hd, h, rfl, ?_⟩
      unfold Est.Scored
      rw [if_neg (by simp)]
      exact planeScore_spec e a b v
    · left; exact assign_other _ _ _ _ _ _ hab
  · exact Or.inl rfl

theorem checkOne_improves (e : Est) (r : Res) (i j : ℤ) (v : V3) (n : ℕ) (hi : e.inner i j)
    (hd : (r i j).depth ≠ 0) (hn : e.other n) : e.Improves true r (e.checkOne r i j v n) := by
  intro a b
  unfold Est.checkOne
  split_ifs with h
  · by_cases hab : a = i ∧ b = j
    · obtain ⟨rfl, rfl⟩ := hab
      right
      rw [assign_same]
      refine ⟨hi, hd, h, rfl, ?_⟩
      unfold Est.Scored
      rw [if_pos rfl]
      exact ⟨hn, rfl⟩
    · left; exact assign_other _ _ _ _ _ _ hab
  · exact Or.inl rfl

theorem check_improves (e : Est) (sample : Bool) (r : Res) (i j : ℤ) (v : V3) (n : ℕ) (hi : e.inner i j)
    (hd : (r i j).depth ≠ 0) (hn : sample = true → e.other n) : e.Improves sample r (e.check sample r i j v n) := by
  unfold Est.check
  cases sample with
  | true => rw [if_pos rfl]; exact checkOne_improves e r i j v n hi hd (hn rfl)
  | false => rw [if_neg (by simp)]; exact checkAll_improves e r i j v hi hd

/-- With `sample`, the neighbors stored at pixels that are not ignored are other views. -/
def Est.Nghbrs (e : Est) (sample : Bool) (r : Res) : Prop :=
  sample = true → ∀ a b, (r a b).depth ≠ 0 → e.other (r a b).nghbr

theorem nghbrs_improves {e : Est} {sample : Bool} {r r' : Res} (h : e.Improves sample r r') (hn : e.Nghbrs sample r) :
    e.Nghbrs sample r' := by
  intro hs a b hd
  rcases h a b with h1 | ⟨-, -, -, h4⟩
  · rw [h1] at hd ⊢; exact hn hs a b hd
  · have := h4.2
    unfold Est.Scored at this
    rw [if_pos hs] at this
    exact this.1

theorem foldl_improves {α : Type} (e : Est) (sample : Bool) (f : Res → α → Res) (l : List α) (P : Res → Prop)
    (hP : ∀ r r', P r → e.Improves sample r r' → P r') (h : ∀ r, P r → ∀ x ∈ l, e.Improves sample r (f r x)) :
    ∀ r, P r → e.Improves sample r (l.foldl f r) := by
  induction l with
  | nil => intro r _; exact improves_refl e sample r
  | cons x l ih =>
    intro r hr
    rw [List.foldl_cons]
    have h1 := h r hr x (List.mem_cons_self ..)
    exact improves_trans h1 (ih (fun r hr y hy => h r hr y (List.mem_cons_of_mem _ hy)) _ (hP _ _ hr h1))

theorem propagate_improves (e : Est) (sample : Bool) (r : Res) (i j : ℤ) (a : ℤ × ℤ) (hi : e.inner i j)
    (hd : (r i j).depth ≠ 0) (hn : e.Nghbrs sample r) : e.Improves sample r (e.propagate sample i j r a) := by
  unfold Est.propagate
  split_ifs with h
  · exact improves_refl _ _ _
  · exact check_improves e sample r i j _ _ hi hd (fun hs => hn hs _ _ h)

theorem perturb_improves (e : Est) (sample : Bool) (d : Draw) (r : Res) (i j : ℤ) (n k : ℕ) (hi : e.inner i j)
    (hd : (r i j).depth ≠ 0) (hn : sample = true → e.other n) : e.Improves sample r (e.perturb sample d i j n r k) := by
  unfold Est.perturb
  split_ifs with h
  · exact improves_refl _ _ _
  · exact check_improves e sample r i j _ _ hi hd hn

theorem tryOther_improves (e : Est) (sample : Bool) (d : Draw) (r : Res) (i j : ℤ) (n : ℕ) (hi : e.inner i j)
    (hd : (r i j).depth ≠ 0) (hn : sample = true → e.other n)
    (ho : ∀ n, e.other n → 2 < e.count → e.other (d.other n)) : e.Improves sample r (e.tryOther sample d i j n r) := by
  unfold Est.tryOther
  split_ifs with h
  · exact improves_refl _ _ _
  · rw [not_or] at h
    have hs : sample = true := by
      cases sample with
      | true => rfl
      | false => exact absurd rfl h.1
    subst hs
    exact checkOne_improves e r i j _ _ hi hd (ho n (hn rfl) (by omega))

/-- Parts of the update of a pixel. -/
theorem update_parts (e : Est) (sample : Bool) (adj : List (ℤ × ℤ)) (d : ℤ → ℤ → Draw) (r : Res) (p : ℤ × ℤ)
    (hi : e.inner p.1 p.2) (hn : e.Nghbrs sample r) (hd : (r p.1 p.2).depth ≠ 0)
    (ho : ∀ i j n, e.other n → 2 < e.count → e.other ((d i j).other n)) :
    e.Improves sample r (adj.foldl (e.propagate sample p.1 p.2) r) ∧
    e.Improves sample (adj.foldl (e.propagate sample p.1 p.2) r) (e.update sample adj d r p) := by
  set r1 := adj.foldl (e.propagate sample p.1 p.2) r with hr1
  have i1 : e.Improves sample r r1 := by
    rw [hr1]
    refine foldl_improves e sample _ adj (fun r => e.Nghbrs sample r ∧ (r p.1 p.2).depth ≠ 0) ?_ ?_ r ⟨hn, hd⟩
    · intro r r' h hr
      exact ⟨nghbrs_improves hr h.1, fun hz => h.2 ((improves_zero hr _ _).1 hz)⟩
    · intro r hr a _
      exact propagate_improves e sample r _ _ a hi hr.2 hr.1
  have n1 := nghbrs_improves i1 hn
  have d1 : (r1 p.1 p.2).depth ≠ 0 := fun hz => hd ((improves_zero i1 _ _).1 hz)
  have o1 : sample = true → e.other (r1 p.1 p.2).nghbr := fun hs => n1 hs _ _ d1
  refine ⟨i1, ?_⟩
  unfold Est.update
  rw [if_neg hd]
  simp only
  rw [← hr1]
  have i2 : e.Improves sample r1 ((List.range 6).foldl (e.perturb sample (d p.1 p.2) p.1 p.2 (r1 p.1 p.2).nghbr) r1) := by
    refine foldl_improves e sample _ _ (fun r => (r p.1 p.2).depth ≠ 0) ?_ ?_ r1 d1
    · intro r r' h hr hz
      exact h ((improves_zero hr _ _).1 hz)
    · intro r hr k _
      exact perturb_improves e sample _ r _ _ _ k hi hr o1
  refine improves_trans i2 (tryOther_improves e sample _ _ _ _ _ hi ?_ o1 (ho p.1 p.2))
  exact fun hz => d1 ((improves_zero i2 _ _).1 hz)

theorem update_improves (e : Est) (sample : Bool) (adj : List (ℤ × ℤ)) (d : ℤ → ℤ → Draw) (r : Res) (p : ℤ × ℤ)
    (hi : e.inner p.1 p.2) (hn : e.Nghbrs sample r)
    (ho : ∀ i j n, e.other n → 2 < e.count → e.other ((d i j).other n)) :
    e.Improves sample r (e.update sample adj d r p) := by
  by_cases hd : (r p.1 p.2).depth = 0
  · unfold Est.update
    rw [if_pos hd]
    exact improves_refl _ _ _
  · have := update_parts e sample adj d r p hi hn hd ho
    exact improves_trans this.1 this.2

theorem pass_improves (e : Est) (sample : Bool) (adj : List (ℤ × ℤ)) (d : ℤ → ℤ → Draw) (l : List (ℤ × ℤ))
    (hl : ∀ p ∈ l, e.inner p.1 p.2) (r : Res) (hn : e.Nghbrs sample r)
    (ho : ∀ i j n, e.other n → 2 < e.count → e.other ((d i j).other n)) :
    e.Improves sample r (l.foldl (e.update sample adj d) r) :=
  foldl_improves e sample _ l (e.Nghbrs sample) (fun _ _ h hr => nghbrs_improves hr h)
    (fun r hr p hp => update_improves e sample adj d r p (hl p hp) hr ho) r hn

theorem round_improves (e : Est) (sample : Bool) (w : ℤ → ℤ → InitDraw) (d d' : ℕ → ℤ → ℤ → Draw)
    (hw : e.Draws w d d') (k : ℕ) (r : Res) (hn : e.Nghbrs sample r) :
    e.Improves sample r (e.backward sample (d' k) (e.forward sample (d k) r)) := by
  have h1 : e.Improves sample r (e.forward sample (d k) r) :=
    pass_improves e sample _ _ _ (fun p hp => (mem_pixels e p).1 hp) r hn
      (fun i j n h1 h2 => (hw.fwd k i j n h1 h2).1)
  have h2 : e.Improves sample (e.forward sample (d k) r) (e.backward sample (d' k) (e.forward sample (d k) r)) :=
    pass_improves e sample _ _ _ (fun p hp => (mem_pixels e p).1 (List.mem_reverse.1 hp)) _ (nghbrs_improves h1 hn)
      (fun i j n h1 h2 => (hw.bwd k i j n h1 h2).1)
  exact improves_trans h1 h2

theorem rounds_improves (e : Est) (sample : Bool) (w : ℤ → ℤ → InitDraw) (d d' : ℕ → ℤ → ℤ → Draw)
    (hw : e.Draws w d d') (r : Res) (hn : e.Nghbrs sample r) (k : ℕ) :
    e.Improves sample r (e.rounds sample d d' r k) := by
  induction k with
  | zero => exact improves_refl _ _ _
  | succ k ih =>
    exact improves_trans ih (round_improves e sample w d d' hw k _ (nghbrs_improves ih hn))

open Classical in
/-- The state before the rounds. -/
theorem start_eq (e : Est) (sample : Bool) (w : ℤ → ℤ → InitDraw) (a b : ℤ) :
    e.start sample w a b = if e.inner a b ∧ ¬e.ignored a b then e.initPx sample w a b else emptyPx := by
  have h1 : ∀ (l : List (ℤ × ℤ)) (r : Res), l.foldl (e.initStep sample w) r a b =
      if (a, b) ∈ l then e.initPx sample w a b else r a b := by
    intro l
    induction l with
    | nil => intro r; simp
    | cons p l ih =>
      intro r
      rw [List.foldl_cons, ih]
      by_cases hm : (a, b) ∈ l
      · rw [if_pos hm, if_pos (List.mem_cons_of_mem _ hm)]
      · rw [if_neg hm]
        unfold Est.initStep
        by_cases hp : a = p.1 ∧ b = p.2
        · obtain ⟨h1, h2⟩ := hp
          subst h1 h2
          rw [assign_same, if_pos (List.mem_cons_self ..)]
        · rw [assign_other _ _ _ _ _ _ hp, if_neg]
          intro h
          rcases List.mem_cons.1 h with h | h
          · exact hp ⟨congrArg Prod.fst h, congrArg Prod.snd h⟩
          · exact hm h
  have h2 : ∀ (l : List (ℤ × ℤ)) (r : Res), l.foldl e.ignoreStep r a b =
      if (a, b) ∈ l ∧ e.ignored a b then emptyPx else r a b := by
    intro l
    induction l with
    | nil => intro r; simp
    | cons p l ih =>
      intro r
      rw [List.foldl_cons, ih]
      by_cases hm : (a, b) ∈ l ∧ e.ignored a b
      · rw [if_pos hm, if_pos ⟨List.mem_cons_of_mem _ hm.1, hm.2⟩]
      · rw [if_neg hm]
        unfold Est.ignoreStep
        by_cases hp : a = p.1 ∧ b = p.2
        · obtain ⟨h1, h2⟩ := hp
          subst h1 h2
          by_cases hg : e.ignored p.1 p.2
          · rw [if_pos hg, assign_same, if_pos ⟨List.mem_cons_self .., hg⟩]
          · rw [if_neg hg, if_neg (fun h => hg h.2)]
        · have : (if e.ignored p.1 p.2 then assign r p.1 p.2 emptyPx else r) a b = r a b := by
            split_ifs
            · exact assign_other _ _ _ _ _ _ hp
            · rfl
          rw [this, if_neg]
          rintro ⟨h, hg⟩
          rcases List.mem_cons.1 h with h | h
          · exact hp ⟨congrArg Prod.fst h, congrArg Prod.snd h⟩
          · exact hm ⟨h, hg⟩
  unfold Est.start Est.ignore Est.initialize
  rw [h2, h1]
  by_cases hin : e.inner a b
  · have hm := (mem_pixels e (a, b)).2 hin
    by_cases hg : e.ignored a b
    · rw [if_pos ⟨hm, hg⟩, if_neg (fun h => h.2 hg)]
    · rw [if_neg (fun h => hg h.2), if_pos hm, if_pos ⟨hin, hg⟩]
  · have hm : (a, b) ∉ e.pixels := fun h => hin ((mem_pixels e (a, b)).1 h)
    rw [if_neg (fun h => hm h.1), if_neg hm, if_neg (fun h => hin h.1)]
    rfl

theorem initPx_scored (e : Est) (sample : Bool) (w : ℤ → ℤ → InitDraw) (i j : ℤ) (hn : e.other (w i j).nghbr) :
    (e.initPx sample w i j).depth = (w i j).depth ∧ e.Scored sample i j (e.initPx sample w i j) := by
  unfold Est.initPx Est.Scored
  cases sample with
  | true => simp only [if_true]; exact ⟨trivial, hn, trivial⟩
  | false =>
    simp only [Bool.false_eq_true, if_false]
    exact ⟨trivial, planeScore_spec e i j _⟩

theorem start_nghbrs (e : Est) (sample : Bool) (w : ℤ → ℤ → InitDraw) (hn : ∀ i j, e.other (w i j).nghbr) :
    e.Nghbrs sample (e.start sample w) := by
  intro hs a b hd
  rw [start_eq] at hd ⊢
  split_ifs at hd ⊢ with h
  · have := (initPx_scored e sample w a b (hn a b)).2
    unfold Est.Scored at this
    rw [if_pos hs] at this
    exact this.1
  · exact absurd rfl hd

/-! ### Properties -/

theorem pixels_aux (e : Est) (sample : Bool) (w : ℤ → ℤ → InitDraw) (d d' : ℕ → ℤ → ℤ → Draw) (hw : e.Draws w d d')
    (k : ℕ) (i j : ℤ) (p : Px) (hp : p = e.rounds sample d d' (e.start sample w) k i j) :
    (¬e.inner i j ∨ e.ignored i j → p.depth = 0 ∧ p.score = 0 ∧ p.nghbr = 0 ∧ p.plane = 0) ∧
    (e.inner i j → ¬e.ignored i j → 0 < p.depth ∧ e.Scored sample i j p ∧ -1 ≤ p.score ∧ p.score ≤ 1 ∧
      (p = e.initPx sample w i j ∨ (p.depth = depthOfPlane j i (e.views 0).K p.plane ∧ p.depth ≤ 1000000))) := by
  have h := rounds_improves e sample w d d' hw (e.start sample w) (start_nghbrs e sample w hw.nghbr) k i j
  rw [← hp] at h
  have hs := start_eq e sample w i j
  constructor
  · intro hc
    rw [if_neg (by
      rintro ⟨h1, h2⟩
      rcases hc with hc | hc
      · exact hc h1
      · exact h2 hc)] at hs
    rw [hs] at h
    rcases h with h | ⟨-, h, -⟩
    · rw [h]; exact ⟨rfl, rfl, rfl, rfl⟩
    · exact absurd rfl h
  · intro h1 h2
    rw [if_pos ⟨h1, h2⟩] at hs
    rw [hs] at h
    have hscored : e.Scored sample i j p ∧ 0 < p.depth := by
      rcases h with h | ⟨-, -, -, h⟩
      · rw [h]
        have := initPx_scored e sample w i j (hw.nghbr i j)
        refine ⟨this.2, ?_⟩
        rw [this.1]
        exact hw.depth i j
      · exact ⟨h.2, good_pos h⟩
    have hrange : -1 ≤ p.score ∧ p.score ≤ 1 := by
      have := hscored.1
      unfold Est.Scored at this
      have im : ∀ v n, -1 ≤ e.imageScore i j v n ∧ e.imageScore i j v n ≤ 1 :=
        fun v n => ⟨(C79_score _ _ _ _ _ _).1, (C79_score _ _ _ _ _ _).2.1⟩
      split_ifs at this
      · rw [this.2]; exact im _ _
      · rcases this.2 with ⟨-, h⟩ | ⟨-, h⟩
        · rw [h]; exact im _ _
        · rw [h]; norm_num
    refine ⟨hscored.2, hscored.1, hrange.1, hrange.2, ?_⟩
    rcases h with h | ⟨-, -, -, h⟩
    · exact Or.inl h
    · right
      refine ⟨h.1, ?_⟩
      rw [h.1]; exact (C79_depth_range _ _ _ _).2

/-- C80. Before post-processing, whatever the random draws and after any number of rounds: a pixel too close to the
border for a patch, masked out or without contrast has depth, score and neighbor zero; every other pixel has a positive
depth, and its score and neighbor are those of its plane, between -1 and 1; a depth that is not the first one is at
most 1e6 and is that of the plane at the pixel. -/
theorem C80_pixels (e : Est) (sample : Bool) (w : ℤ → ℤ → InitDraw) (d d' : ℕ → ℤ → ℤ → Draw) (hw : e.Draws w d d')
    (k : ℕ) (i j : ℤ) (p : Px) (hp : p = e.rounds sample d d' (e.start sample w) k i j) :
    (¬e.inner i j ∨ (e.mask i j = 0 ∨ variance (e.buffer i j) < e.minVariance) → p.depth = 0 ∧ p.score = 0 ∧ p.nghbr = 0 ∧ p.plane = 0) ∧
    (e.inner i j → ¬(e.mask i j = 0 ∨ variance (e.buffer i j) < e.minVariance) → 0 < p.depth ∧ e.Scored sample i j p ∧ -1 ≤ p.score ∧ p.score ≤ 1 ∧
      (p = e.initPx sample w i j ∨ (p.depth = depthOfPlane j i (e.views 0).K p.plane ∧ p.depth ≤ 1000000))) :=
  pixels_aux e sample w d d' hw k i j p hp

/-- C80. A round never makes a score worse, and never changes which pixels have a depth. -/
theorem C80_monotone (e : Est) (sample : Bool) (w : ℤ → ℤ → InitDraw) (d d' : ℕ → ℤ → ℤ → Draw) (hw : e.Draws w d d')
    (k l : ℕ) (hkl : k ≤ l) (i j : ℤ) (R : ℕ → Res) (hR : R = e.rounds sample d d' (e.start sample w)) :
    (R k i j).score ≤ (R l i j).score ∧ ((R l i j).depth = 0 ↔ (R k i j).depth = 0) := by
  have h : ∀ m, e.Improves sample (R k) (R (k + m)) := by
    intro m
    induction m with
    | zero => exact improves_refl _ _ _
    | succ m ih =>
      have hn : e.Nghbrs sample (R (k + m)) := by
        rw [hR]
        exact nghbrs_improves (rounds_improves e sample w d d' hw _ (start_nghbrs e sample w hw.nghbr) (k + m))
          (start_nghbrs e sample w hw.nghbr)
      refine improves_trans ih ?_
      have := round_improves e sample w d d' hw (k + m) (R (k + m)) hn
      rw [hR] at this ⊢
      exact this
  have := h (l - k)
  rw [show k + (l - k) = l by omega] at this
  exact ⟨improves_score this i j, improves_zero this i j⟩

/-! ### Propagation -/

theorem check_elsewhere (e : Est) (sample : Bool) (r : Res) (i j : ℤ) (v : V3) (n : ℕ) (a b : ℤ)
    (h : ¬(a = i ∧ b = j)) : e.check sample r i j v n a b = r a b := by
  unfold Est.check Est.checkOne Est.checkAll
  split_ifs
  · exact assign_other _ _ _ _ _ _ h
  · rfl
  · exact assign_other _ _ _ _ _ _ h
  · rfl

theorem foldl_elsewhere {α : Type} (f : Res → α → Res) (a b : ℤ) (l : List α)
    (h : ∀ r, ∀ x ∈ l, f r x a b = r a b) : ∀ r, l.foldl f r a b = r a b := by
  induction l with
  | nil => intro r; rfl
  | cons x l ih =>
    intro r
    rw [List.foldl_cons, ih (fun r y hy => h r y (List.mem_cons_of_mem _ hy)), h r x (List.mem_cons_self ..)]

theorem propagate_elsewhere (e : Est) (sample : Bool) (r : Res) (i j : ℤ) (q : ℤ × ℤ) (a b : ℤ)
    (h : ¬(a = i ∧ b = j)) : e.propagate sample i j r q a b = r a b := by
  unfold Est.propagate
  split_ifs
  · rfl
  · exact check_elsewhere _ _ _ _ _ _ _ _ _ h

theorem update_elsewhere (e : Est) (sample : Bool) (adj : List (ℤ × ℤ)) (d : ℤ → ℤ → Draw) (r : Res) (p : ℤ × ℤ)
    (a b : ℤ) (h : ¬(a = p.1 ∧ b = p.2)) : e.update sample adj d r p a b = r a b := by
  unfold Est.update
  split_ifs
  · rfl
  · simp only
    have h3 : ∀ r n, e.tryOther sample (d p.1 p.2) p.1 p.2 n r a b = r a b := by
      intro r n
      unfold Est.tryOther
      split_ifs
      · rfl
      · have := check_elsewhere e true r p.1 p.2 (r p.1 p.2).plane ((d p.1 p.2).other n) a b h
        unfold Est.check at this
        rw [if_pos rfl] at this
        exact this
    rw [h3, foldl_elsewhere, foldl_elsewhere]
    · intro r q _; exact propagate_elsewhere e sample r _ _ q a b h
    · intro r k _
      unfold Est.perturb
      split_ifs
      · rfl
      · exact check_elsewhere _ _ _ _ _ _ _ _ _ h

/-- The score of a plane at a pixel: with `sample` against the neighbor, else the best one. -/
noncomputable def Est.scoreOf (e : Est) (sample : Bool) (i j : ℤ) (v : V3) (n : ℕ) : ℝ :=
  if sample then e.imageScore i j v n else (e.planeScore i j v).1

theorem check_score (e : Est) (sample : Bool) (r : Res) (i j : ℤ) (v : V3) (n : ℕ) :
    e.scoreOf sample i j v n ≤ (e.check sample r i j v n i j).score := by
  unfold Est.scoreOf Est.check Est.checkOne Est.checkAll
  cases sample with
  | true =>
    simp only [if_true]
    split_ifs with h
    · rw [assign_same]
    · exact not_lt.1 h
  | false =>
    simp only [Bool.false_eq_true, if_false]
    split_ifs with h
    · rw [assign_same]
    · exact not_lt.1 h

/-- The update of a pixel makes it at least as good as the planes of adjacent pixels would be. -/
theorem update_propagates (e : Est) (sample : Bool) (adj : List (ℤ × ℤ)) (d : ℤ → ℤ → Draw) (r : Res) (p : ℤ × ℤ)
    (hi : e.inner p.1 p.2) (hn : e.Nghbrs sample r) (hd : (r p.1 p.2).depth ≠ 0)
    (ho : ∀ i j n, e.other n → 2 < e.count → e.other ((d i j).other n)) (hadj : ∀ a ∈ adj, a ≠ (0, 0))
    (a : ℤ × ℤ) (ha : a ∈ adj) (had : (r (p.1 + a.1) (p.2 + a.2)).depth ≠ 0) :
    e.scoreOf sample p.1 p.2 (r (p.1 + a.1) (p.2 + a.2)).plane (r (p.1 + a.1) (p.2 + a.2)).nghbr ≤
      (e.update sample adj d r p p.1 p.2).score := by
  have hparts := update_parts e sample adj d r p hi hn hd ho
  refine le_trans ?_ (improves_score hparts.2 p.1 p.2)
  have hne : ∀ b ∈ adj, ¬(p.1 + b.1 = p.1 ∧ p.2 + b.2 = p.2) := by
    intro b hb ⟨h1, h2⟩
    exact hadj b hb (Prod.ext (by simp; omega) (by simp; omega))
  have key : ∀ (l : List (ℤ × ℤ)), (∀ b ∈ l, b ∈ adj) → ∀ s : Res, e.Nghbrs sample s → (s p.1 p.2).depth ≠ 0 →
      s (p.1 + a.1) (p.2 + a.2) = r (p.1 + a.1) (p.2 + a.2) → a ∈ l →
      e.scoreOf sample p.1 p.2 (r (p.1 + a.1) (p.2 + a.2)).plane (r (p.1 + a.1) (p.2 + a.2)).nghbr ≤
        (l.foldl (e.propagate sample p.1 p.2) s p.1 p.2).score := by
    intro l
    induction l with
    | nil => intro _ s _ _ _ h; cases h
    | cons b l ih =>
      intro hl s hs hsd hsa hal
      rw [List.foldl_cons]
      have i1 := propagate_improves e sample s p.1 p.2 b hi hsd hs
      have hrest : ∀ t, e.Nghbrs sample t → (t p.1 p.2).depth ≠ 0 →
          e.Improves sample t (l.foldl (e.propagate sample p.1 p.2) t) := by
        intro t ht htd
        refine foldl_improves e sample _ l (fun r => e.Nghbrs sample r ∧ (r p.1 p.2).depth ≠ 0) ?_ ?_ t ⟨ht, htd⟩
        · intro r r' h hr
          exact ⟨nghbrs_improves hr h.1, fun hz => h.2 ((improves_zero hr _ _).1 hz)⟩
        · intro r hr a _
          exact propagate_improves e sample r _ _ a hi hr.2 hr.1
      have hs1 := nghbrs_improves i1 hs
      have hd1 : (e.propagate sample p.1 p.2 s b p.1 p.2).depth ≠ 0 := fun hz => hsd ((improves_zero i1 _ _).1 hz)
      rcases List.mem_cons.1 hal with h | h
      · subst h
        refine le_trans ?_ (improves_score (hrest _ hs1 hd1) p.1 p.2)
        unfold Est.propagate
        rw [hsa, if_neg had]
        exact check_score e sample s p.1 p.2 _ _
      · refine ih (fun b hb => hl b (List.mem_cons_of_mem _ hb)) _ hs1 hd1 ?_ h
        rw [propagate_elsewhere e sample s _ _ b _ _ (hne a ha), hsa]
  exact key adj (fun _ h => h) r hn hd rfl ha

/-- Order of the forward pass. -/
def before (p q : ℤ × ℤ) : Prop := p.1 < q.1 ∨ (p.1 = q.1 ∧ p.2 < q.2)

theorem intRange_sorted (a b : ℤ) : (intRange a b).Pairwise (· < ·) := by
  unfold intRange
  rw [List.pairwise_map]
  exact List.pairwise_lt_range.imp (fun h => by omega)

theorem pixels_sorted (e : Est) : e.pixels.Pairwise before := by
  unfold Est.pixels
  rw [List.pairwise_flatMap]
  refine ⟨?_, ?_⟩
  · intro i _
    rw [List.pairwise_map]
    exact (intRange_sorted _ _).imp (fun h => Or.inr ⟨rfl, h⟩)
  · refine (intRange_sorted _ _).imp ?_
    intro i i' h p hp q hq
    obtain ⟨j, -, rfl⟩ := List.mem_map.1 hp
    obtain ⟨j', -, rfl⟩ := List.mem_map.1 hq
    exact Or.inl h

/-- A pass that visits pixels in an order in which adjacent ones come first. -/
theorem pass_propagates (e : Est) (sample : Bool) (adj : List (ℤ × ℤ)) (d : ℤ → ℤ → Draw) (lt : ℤ × ℤ → ℤ × ℤ → Prop)
    (hirr : ∀ p, ¬lt p p) (hasym : ∀ p q, lt p q → ¬lt q p)
    (hlt : ∀ p, ∀ a ∈ adj, lt (p.1 + a.1, p.2 + a.2) p) (l : List (ℤ × ℤ)) (hs : l.Pairwise lt)
    (hl : ∀ p ∈ l, e.inner p.1 p.2) (r : Res) (hn : e.Nghbrs sample r)
    (ho : ∀ i j n, e.other n → 2 < e.count → e.other ((d i j).other n))
    (R : Res) (hR : R = l.foldl (e.update sample adj d) r)
    (p : ℤ × ℤ) (hp : p ∈ l) (hd : (R p.1 p.2).depth ≠ 0) (a : ℤ × ℤ) (ha : a ∈ adj)
    (had : (R (p.1 + a.1) (p.2 + a.2)).depth ≠ 0) :
    e.scoreOf sample p.1 p.2 (R (p.1 + a.1) (p.2 + a.2)).plane (R (p.1 + a.1) (p.2 + a.2)).nghbr ≤ (R p.1 p.2).score := by
  have hadj : ∀ a ∈ adj, a ≠ (0, 0) := by
    intro a ha h
    subst h
    have := hlt p (0, 0) ha
    simp only [add_zero] at this
    exact hirr _ this
  obtain ⟨l1, l2, rfl⟩ := List.append_of_mem hp
  rw [List.foldl_append, List.foldl_cons] at hR
  rw [List.pairwise_append, List.pairwise_cons] at hs
  set r1 := l1.foldl (e.update sample adj d) r with hr1
  have i1 : e.Improves sample r r1 := pass_improves e sample adj d l1
    (fun q hq => hl q (List.mem_append_left _ hq)) r hn ho
  have n1 := nghbrs_improves i1 hn
  have hafter : ∀ q : ℤ × ℤ, (∀ x ∈ l2, lt q x) → R q.1 q.2 = e.update sample adj d r1 p q.1 q.2 := by
    intro q hq
    rw [hR]
    refine foldl_elsewhere _ _ _ l2 (fun s x hx => ?_) _
    refine update_elsewhere e sample adj d s x _ _ ?_
    rintro ⟨h1, h2⟩
    have := hq x hx
    rw [show x = q from Prod.ext h1.symm h2.symm] at this
    exact hirr _ this
  have hRp := hafter p (fun x hx => hs.2.1.1 x hx)
  have hRq : R (p.1 + a.1) (p.2 + a.2) = r1 (p.1 + a.1) (p.2 + a.2) := by
    have h : R (p.1 + a.1) (p.2 + a.2) = e.update sample adj d r1 p (p.1 + a.1) (p.2 + a.2) := by
      rw [hR]
      refine foldl_elsewhere _ _ _ l2 (fun s x hx => ?_) _
      refine update_elsewhere e sample adj d s x _ _ ?_
      rintro ⟨h1, h2⟩
      have h3 := hs.2.1.1 x hx
      rw [show x = (p.1 + a.1, p.2 + a.2) from Prod.ext h1.symm h2.symm] at h3
      exact hasym _ _ h3 (hlt p a ha)
    rw [h]
    refine update_elsewhere e sample adj d r1 p _ _ ?_
    rintro ⟨h1, h2⟩
    exact hadj a ha (Prod.ext (by simp; omega) (by simp; omega))
  have hip := hl p hp
  have i2 := update_improves e sample adj d r1 p hip n1 ho
  rw [hRp] at hd ⊢
  rw [hRq] at had ⊢
  exact update_propagates e sample adj d r1 p hip n1 (fun hz => hd ((improves_zero i2 _ _).2 hz)) ho hadj a ha had

/-- C80. Planes propagate over the whole image in each pass: after a forward pass, no pixel would be better with the
plane (and neighbor) of the pixel above or to the left; after a backward pass, none with that of the pixel below or to
the right. -/
theorem C80_propagation (e : Est) (sample : Bool) (w : ℤ → ℤ → InitDraw) (d d' : ℕ → ℤ → ℤ → Draw)
    (hw : e.Draws w d d') (k : ℕ) (F B : Res)
    (hF : F = e.forward sample (d k) (e.rounds sample d d' (e.start sample w) k))
    (hB : B = e.rounds sample d d' (e.start sample w) (k + 1)) (i j : ℤ) :
    ((F i j).depth ≠ 0 → ∀ q ∈ [(i - 1, j), (i, j - 1)], (F q.1 q.2).depth ≠ 0 →
      e.scoreOf sample i j (F q.1 q.2).plane (F q.1 q.2).nghbr ≤ (F i j).score) ∧
    ((B i j).depth ≠ 0 → ∀ q ∈ [(i + 1, j), (i, j + 1)], (B q.1 q.2).depth ≠ 0 →
      e.scoreOf sample i j (B q.1 q.2).plane (B q.1 q.2).nghbr ≤ (B i j).score) := by
  have n0 := start_nghbrs e sample w hw.nghbr
  have ik := rounds_improves e sample w d d' hw (e.start sample w) n0 k
  have nk := nghbrs_improves ik n0
  have iF : e.Improves sample (e.rounds sample d d' (e.start sample w) k) F := by
    rw [hF]
    exact pass_improves e sample _ _ _ (fun p hp => (mem_pixels e p).1 hp) _ nk
      (fun i j n h1 h2 => (hw.fwd k i j n h1 h2).1)
  have nF := nghbrs_improves iF nk
  have iB : e.Improves sample F B := by
    rw [hB]
    show e.Improves sample F (e.backward sample (d' k) (e.forward sample (d k) (e.rounds sample d d' (e.start sample w) k)))
    rw [← hF]
    exact pass_improves e sample _ _ _ (fun p hp => (mem_pixels e p).1 (List.mem_reverse.1 hp)) _ nF
      (fun i j n h1 h2 => (hw.bwd k i j n h1 h2).1)
  have inner_of : ∀ i j, ((e.start sample w) i j).depth ≠ 0 → e.inner i j := by
    intro i j hd
    rw [start_eq] at hd
    split_ifs at hd with h
    · exact h.1
    · exact absurd rfl hd
  have iF0 := improves_trans ik iF
  have iB0 := improves_trans iF0 iB
  constructor
  · intro hd q hq hqd
    have hi : e.inner i j := inner_of i j (fun hz => hd ((improves_zero iF0 _ _).2 hz))
    have main := pass_propagates e sample [(-1, 0), (0, -1)] (d k) before
      (by rintro ⟨a, b⟩ (h | h) <;> simp at h)
      (by rintro ⟨a, b⟩ ⟨c, d⟩ h h'; unfold before at h h'; simp at h h'; omega)
      (by
        rintro ⟨a, b⟩ q hq
        unfold before
        simp at hq
        rcases hq with rfl | rfl <;> simp)
      e.pixels (pixels_sorted e) (fun p hp => (mem_pixels e p).1 hp) _ nk
      (fun i j n h1 h2 => (hw.fwd k i j n h1 h2).1) F hF (i, j) ((mem_pixels e (i, j)).2 hi) hd
    simp only [List.mem_cons, List.not_mem_nil, or_false] at hq
    rcases hq with rfl | rfl
    · have := main (-1, 0) (by simp)
      simp only [add_zero, ← sub_eq_add_neg] at this
      exact this hqd
    · have := main (0, -1) (by simp)
      simp only [add_zero, ← sub_eq_add_neg] at this
      exact this hqd
  · intro hd q hq hqd
    have hi : e.inner i j := inner_of i j (fun hz => hd ((improves_zero iB0 _ _).2 hz))
    have hB' : B = e.pixels.reverse.foldl (e.update sample [(0, 1), (1, 0)] (d' k)) F := by
      rw [hB, hF]; rfl
    have main := pass_propagates e sample [(0, 1), (1, 0)] (d' k) (fun p q => before q p)
      (by rintro ⟨a, b⟩ (h | h) <;> simp at h)
      (by rintro ⟨a, b⟩ ⟨c, d⟩ h h'; unfold before at h h'; simp at h h'; omega)
      (by
        rintro ⟨a, b⟩ q hq
        unfold before
        simp at hq
        rcases hq with rfl | rfl <;> simp)
      e.pixels.reverse (List.pairwise_reverse.2 (pixels_sorted e))
      (fun p hp => (mem_pixels e p).1 (List.mem_reverse.1 hp)) _ nF
      (fun i j n h1 h2 => (hw.bwd k i j n h1 h2).1) B hB' (i, j) (List.mem_reverse.2 ((mem_pixels e (i, j)).2 hi)) hd
    simp only [List.mem_cons, List.not_mem_nil, or_false] at hq
    rcases hq with rfl | rfl
    · have := main (1, 0) (by simp)
      simp only [add_zero] at this
      exact this hqd
    · have := main (0, 1) (by simp)
      simp only [add_zero] at this
      exact this hqd

/-! ### Brute force -/

theorem checkAll_elsewhere (e : Est) (r : Res) (i j : ℤ) (v : V3) (a b : ℤ) (h : ¬(a = i ∧ b = j)) :
    e.checkAll r i j v a b = r a b := by
  have := check_elsewhere e false r i j v 0 a b h
  unfold Est.check at this
  rw [if_neg (by simp)] at this
  exact this

theorem brutePixel_elsewhere (e : Est) (r : Res) (p : ℤ × ℤ) (a b : ℤ) (h : ¬(a = p.1 ∧ b = p.2)) :
    e.brutePixel r p a b = r a b :=
  foldl_elsewhere _ _ _ _ (fun r k _ => checkAll_elsewhere e r p.1 p.2 _ a b h) r

/-- What brute force leaves at a pixel after the planes of `ds`. -/
def Est.BruteBest (e : Est) (i j : ℤ) (n : ℕ) (p : Px) : Prop :=
  0 ≤ p.score ∧ (∀ k < n, (e.planeScore i j (e.sweepPlane i j k)).1 ≤ p.score) ∧
  (p = emptyPx ∨ ∃ k < n, p.plane = e.sweepPlane i j k ∧ 0 < p.score ∧ e.Good false i j p)

theorem brutePixel_best (e : Est) (r : Res) (i j : ℤ) (h : r i j = emptyPx) :
    e.BruteBest i j e.numPlanes (e.brutePixel r (i, j) i j) := by
  unfold Est.brutePixel
  have : ∀ m, e.BruteBest i j m ((List.range m).foldl (e.bruteStep i j) r i j) := by
    intro m
    induction m with
    | zero =>
      refine ⟨?_, fun k hk => by omega, Or.inl h⟩
      show 0 ≤ (r i j).score
      rw [h]; exact le_refl _
    | succ m ih =>
      rw [List.range_succ, List.foldl_append, List.foldl_cons, List.foldl_nil]
      generalize (List.range m).foldl (e.bruteStep i j) r = s at ih ⊢
      unfold Est.bruteStep Est.checkAll
      split_ifs with hs
      · rw [assign_same]
        refine ⟨le_trans ih.1 hs.le, ?_, Or.inr ⟨m, by omega, rfl, lt_of_le_of_lt ih.1 hs, rfl, ?_⟩⟩
        · intro k hk
          rcases Nat.lt_or_ge k m with h1 | h1
          · exact le_trans (ih.2.1 k h1) hs.le
          · rw [show k = m by omega]
        · unfold Est.Scored
          rw [if_neg (by simp)]
          exact planeScore_spec e i j _
      · refine ⟨ih.1, ?_, ?_⟩
        · intro k hk
          rcases Nat.lt_or_ge k m with h1 | h1
          · exact ih.2.1 k h1
          · rw [show k = m by omega]; exact not_lt.1 hs
        · rcases ih.2.2 with h1 | ⟨k, hk, h2⟩
          · exact Or.inl h1
          · exact Or.inr ⟨k, by omega, h2⟩
  exact this _

theorem before_irrefl (p : ℤ × ℤ) : ¬before p p := by
  rintro (h | h)
  · exact lt_irrefl _ h
  · exact lt_irrefl _ h.2

theorem bruteForce_best (e : Est) (i j : ℤ) :
    (¬e.inner i j → e.bruteForce i j = emptyPx) ∧ (e.inner i j → e.BruteBest i j e.numPlanes (e.bruteForce i j)) := by
  constructor
  · intro h
    unfold Est.bruteForce
    rw [foldl_elsewhere _ i j e.pixels]
    · rfl
    · intro r p hp
      refine brutePixel_elsewhere e r p i j ?_
      rintro ⟨rfl, rfl⟩
      exact h ((mem_pixels e p).1 hp)
  · intro h
    obtain ⟨l1, l2, hl⟩ := List.append_of_mem ((mem_pixels e (i, j)).2 h)
    have hs := pixels_sorted e
    unfold Est.bruteForce
    rw [hl] at hs ⊢
    rw [List.foldl_append, List.foldl_cons]
    rw [List.pairwise_append, List.pairwise_cons] at hs
    rw [foldl_elsewhere _ i j l2]
    · apply brutePixel_best
      rw [foldl_elsewhere _ i j l1]
      · rfl
      · intro r p hp
        refine brutePixel_elsewhere e r p i j ?_
        rintro ⟨h1, h2⟩
        have := hs.2.2 p hp (i, j) (List.mem_cons_self ..)
        rw [show p = (i, j) from Prod.ext h1.symm h2.symm] at this
        exact before_irrefl _ this
    · intro r p hp
      refine brutePixel_elsewhere e r p i j ?_
      rintro ⟨h1, h2⟩
      have := hs.2.1.1 p hp
      rw [show p = (i, j) from Prod.ext h1.symm h2.symm] at this
      exact before_irrefl _ this

/-- The depths of the sweep are from the least to the greatest one. -/
theorem sweep_range (e : Est) (h0 : 0 < e.minDepth) (h1 : e.minDepth ≤ e.maxDepth) (k : ℕ) (hk : k < e.numPlanes) :
    e.minDepth ≤ e.sweepDepth k ∧ e.sweepDepth k ≤ e.maxDepth := by
  unfold Est.sweepDepth
  split_ifs with h
  · exact ⟨le_refl _, h1⟩
  · have h2 : 0 < e.maxDepth := lt_of_lt_of_le h0 h1
    have hn : (0 : ℝ) < (e.numPlanes : ℝ) - 1 := by
      have : (1 : ℝ) < (e.numPlanes : ℝ) := by exact_mod_cast (by omega : 1 < e.numPlanes)
      linarith
    have hk' : (k : ℝ) ≤ (e.numPlanes : ℝ) - 1 := by
      have : (k : ℝ) + 1 ≤ (e.numPlanes : ℝ) := by exact_mod_cast hk
      linarith
    have hinv : 1 / e.maxDepth ≤ 1 / e.minDepth := one_div_le_one_div_of_le h0 h1
    set t : ℝ := (k : ℝ) / ((e.numPlanes : ℝ) - 1) with ht
    have t0 : 0 ≤ t := by positivity
    have t1 : t ≤ 1 := by rw [ht, div_le_one hn]; exact hk'
    have e1 : 1 / e.minDepth + (k : ℝ) * (1 / e.maxDepth - 1 / e.minDepth) / ((e.numPlanes : ℝ) - 1) =
        (1 - t) * (1 / e.minDepth) + t * (1 / e.maxDepth) := by rw [ht]; ring
    rw [e1]
    have hlo : 1 / e.maxDepth ≤ (1 - t) * (1 / e.minDepth) + t * (1 / e.maxDepth) := by nlinarith
    have hhi : (1 - t) * (1 / e.minDepth) + t * (1 / e.maxDepth) ≤ 1 / e.minDepth := by nlinarith
    have hp : 0 < 1 / e.maxDepth := by positivity
    constructor
    · rw [le_one_div h0 (lt_of_lt_of_le hp hlo)]; exact hhi
    · rw [one_div_le (lt_of_lt_of_le hp hlo) h2]; exact hlo

/-- C80. Brute force: a pixel too close to the border stays zero; any other has the best of the swept planes over all
other views, if some plane has a positive score, and stays zero if none has. The swept depths start at the least depth,
end at the greatest one and are equally spaced in inverse depth, and the depth of a pixel is one of them. -/
theorem C80_brute_force (e : Est) (hK : IsCamera (e.views 0).K) (h0 : 1 / 1000000 ≤ e.minDepth)
    (h1 : e.minDepth ≤ e.maxDepth) (h2 : e.maxDepth ≤ 1000000) (i j : ℤ) (p : Px) (hp : p = e.bruteForce i j) :
    (¬e.inner i j → p = emptyPx) ∧
    (e.inner i j → 0 ≤ p.score ∧
      (∀ k < e.numPlanes, ∀ n, e.other n → e.imageScore i j (e.sweepPlane i j k) n ≤ p.score) ∧
      (p = emptyPx ∨ (0 < p.score ∧ ∃ k < e.numPlanes, p.depth = e.sweepDepth k ∧ p.plane = e.sweepPlane i j k ∧
        e.other p.nghbr ∧ p.score = e.imageScore i j p.plane p.nghbr))) ∧
    (∀ k < e.numPlanes, e.minDepth ≤ e.sweepDepth k ∧ e.sweepDepth k ≤ e.maxDepth) ∧
    e.sweepDepth 0 = e.minDepth ∧ (1 < e.numPlanes → e.sweepDepth (e.numPlanes - 1) = e.maxDepth ∧
      ∀ k, k + 1 < e.numPlanes → 1 / e.sweepDepth k - 1 / e.sweepDepth (k + 1) =
        (1 / e.minDepth - 1 / e.maxDepth) / (e.numPlanes - 1)) := by
  have hmin : 0 < e.minDepth := lt_of_lt_of_le (by norm_num) h0
  have hmax : 0 < e.maxDepth := lt_of_lt_of_le hmin h1
  have hb := bruteForce_best e i j
  rw [← hp] at hb
  refine ⟨hb.1, ?_, fun k hk => sweep_range e hmin h1 k hk, ?_, ?_⟩
  · intro hi
    obtain ⟨b0, b1, b2⟩ := hb.2 hi
    refine ⟨b0, ?_, ?_⟩
    · intro k hk n hn
      exact le_trans ((planeScore_spec e i j _).1 n hn) (b1 k hk)
    · rcases b2 with b2 | ⟨k, hk, hplane, hs, hg⟩
      · exact Or.inl b2
      · refine Or.inr ⟨hs, k, hk, ?_, hplane, ?_⟩
        · rw [hg.1, hplane]
          have hr := sweep_range e hmin h1 k hk
          refine (C79_plane (e.views 0).K j i (e.sweepDepth k) ![0, 0, -1] (lt_of_lt_of_le hmin hr.1)
            (le_trans hr.2 h2) ?_).2
          have hz := ray_two hK j i
          simp only [dotProduct, Fin.sum_univ_three]
          rw [hz]
          simp
          have := le_trans h0 hr.1
          norm_num at this ⊢
          exact this
        · have := hg.2
          unfold Est.Scored at this
          rw [if_neg (by simp)] at this
          rcases this.2 with h | ⟨-, h⟩
          · exact h
          · rw [h] at hs; norm_num at hs
  · unfold Est.sweepDepth
    split_ifs
    · rfl
    · simp
  · intro hn
    have hn' : (e.numPlanes : ℝ) - 1 ≠ 0 := by
      have : (1 : ℝ) < (e.numPlanes : ℝ) := by exact_mod_cast hn
      linarith
    constructor
    · unfold Est.sweepDepth
      rw [if_neg (by omega)]
      rw [Nat.cast_sub (by omega), Nat.cast_one, mul_div_right_comm, div_self hn', one_mul]
      simp
    · intro k _
      unfold Est.sweepDepth
      rw [if_neg (by omega), if_neg (by omega)]
      rw [one_div_one_div, one_div_one_div]
      push_cast
      field_simp
      ring

/-! ### Post-processing -/

theorem sorted_ge (s : List ℝ) (hs : s.Pairwise (· ≤ ·)) (k : ℕ) (hk : k < s.length) (lo : ℝ) :
    lo ≤ s[k] ↔ s.length - k ≤ s.countP (fun x => decide (lo ≤ x)) := by
  rw [List.pairwise_iff_getElem] at hs
  have hle : ∀ a b (ha : a < s.length) (hb : b < s.length), a ≤ b → s[a] ≤ s[b] := by
    intro a b ha hb hab
    rcases Nat.lt_or_eq_of_le hab with h | h
    · exact hs a b ha hb h
    · subst h; exact le_refl _
  constructor
  · intro h
    have h1 : (s.drop k).countP (fun x => decide (lo ≤ x)) = (s.drop k).length := by
      rw [List.countP_eq_length]
      intro x hx
      obtain ⟨m, hm, rfl⟩ := List.mem_iff_getElem.1 hx
      rw [List.length_drop] at hm
      rw [List.getElem_drop]
      exact decide_eq_true (le_trans h (hle _ _ _ (by omega) (by omega)))
    have h2 : s.countP (fun x => decide (lo ≤ x)) = (s.take k).countP (fun x => decide (lo ≤ x)) +
        (s.drop k).countP (fun x => decide (lo ≤ x)) := by
      rw [← List.countP_append, List.take_append_drop]
    rw [h1, List.length_drop] at h2
    omega
  · intro h
    by_contra hc
    rw [not_le] at hc
    have h1 : (s.take (k + 1)).countP (fun x => decide (lo ≤ x)) = 0 := by
      rw [List.countP_eq_zero]
      intro x hx
      obtain ⟨m, hm, rfl⟩ := List.mem_iff_getElem.1 hx
      rw [List.length_take] at hm
      rw [List.getElem_take]
      simp only [decide_eq_true_eq, not_le]
      exact lt_of_le_of_lt (hle _ _ (by omega) hk (by omega)) hc
    have h2 : s.countP (fun x => decide (lo ≤ x)) = (s.take (k + 1)).countP (fun x => decide (lo ≤ x)) +
        (s.drop (k + 1)).countP (fun x => decide (lo ≤ x)) := by
      rw [← List.countP_append, List.take_append_drop]
    have h3 : (s.drop (k + 1)).countP (fun x => decide (lo ≤ x)) ≤ (s.drop (k + 1)).length := List.countP_le_length
    rw [List.length_drop] at h3
    omega

theorem sorted_le (s : List ℝ) (hs : s.Pairwise (· ≤ ·)) (k : ℕ) (hk : k < s.length) (hi : ℝ) :
    s[k] ≤ hi ↔ k + 1 ≤ s.countP (fun x => decide (x ≤ hi)) := by
  rw [List.pairwise_iff_getElem] at hs
  have hle : ∀ a b (ha : a < s.length) (hb : b < s.length), a ≤ b → s[a] ≤ s[b] := by
    intro a b ha hb hab
    rcases Nat.lt_or_eq_of_le hab with h | h
    · exact hs a b ha hb h
    · subst h; exact le_refl _
  constructor
  · intro h
    have h1 : (s.take (k + 1)).countP (fun x => decide (x ≤ hi)) = (s.take (k + 1)).length := by
      rw [List.countP_eq_length]
      intro x hx
      obtain ⟨m, hm, rfl⟩ := List.mem_iff_getElem.1 hx
      rw [List.length_take] at hm
      rw [List.getElem_take]
      exact decide_eq_true (le_trans (hle _ _ (by omega) hk (by omega)) h)
    have h2 : s.countP (fun x => decide (x ≤ hi)) = (s.take (k + 1)).countP (fun x => decide (x ≤ hi)) +
        (s.drop (k + 1)).countP (fun x => decide (x ≤ hi)) := by
      rw [← List.countP_append, List.take_append_drop]
    rw [h1, List.length_take] at h2
    omega
  · intro h
    by_contra hc
    rw [not_le] at hc
    have h1 : (s.drop k).countP (fun x => decide (x ≤ hi)) = 0 := by
      rw [List.countP_eq_zero]
      intro x hx
      obtain ⟨m, hm, rfl⟩ := List.mem_iff_getElem.1 hx
      rw [List.length_drop] at hm
      rw [List.getElem_drop]
      simp only [decide_eq_true_eq, not_le]
      exact lt_of_lt_of_le hc (hle _ _ (by omega) (by omega) (by omega))
    have h2 : s.countP (fun x => decide (x ≤ hi)) = (s.take k).countP (fun x => decide (x ≤ hi)) +
        (s.drop k).countP (fun x => decide (x ≤ hi)) := by
      rw [← List.countP_append, List.take_append_drop]
    have h3 : (s.take k).countP (fun x => decide (x ≤ hi)) ≤ (s.take k).length := List.countP_le_length
    rw [List.length_take] at h3
    omega

/-- The median is within bounds if and only if enough values are. -/
theorem median_iff (l : List ℝ) (n : ℕ) (hl : l.length = 2 * n + 1) (lo hi : ℝ) :
    (lo ≤ median l ↔ n + 1 ≤ l.countP (fun x => decide (lo ≤ x))) ∧
    (median l ≤ hi ↔ n + 1 ≤ l.countP (fun x => decide (x ≤ hi))) := by
  classical
  have hperm := List.mergeSort_perm l (fun a b : ℝ => decide (a ≤ b))
  have hs : (l.mergeSort (fun a b : ℝ => decide (a ≤ b))).Pairwise (· ≤ ·) :=
    (List.pairwise_mergeSort (le := fun a b : ℝ => decide (a ≤ b))
      (fun a b c h1 h2 => decide_eq_true (le_trans (of_decide_eq_true h1) (of_decide_eq_true h2)))
      (fun a b => by
        rcases le_total a b with h | h
        · simp [h]
        · simp [h]) l).imp (fun h => of_decide_eq_true h)
  have hlen : (l.mergeSort (fun a b : ℝ => decide (a ≤ b))).length = 2 * n + 1 := by
    rw [List.length_mergeSort, hl]
  have hk : n < (l.mergeSort (fun a b : ℝ => decide (a ≤ b))).length := by omega
  have hm : median l = (l.mergeSort (fun a b : ℝ => decide (a ≤ b)))[n] := by
    unfold median
    rw [show l.length / 2 = n by omega]
    rw [List.getD_eq_getElem?_getD, List.getElem?_eq_getElem hk, Option.getD_some]
  rw [hm, sorted_ge _ hs n hk, sorted_le _ hs n hk, hlen, hperm.countP_eq, hperm.countP_eq]
  constructor
  · constructor <;> intro h <;> omega
  · exact Iff.rfl

/-- The 25 depths around a pixel; outside the image, those of the nearest pixel inside. -/
noncomputable def Est.around (e : Est) (r : Res) (i j : ℤ) : List ℝ :=
  [-2, -1, 0, 1, 2].flatMap (fun u : ℤ => [-2, -1, 0, 1, 2].map (fun v : ℤ =>
    (r (max 0 (min ((e.images 0).rows - 1) (i + u))) (max 0 (min ((e.images 0).cols - 1) (j + v)))).depth))

/-- C80. Post-processing keeps a depth if and only if at least 13 of the 25 depths around it are not less than 95% of
it and at least 13 are not more than 105% of it, and sets it to zero otherwise; planes, scores and neighbors stay. In
particular a pixel that has no depth at 13 of the 25 pixels around it loses its own. -/
theorem C80_postprocess (e : Est) (r : Res) (i j : ℤ) (hr : ∀ a b, 0 ≤ (r a b).depth) :
    ((e.postProcess r i j).plane = (r i j).plane ∧ (e.postProcess r i j).score = (r i j).score ∧
      (e.postProcess r i j).nghbr = (r i j).nghbr) ∧
    (13 ≤ (e.around r i j).countP (fun x => decide (95 / 100 * (r i j).depth ≤ x)) ∧
      13 ≤ (e.around r i j).countP (fun x => decide (x ≤ 105 / 100 * (r i j).depth)) →
      (e.postProcess r i j).depth = (r i j).depth) ∧
    (¬(13 ≤ (e.around r i j).countP (fun x => decide (95 / 100 * (r i j).depth ≤ x)) ∧
      13 ≤ (e.around r i j).countP (fun x => decide (x ≤ 105 / 100 * (r i j).depth))) →
      (e.postProcess r i j).depth = 0) ∧
    (13 ≤ (e.around r i j).countP (fun x => decide (x = 0)) → (e.postProcess r i j).depth = 0) := by
  have hwin : e.window r i j = e.around r i j := rfl
  have hlen : (e.around r i j).length = 2 * 12 + 1 := rfl
  have hmed := median_iff (e.around r i j) 12 hlen (95 / 100 * (r i j).depth) (105 / 100 * (r i j).depth)
  rw [← hmed.1, ← hmed.2]
  have hdrop : ¬(95 / 100 * (r i j).depth ≤ median (e.around r i j) ∧
      median (e.around r i j) ≤ 105 / 100 * (r i j).depth) → (e.postProcess r i j).depth = 0 := by
    intro hm
    unfold Est.postProcess
    split_ifs with hc
    · rfl
    · exfalso
      rw [not_or, not_lt, hwin] at hc
      have hpos : 0 < (r i j).depth := lt_of_le_of_ne (hr i j) (Ne.symm hc.1)
      rw [div_le_iff₀ hpos, abs_le] at hc
      apply hm
      constructor <;> linarith [hc.2.1, hc.2.2]
  refine ⟨?_, ?_, hdrop, ?_⟩
  · unfold Est.postProcess
    split_ifs <;> exact ⟨rfl, rfl, rfl⟩
  · intro hm
    unfold Est.postProcess
    split_ifs with hc
    · rcases hc with hc | hc
      · exact hc.symm
      · exfalso
        rw [hwin] at hc
        rcases eq_or_lt_of_le (hr i j) with h0 | hpos
        · rw [← h0] at hc; simp at hc; norm_num at hc
        · have : |(r i j).depth - median (e.around r i j)| / (r i j).depth ≤ 5 / 100 := by
            rw [div_le_iff₀ hpos, abs_le]
            constructor <;> linarith [hm.1, hm.2]
          exact absurd hc (not_lt.2 this)
    · rfl
  · intro hz
    by_cases h0 : (r i j).depth = 0
    · unfold Est.postProcess
      rw [if_pos (Or.inl h0)]
    · apply hdrop
      intro hm
      have hpos : 0 < (r i j).depth := lt_of_le_of_ne (hr i j) (Ne.symm h0)
      have h1 := (median_iff (e.around r i j) 12 hlen 0 0).2.2 (by
        refine le_trans hz ?_
        apply List.countP_mono_left
        intro x _ hx
        simp only [decide_eq_true_eq] at hx ⊢
        exact hx.le)
      nlinarith [hm.1]

theorem saved_aux (e : Est) (sample : Bool) (w : ℤ → ℤ → InitDraw) (d d' : ℕ → ℤ → ℤ → Draw) (hw : e.Draws w d d')
    (minScore : ℝ) (i j : ℤ) (p : Px) (hp : p = e.patchMatch sample w d d' i j) :
    (e.savedDepth minScore p = 0 ∨ e.savedDepth minScore p = p.depth) ∧
    (e.savedDepth minScore p ≠ 0 → e.inner i j ∧ ¬e.ignored i j ∧ 0 < p.depth ∧ p.depth < e.maxDepth ∧
      minScore < p.score ∧ e.Scored sample i j p) := by
  have hc : ∀ c : ℝ, ∀ P Q : Prop, ∀ [Decidable P] [Decidable Q],
      c * (if P then 1 else 0) * (if Q then 1 else 0) = if P ∧ Q then c else 0 := by
    intro c P Q _ _
    by_cases hP : P <;> by_cases hQ : Q <;> simp [hP, hQ]
  unfold Est.savedDepth
  rw [hc]
  constructor
  · split_ifs
    · exact Or.inr rfl
    · exact Or.inl rfl
  · intro h
    split_ifs at h with hcond
    · set q := e.rounds sample d d' (e.start sample w) e.iterations i j with hq
      have hpp := (C80_pixels e sample w d d' hw e.iterations i j q hq)
      have hval : p = { q with depth := 0 } ∨ p = q := by
        rw [hp]
        unfold Est.patchMatch Est.postProcess
        split_ifs
        · exact Or.inl rfl
        · exact Or.inr rfl
      have hpq : p = q := by
        rcases hval with hv | hv
        · rw [hv] at h; exact absurd rfl h
        · exact hv
      rw [hpq] at h hcond ⊢
      by_cases hin : e.inner i j ∧ ¬e.ignored i j
      · have := hpp.2 hin.1 hin.2
        exact ⟨hin.1, hin.2, this.1, hcond.1, hcond.2, this.2.1⟩
      · exfalso
        apply h
        apply (hpp.1 _).1
        by_contra hno
        rw [not_or, not_not] at hno
        exact hin hno
    · exact absurd rfl h

/-- C80. What `compute_depthmap` saves: a depth of patch match is saved, unchanged, only for a pixel with a patch
inside the image, not masked out, with contrast, with a score above the least one, and below the greatest depth; every
other pixel is saved as zero. The least depth is not enforced. -/
theorem C80_saved (e : Est) (sample : Bool) (w : ℤ → ℤ → InitDraw) (d d' : ℕ → ℤ → ℤ → Draw) (hw : e.Draws w d d')
    (minScore : ℝ) (i j : ℤ) (p : Px) (hp : p = e.patchMatch sample w d d' i j) :
    (e.savedDepth minScore p = 0 ∨ e.savedDepth minScore p = p.depth) ∧
    (e.savedDepth minScore p ≠ 0 → e.inner i j ∧ ¬(e.mask i j = 0 ∨ variance (e.buffer i j) < e.minVariance) ∧ 0 < p.depth ∧ p.depth < e.maxDepth ∧
      minScore < p.score ∧ e.Scored sample i j p) :=
  saved_aux e sample w d d' hw minScore i j p hp

/-! ### Ignored pixels -/

/-- C80. Brute force looks neither at the mask nor at the contrast. -/
theorem C80_brute_mask (e : Est) (mask : ℤ → ℤ → ℕ) (v : ℝ) :
    Est.bruteForce { e with mask := mask, minVariance := v } = e.bruteForce := rfl

/-- C80. The score of a plane for another view compares the first image with the image of that view: it is 1 if the
other view shows, at the positions to which the plane maps the patch, the same picture up to brightness and contrast. -/
theorem C80_image_score (e : Est) (i j : ℤ) (plane : V3) (n : ℕ) (H : M3)
    (hH : H = homography (e.views 0) (e.views n) plane) (a b : ℝ) (ha : 0 < a)
    (hw : H 2 0 * j + H 2 1 * i + H 2 2 ≠ 0)
    (hsame : ∀ dx dy : ℤ, |dx| ≤ e.hpz → |dy| ≤ e.hpz →
      interpolate (e.images n) (patchPoint H i j dx dy).2 (patchPoint H i j dx dy).1 =
        a * (e.images 0).at' (i + dy) (j + dx) + b)
    (h0 : 1 / 10 ≤ wcov (patchSamples (e.images 0) (e.images n) H e.hpz i j) (fun x _ => x) (fun x _ => x))
    (hn : 1 / 10 ≤ wcov (patchSamples (e.images 0) (e.images n) H e.hpz i j) (fun _ y => y) (fun _ y => y)) :
    e.imageScore i j plane n = 1 := by
  have := (C79_score (e.images 0) (e.images n) H e.hpz i j).2.2.2 a b ha hw hsame h0 hn
  rw [hH] at this
  exact this

theorem sum_sq_replicate (n : ℕ) (c m : ℝ) :
    ((List.replicate n c).map (fun x => (x - m) * (x - m))).sum = n * ((c - m) * (c - m)) := by
  rw [List.map_replicate, List.sum_replicate, nsmul_eq_mul]

/-- C80. A patch of uniform brightness `c` has no contrast if the patch size is odd; but if it is even the contrast
computed grows with the brightness, so that uniform areas of bright images are not ignored. -/
theorem C80_uniform (e : Est) (c : ℝ) (hc : ∀ i j, (e.images 0).at' i j = c) (i j : ℤ) (hp : 0 < e.patch) :
    (e.patch % 2 = 1 → variance (e.buffer i j) = 0) ∧
    (e.patch % 2 = 0 → variance (e.buffer i j) =
      c ^ 2 * ((e.patch - 1 : ℝ) ^ 2 / (e.patch : ℝ) ^ 2) * (1 - (e.patch - 1 : ℝ) ^ 2 / (e.patch : ℝ) ^ 2)) := by
  have hfill : (offsets e.hpz).flatMap (fun u : ℤ => (offsets e.hpz).map (fun v : ℤ =>
      (e.images 0).at' (i + u) (j + v))) = List.replicate ((2 * e.hpz + 1) * (2 * e.hpz + 1)) c := by
    rw [List.eq_replicate_iff]
    constructor
    · rw [List.length_flatMap]
      simp only [offsets, List.length_map, List.length_range, List.map_const', List.sum_replicate, smul_eq_mul]
    · intro b hb
      obtain ⟨u, -, hb⟩ := List.mem_flatMap.1 hb
      obtain ⟨v, -, rfl⟩ := List.mem_map.1 hb
      exact hc _ _
  have hvar : ∀ m k : ℕ, m + k = e.patch * e.patch → variance (List.replicate m c ++ List.replicate k 0) =
      (m * ((c - m * c / (e.patch : ℝ) ^ 2) * (c - m * c / (e.patch : ℝ) ^ 2)) +
        k * ((0 - m * c / (e.patch : ℝ) ^ 2) * (0 - m * c / (e.patch : ℝ) ^ 2))) / (e.patch : ℝ) ^ 2 := by
    intro m k hmk
    unfold variance
    have hlen : ((List.replicate m c ++ List.replicate k (0 : ℝ)).length : ℝ) = (e.patch : ℝ) ^ 2 := by
      rw [List.length_append, List.length_replicate, List.length_replicate, hmk, pow_two]; push_cast; rfl
    have hsum : (List.replicate m c ++ List.replicate k (0 : ℝ)).sum = m * c := by
      rw [List.sum_append, List.sum_replicate, List.sum_replicate, nsmul_eq_mul, nsmul_eq_mul, mul_zero, add_zero]
    rw [hlen, hsum, List.map_append, List.sum_append, sum_sq_replicate, sum_sq_replicate]
  have hpr : (e.patch : ℝ) ≠ 0 := by exact_mod_cast hp.ne'
  unfold Est.buffer
  rw [hfill]
  constructor
  · intro h
    have hh : 2 * e.hpz + 1 = e.patch := by unfold Est.hpz; omega
    rw [hh, Nat.sub_self, hvar _ _ (by omega)]
    push_cast
    field_simp
    ring
  · intro h
    have hh : 2 * e.hpz + 1 = e.patch - 1 := by unfold Est.hpz; omega
    have hle : (e.patch - 1) * (e.patch - 1) ≤ e.patch * e.patch := Nat.mul_le_mul (by omega) (by omega)
    rw [hh, hvar _ _ (by omega), Nat.cast_sub hle]
    push_cast
    rw [Nat.cast_sub (by omega)]
    field_simp
    ring

/-! ### Cases in which the hypotheses hold -/

/-- Three views of an image with vertical stripes. -/
noncomputable def exEst : Est where
  views := fun _ => ⟨scaledK 1 5 5, 1, ![0, 0, 0]⟩
  images := fun _ => ⟨5, 5, fun _ j => if j = 2 then 9 else 0⟩
  count := 3
  mask := fun _ _ => 255
  patch := 3
  minVariance := 1
  minDepth := 1
  maxDepth := 10
  numPlanes := 4
  iterations := 3

example : exEst.Draws (fun _ _ => ⟨2, 0, 0, 1⟩) (fun _ _ _ => ⟨fun _ => (0, 0, 0), fun n => 3 - n⟩)
    (fun _ _ _ => ⟨fun _ => (0, 0, 0), fun n => 3 - n⟩) := by
  have h : ∀ n : ℕ, exEst.other n → exEst.other (3 - n) ∧ 3 - n ≠ n := by
    rintro n ⟨h1, h2⟩
    have h2' : n < 3 := h2
    refine ⟨⟨by omega, ?_⟩, by omega⟩
    show 3 - n < 3
    omega
  exact ⟨fun _ _ => two_pos, fun _ _ => ⟨le_refl _, by show 1 < 3; omega⟩, fun _ _ _ n hn _ => h n hn,
    fun _ _ _ n hn _ => h n hn⟩

/-- A pixel in the middle is not ignored, one at the border is not inner. -/
example : exEst.inner 2 2 ∧ ¬exEst.ignored 2 2 ∧ ¬exEst.inner 0 2 := by
  have hh : exEst.hpz = 1 := rfl
  refine ⟨?_, ?_, ?_⟩
  · unfold Est.inner; rw [hh]; decide
  · unfold Est.ignored
    rw [not_or]
    refine ⟨by show ¬(255 = 0); omega, ?_⟩
    have : exEst.buffer 2 2 = [0, 9, 0, 0, 9, 0, 0, 9, 0] := by
      unfold Est.buffer
      rw [hh]
      show _ ++ List.replicate 0 0 = _
      have ho : offsets 1 = [-1, 0, 1] := by decide
      rw [ho]
      simp [exEst]
    rw [this]
    show ¬(_ < (1 : ℝ))
    norm_num [variance]
  · unfold Est.inner; rw [hh]; decide

example : IsCamera (exEst.views 0).K ∧ 1 / 1000000 ≤ exEst.minDepth ∧ exEst.minDepth ≤ exEst.maxDepth ∧
    exEst.maxDepth ≤ 1000000 := by
  refine ⟨(C79_camera_matrix 1 5 5 one_ne_zero (by norm_num) 1 ![0, 0, 0]).1, ?_, ?_, ?_⟩
  · show (1 : ℝ) / 1000000 ≤ 1; norm_num
  · show (1 : ℝ) ≤ 10; norm_num
  · show (10 : ℝ) ≤ 1000000; norm_num

end Verif.PatchMatch
