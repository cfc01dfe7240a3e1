import Verif.Model.CommonTracks
import Verif.Lemmas.TracksManager
import Verif.Props.Superimpose
import Mathlib.Tactic.FinCases

/-!
C91: the tracks two reconstructions have in common, and what is computed from them.
-/
set_option linter.unusedSectionVars false
set_option linter.unusedSimpArgs false
namespace Verif.CommonTracks
open Matrix Verif.Superimpose
variable {S T F O : Type} [DecidableEq S] [DecidableEq T] [DecidableEq F]

/-! ### Specification -/

/-- Track `t` is seen in image `s` as feature `f`. -/
def Sees (fid : O → F) (m : TM S T O) (s : S) (t : T) (f : F) : Prop := ∃ o, m.getObservation s t = .ok o ∧ fid o = f

/-- Every feature belongs to one track only. -/
def OneTrack (fid : O → F) (m : TM S T O) : Prop := ∀ s t t' f, Sees fid m s t f → Sees fid m s t' f → t = t'

/-! ### Helpers -/

theorem sees_iff (fid : O → F) {m : TM S T O} (h : TM.Reachable m) (s : S) (t : T) (f : F) :
    Sees fid m s t f ↔ ∃ d o, m.perShot.get? s = some d ∧ (t, o) ∈ d ∧ fid o = f := by
  have hi := TM.inv_of_reachable h
  unfold Sees TM.getObservation
  constructor
  · rintro ⟨o, ho, hf⟩
    cases hd : m.perShot.get? s with
    | none => rw [hd] at ho; exact absurd ho (by simp)
    | some d =>
      rw [hd] at ho
      simp only at ho
      cases ht : d.get? t with
      | none => rw [ht] at ho; exact absurd ho (by simp)
      | some o' =>
        rw [ht] at ho
        simp only [Except.ok.injEq] at ho
        subst ho
        exact ⟨d, o', rfl, Dict.mem_of_get? ht, hf⟩
  · rintro ⟨d, o, hd, hm, hf⟩
    refine ⟨o, ?_, hf⟩
    rw [hd]
    simp only
    rw [Dict.get?_of_mem (hi.wfS.2 s d hd) hm]

theorem features_foldl (fid : O → F) (l : Dict T O) (d : Dict F T) (f : F) :
    ((l.foldl (addFeature fid) d).get? f = none ↔ d.get? f = none ∧ ∀ e ∈ l, fid e.2 ≠ f) ∧
    (∀ t, (l.foldl (addFeature fid) d).get? f = some t → d.get? f = some t ∨ ∃ e ∈ l, fid e.2 = f ∧ e.1 = t) := by
  induction l generalizing d with
  | nil => simp
  | cons e l ih =>
    obtain ⟨h1, h2⟩ := ih (addFeature fid d e)
    simp only [List.foldl_cons, List.mem_cons, forall_eq_or_imp]
    have hg : (addFeature fid d e).get? f = if f = fid e.2 then some e.1 else d.get? f := by
      unfold addFeature
      rw [Dict.get?_set]
      by_cases h : f = fid e.2
      · rw [if_pos h, if_pos h.symm]
      · rw [if_neg h, if_neg (fun e => h e.symm)]
    constructor
    · rw [h1, hg]
      by_cases hf : f = fid e.2
      · rw [if_pos hf]
        constructor
        · rintro ⟨h, -⟩; exact absurd h (by simp)
        · rintro ⟨-, h, -⟩; exact absurd hf.symm h
      · rw [if_neg hf]
        constructor
        · rintro ⟨h, h'⟩; exact ⟨h, fun e => hf e.symm, h'⟩
        · rintro ⟨h, -, h'⟩; exact ⟨h, h'⟩
    · intro t ht
      rcases h2 t ht with h | ⟨e', he', h⟩
      · rw [hg] at h
        by_cases hf : f = fid e.2
        · rw [if_pos hf] at h
          exact Or.inr ⟨e, Or.inl rfl, hf.symm, by simpa using h⟩
        · rw [if_neg hf] at h
          exact Or.inl h
      · exact Or.inr ⟨e', Or.inr he', h⟩

theorem features_none (fid : O → F) (l : Dict T O) (f : F) : (features fid l).get? f = none ↔ ∀ e ∈ l, fid e.2 ≠ f := by
  have := (features_foldl fid l [] f).1
  simpa [features] using this

theorem features_some (fid : O → F) (l : Dict T O) (f : F) (t : T) (h : (features fid l).get? f = some t) :
    ∃ e ∈ l, fid e.2 = f ∧ e.1 = t := by
  rcases (features_foldl fid l [] f).2 t h with h | h
  · exact absurd h (by simp)
  · exact h

theorem mem_corresponding (fid : O → F) (d1 d2 : Dict T O) (t1 t2 : T) :
    (t1, t2) ∈ corresponding fid d1 d2 ↔ ∃ o2, (t2, o2) ∈ d2 ∧ (features fid d1).get? (fid o2) = some t1 := by
  unfold corresponding
  rw [List.mem_filterMap]
  constructor
  · rintro ⟨⟨t, o⟩, he, h⟩
    simp only [Option.map_eq_some_iff, Prod.mk.injEq] at h
    obtain ⟨a, ha, rfl, rfl⟩ := h
    exact ⟨o, he, ha⟩
  · rintro ⟨o, ho, h⟩
    exact ⟨(t2, o), ho, by simp [h]⟩

theorem mem_common (fid : O → F) (r1 r2 : Rec S T) (m1 m2 : TM S T O) (t1 t2 : T) :
    (t1, t2) ∈ commonTracks fid r1 r2 m1 m2 ↔ (r1.points.get? t1).isSome ∧ (r2.points.get? t2).isSome ∧
      ∃ s ∈ r1.shots, s ∈ r2.shots ∧ ∃ d1 d2, m1.perShot.get? s = some d1 ∧ m2.perShot.get? s = some d2 ∧
        (t1, t2) ∈ corresponding fid d1 d2 := by
  unfold commonTracks
  rw [List.mem_dedup, List.mem_flatMap]
  constructor
  · rintro ⟨s, hs, h⟩
    rw [List.mem_filter, decide_eq_true_eq] at hs
    unfold inImage at h
    split at h
    · rename_i d1 d2 h1 h2
      rw [List.mem_filter, Bool.and_eq_true] at h
      exact ⟨h.2.1, h.2.2, s, hs.1, hs.2, d1, d2, h1, h2, h.1⟩
    · exact absurd h (by simp)
  · rintro ⟨p1, p2, s, hs1, hs2, d1, d2, h1, h2, h⟩
    refine ⟨s, List.mem_filter.2 ⟨hs1, by simpa using hs2⟩, ?_⟩
    unfold inImage
    rw [h1, h2]
    simp only
    rw [List.mem_filter, Bool.and_eq_true]
    exact ⟨h, p1, p2⟩

/-! ### Common tracks -/

/-- **Sound.** Two tracks are called common only if both have a point and some image of both reconstructions shows them as the
same feature. Every pair is listed once. -/
theorem C91_sound (fid : O → F) (r1 r2 : Rec S T) (m1 m2 : TM S T O) (h1 : TM.Reachable m1) (h2 : TM.Reachable m2) :
    (commonTracks fid r1 r2 m1 m2).Nodup ∧
    ∀ t1 t2, (t1, t2) ∈ commonTracks fid r1 r2 m1 m2 → (r1.points.get? t1).isSome ∧ (r2.points.get? t2).isSome ∧
      ∃ s ∈ r1.shots, s ∈ r2.shots ∧ ∃ f, Sees fid m1 s t1 f ∧ Sees fid m2 s t2 f := by
  refine ⟨List.nodup_dedup _, ?_⟩
  intro t1 t2 h
  obtain ⟨p1, p2, s, hs1, hs2, d1, d2, e1, e2, hc⟩ := (mem_common fid r1 r2 m1 m2 t1 t2).1 h
  obtain ⟨o2, ho2, hf⟩ := (mem_corresponding fid d1 d2 t1 t2).1 hc
  obtain ⟨⟨t, o1⟩, ho1, hfe, rfl⟩ := features_some fid d1 _ t1 hf
  exact ⟨p1, p2, s, hs1, hs2, fid o2, (sees_iff fid h1 s _ _).2 ⟨d1, o1, e1, ho1, hfe⟩,
    (sees_iff fid h2 s _ _).2 ⟨d2, o2, e2, ho2, rfl⟩⟩

/-- **Complete.** If every feature belongs to at most one track of the first manager, exactly the pairs of tracks with points
that share a feature in some image of both reconstructions are found. -/
theorem C91_complete (fid : O → F) (r1 r2 : Rec S T) (m1 m2 : TM S T O) (h1 : TM.Reachable m1) (h2 : TM.Reachable m2)
    (hu : OneTrack fid m1) (t1 t2 : T) :
    (t1, t2) ∈ commonTracks fid r1 r2 m1 m2 ↔ (r1.points.get? t1).isSome ∧ (r2.points.get? t2).isSome ∧
      ∃ s ∈ r1.shots, s ∈ r2.shots ∧ ∃ f, Sees fid m1 s t1 f ∧ Sees fid m2 s t2 f := by
  constructor
  · exact (C91_sound fid r1 r2 m1 m2 h1 h2).2 t1 t2
  · rintro ⟨p1, p2, s, hs1, hs2, f, hs, hs'⟩
    obtain ⟨d1, o1, e1, ho1, hf1⟩ := (sees_iff fid h1 s t1 f).1 hs
    obtain ⟨d2, o2, e2, ho2, hf2⟩ := (sees_iff fid h2 s t2 f).1 hs'
    refine (mem_common fid r1 r2 m1 m2 t1 t2).2 ⟨p1, p2, s, hs1, hs2, d1, d2, e1, e2, ?_⟩
    refine (mem_corresponding fid d1 d2 t1 t2).2 ⟨o2, ho2, ?_⟩
    cases hg : (features fid d1).get? (fid o2) with
    | none =>
      rw [features_none] at hg
      exact absurd (hf1.trans hf2.symm) (hg _ ho1)
    | some t =>
      obtain ⟨⟨t', o⟩, ho, hfe, rfl⟩ := features_some fid d1 _ t hg
      have : t' = t1 := hu s t' t1 f ((sees_iff fid h1 s t' f).2 ⟨d1, o, e1, ho, hfe.trans hf2⟩) hs
      simp only [this]

/-- With one track per feature in both managers, the two directions find the same pairs. -/
theorem C91_symmetric (fid : O → F) (r1 r2 : Rec S T) (m1 m2 : TM S T O) (h1 : TM.Reachable m1) (h2 : TM.Reachable m2)
    (hu1 : OneTrack fid m1) (hu2 : OneTrack fid m2) (t1 t2 : T) :
    (t1, t2) ∈ commonTracks fid r1 r2 m1 m2 ↔ (t2, t1) ∈ commonTracks fid r2 r1 m2 m1 := by
  rw [C91_complete fid r1 r2 m1 m2 h1 h2 hu1, C91_complete fid r2 r1 m2 m1 h2 h1 hu2]
  constructor
  · rintro ⟨a, b, s, c, d, f, e, g⟩; exact ⟨b, a, s, d, c, f, g, e⟩
  · rintro ⟨b, a, s, d, c, f, g, e⟩; exact ⟨a, b, s, c, d, f, e, g⟩

/-! ### Resection of one reconstruction by the other -/

/-- The pair of points of a pair of tracks. -/
def lookupPair (r1 r2 : Rec S T) (t : T × T) : Option (Vec 3 × Vec 3) :=
  match r1.points.get? t.1, r2.points.get? t.2 with
  | some x, some y => some (x, y)
  | _, _ => none

theorem pointPairs_eq (r1 r2 : Rec S T) (l : List (T × T)) : pointPairs r1 r2 l = l.mapM (lookupPair r1 r2) := rfl

theorem pointPairs_some (r1 r2 : Rec S T) (l : List (T × T))
    (h : ∀ t ∈ l, (r1.points.get? t.1).isSome ∧ (r2.points.get? t.2).isSome) :
    ∃ pairs, pointPairs r1 r2 l = some pairs ∧ pairs.length = l.length ∧
      ∀ (i : ℕ) (t : T × T), l[i]? = some t → ∃ p : Vec 3 × Vec 3, pairs[i]? = some p ∧ r1.points.get? t.1 = some p.1 ∧ r2.points.get? t.2 = some p.2 := by
  rw [pointPairs_eq]
  induction l with
  | nil => exact ⟨[], rfl, rfl, by simp⟩
  | cons a l ih =>
    obtain ⟨pairs, h1, h2, h3⟩ := ih (fun t ht => h t (List.mem_cons_of_mem _ ht))
    obtain ⟨ha, hb⟩ := h a List.mem_cons_self
    obtain ⟨x, hx⟩ := Option.isSome_iff_exists.1 ha
    obtain ⟨y, hy⟩ := Option.isSome_iff_exists.1 hb
    refine ⟨(x, y) :: pairs, ?_, by simp [h2], ?_⟩
    · have e : lookupPair r1 r2 a = some (x, y) := by simp [lookupPair, hx, hy]
      rw [List.mapM_cons, e, h1]
      rfl
    · intro i t hi
      match i with
      | 0 =>
        simp only [List.getElem?_cons_zero, Option.some.injEq] at hi
        subst hi
        exact ⟨(x, y), rfl, hx, hy⟩
      | i + 1 =>
        simp only [List.getElem?_cons_succ] at hi ⊢
        exact h3 i t hi

theorem common_points (fid : O → F) (r1 r2 : Rec S T) (m1 m2 : TM S T O) (order : List (T × T) → List (T × T))
    (horder : ∀ l, (order l).Perm l) :
    ∀ t ∈ order (commonTracks fid r1 r2 m1 m2), (r1.points.get? t.1).isSome ∧ (r2.points.get? t.2).isSome := by
  intro t ht
  have := (mem_common fid r1 r2 m1 m2 t.1 t.2).1 ((horder _).mem_iff.1 ht)
  exact ⟨this.1, this.2.1⟩

theorem getElem?_filterMap_range {A : Type} (l : List A) : (List.range l.length).filterMap (fun i => l[i]?) = l := by
  induction l with
  | nil => rfl
  | cons a l ih =>
    rw [List.length_cons, List.range_succ_eq_map, List.filterMap_cons]
    simp only [List.getElem?_cons_zero, List.filterMap_map]
    congr 1

/-- **Resection.** At most six common tracks: no result. Otherwise the result, whatever minimal number of inliers was asked for,
is either a failure or a transform with a non-empty list of tracks, and these tracks are exactly the common ones whose two
points are closer than the threshold after the transform. -/
theorem C91_resect (svd : Mat 3 → Svd 3) (fid : O → F) (order : List (T × T) → List (T × T)) (horder : ∀ l, (order l).Perm l)
    (r1 r2 : Rec S T) (m1 m2 : TM S T O) (perms : List (List ℕ)) (hne : perms ≠ [])
    (hp : ∀ perm ∈ perms, perm.Perm (List.range (commonTracks fid r1 r2 m1 m2).length)) (threshold : ℝ) (minInliers : ℕ) :
    ((commonTracks fid r1 r2 m1 m2).length ≤ 6 →
      resect svd fid order r1 r2 m1 m2 perms threshold minInliers = some (false, none, [])) ∧
    (6 < (commonTracks fid r1 r2 m1 m2).length →
      resect svd fid order r1 r2 m1 m2 perms threshold minInliers = some (false, none, []) ∨
      ∃ (M : Sim 3) (inl : List (T × T)), resect svd fid order r1 r2 m1 m2 perms threshold minInliers = some (true, some M, inl) ∧
        inl ≠ [] ∧ inl.Nodup ∧
        ∀ t1 t2, (t1, t2) ∈ inl ↔ (t1, t2) ∈ commonTracks fid r1 r2 m1 m2 ∧
          ∃ x y, r1.points.get? t1 = some x ∧ r2.points.get? t2 = some y ∧
            Real.sqrt ((y - M.apply x) ⬝ᵥ (y - M.apply x)) < threshold) := by
  have hlen := (horder (commonTracks fid r1 r2 m1 m2)).length_eq
  constructor
  · intro h
    unfold resect alignTwo
    simp only
    rw [if_neg (by omega)]
    simp
  · intro h
    obtain ⟨pairs, h1, h2, h3⟩ := pointPairs_some r1 r2 _ (common_points fid r1 r2 m1 m2 order horder)
    obtain ⟨M, inl, hM⟩ := C88_returns svd (n := 2) (by norm_num) pairs (by omega) perms
      (by rw [h2, hlen]; exact hp) hne threshold
    have hal : alignTwo svd r1 r2 (order (commonTracks fid r1 r2 m1 m2)) perms threshold =
        if inl.length > 0 then some (true, some M, inl) else some (false, none, []) := by
      unfold alignTwo
      rw [if_pos (by omega), h1]
      simp only
      rw [hM]
    by_cases hi : inl.length > 0
    · right
      rw [if_pos hi] at hal
      obtain ⟨hsort, hmem⟩ := C88_inliers svd pairs perms threshold M inl hM
      have hnd : (order (commonTracks fid r1 r2 m1 m2)).Nodup := (horder _).nodup_iff.2 (List.nodup_dedup _)
      have hin : ∀ t, t ∈ inl.filterMap (fun i => (order (commonTracks fid r1 r2 m1 m2))[i]?) ↔
          t ∈ order (commonTracks fid r1 r2 m1 m2) ∧ ∃ x y, r1.points.get? t.1 = some x ∧ r2.points.get? t.2 = some y ∧
            Real.sqrt ((y - M.apply x) ⬝ᵥ (y - M.apply x)) < threshold := by
        intro t
        rw [List.mem_filterMap]
        constructor
        · rintro ⟨i, hi, ht⟩
          obtain ⟨p, hpi, hr⟩ := (hmem i).1 hi
          obtain ⟨q, hq, e1, e2⟩ := h3 i t ht
          rw [hpi] at hq
          simp only [Option.some.injEq] at hq
          subst hq
          exact ⟨List.mem_of_getElem? ht, p.1, p.2, e1, e2, hr⟩
        · rintro ⟨ht, x, y, e1, e2, hr⟩
          obtain ⟨i, hi⟩ := List.mem_iff_getElem?.1 ht
          obtain ⟨q, hq, e1', e2'⟩ := h3 i t hi
          rw [e1] at e1'
          rw [e2] at e2'
          simp only [Option.some.injEq] at e1' e2'
          exact ⟨i, (hmem i).2 ⟨q, hq, by rw [← e1', ← e2']; exact hr⟩, hi⟩
      refine ⟨M, inl.filterMap (fun i => (order (commonTracks fid r1 r2 m1 m2))[i]?), ?_, ?_, ?_, ?_⟩
      · unfold resect
        simp only
        rw [hal]
        simp
      · obtain ⟨i, hi'⟩ := List.exists_mem_of_length_pos hi
        obtain ⟨p, hpi, -⟩ := (hmem i).1 hi'
        have hlt := (List.getElem?_eq_some_iff.1 hpi).1
        rw [h2] at hlt
        refine List.ne_nil_of_mem (List.mem_filterMap.2 ⟨i, hi', List.getElem?_eq_getElem hlt⟩)
      · apply List.Nodup.filterMap _ (hsort.imp (fun h => Nat.ne_of_lt h))
        intro i j t hi hj
        rw [Option.mem_def] at hi hj
        obtain ⟨hi', ei⟩ := List.getElem?_eq_some_iff.1 hi
        obtain ⟨hj', ej⟩ := List.getElem?_eq_some_iff.1 hj
        exact (List.Nodup.getElem_inj_iff hnd).1 (ei.trans ej.symm)
      · intro t1 t2
        rw [hin, (horder _).mem_iff]
    · left
      rw [if_neg hi] at hal
      unfold resect
      simp only
      rw [hal]
      simp

/-- **Exact resection.** If a similarity sends the point of the first track of every common pair to the point of the second one,
there are more than six, and one of the random samples is three points not on a line, the similarity is returned with all
common tracks. -/
theorem C91_exact (svd : Mat 3 → Svd 3) (hs : ∀ C, IsSvd C (svd C)) (fid : O → F) (order : List (T × T) → List (T × T))
    (horder : ∀ l, (order l).Perm l) (r1 r2 : Rec S T) (m1 m2 : TM S T O) (perms : List (List ℕ))
    (hp : ∀ perm ∈ perms, perm.Perm (List.range (commonTracks fid r1 r2 m1 m2).length)) (threshold : ℝ) (ht : 0 < threshold)
    (minInliers : ℕ) (h6 : 6 < (commonTracks fid r1 r2 m1 m2).length)
    (s : ℝ) (hs0 : 0 < s) (Q : Mat 3) (hQ : IsRot Q) (t : Vec 3)
    (hrel : ∀ t1 t2 x y, (t1, t2) ∈ commonTracks fid r1 r2 m1 m2 → r1.points.get? t1 = some x → r2.points.get? t2 = some y →
      y = s • (Q *ᵥ x) + t)
    (hsample : ∃ perm ∈ perms, ∃ pairs, pointPairs r1 r2 (order (commonTracks fid r1 r2 m1 m2)) = some pairs ∧
      Spanning (select pairs (perm.take 3))) :
    resect svd fid order r1 r2 m1 m2 perms threshold minInliers =
      some (true, some (sim s Q t), order (commonTracks fid r1 r2 m1 m2)) := by
  have hlen := (horder (commonTracks fid r1 r2 m1 m2)).length_eq
  obtain ⟨pairs, h1, h2, h3⟩ := pointPairs_some r1 r2 _ (common_points fid r1 r2 m1 m2 order horder)
  have hgood : ∀ i ∈ List.range pairs.length, ∃ p, pairs[i]? = some p ∧ p.2 = (sim s Q t).apply p.1 := by
    intro i hi
    have hlt := List.mem_range.1 hi
    rw [h2] at hlt
    obtain ⟨p, hp1, e1, e2⟩ := h3 i _ (List.getElem?_eq_getElem hlt)
    refine ⟨p, hp1, ?_⟩
    have := hrel _ _ _ _ ((horder _).mem_iff.1 (List.getElem_mem hlt)) e1 e2
    rw [this]
    simp only [Sim.apply, sim, smul_mulVec]
  have hfit : fitSimilarity svd pairs perms threshold = some (some (sim s Q t), List.range pairs.length) := by
    apply C88_consensus svd hs (n := 2) (by norm_num) pairs perms (by rw [h2, hlen]; exact hp) threshold ht s hs0 Q hQ t
      (List.range pairs.length) List.pairwise_lt_range hgood (by rw [List.length_range]; omega)
    · obtain ⟨perm, hperm, pairs', e, hsp⟩ := hsample
      rw [h1] at e
      simp only [Option.some.injEq] at e
      subst e
      refine ⟨perm, hperm, ?_, hsp⟩
      intro i hi
      have := (hp perm hperm).mem_iff.1 (List.mem_of_mem_take hi)
      rw [h2, hlen]
      exact this
    · intro s' R t' _ hle
      have hsub : (inliersOf (sim s' R t') threshold pairs).Sublist (List.range pairs.length) := by
        unfold inliersOf
        exact List.filter_sublist
      exact hsub.eq_of_length_le hle
  unfold resect alignTwo
  simp only
  rw [if_pos (by omega), h1]
  simp only
  rw [hfit]
  simp only
  rw [if_pos (by rw [List.length_range]; omega)]
  simp only
  rw [if_neg (by simp), h2, getElem?_filterMap_range]

/-! ### Constraints between submodels -/

theorem pointPairs_forall (r1 r2 : Rec S T) (l : List (T × T)) (pairs : List (Vec 3 × Vec 3)) (h : pointPairs r1 r2 l = some pairs)
    (p : Vec 3 × Vec 3) (hp : p ∈ pairs) : ∃ t ∈ l, r1.points.get? t.1 = some p.1 ∧ r2.points.get? t.2 = some p.2 := by
  rw [pointPairs_eq] at h
  induction l generalizing pairs with
  | nil =>
    simp only [List.mapM_nil, Option.pure_def, Option.some.injEq] at h
    subst h
    exact absurd hp (by simp)
  | cons a l ih =>
    rw [List.mapM_cons] at h
    cases ha : lookupPair r1 r2 a with
    | none => rw [ha] at h; exact absurd h (by simp)
    | some q =>
      cases hl : l.mapM (lookupPair r1 r2) with
      | none => rw [ha, hl] at h; exact absurd h (by simp)
      | some rest =>
        rw [ha, hl] at h
        simp only [Option.pure_def, Option.bind_eq_bind, Option.bind_some, Option.some.injEq] at h
        subst h
        rcases List.mem_cons.1 hp with rfl | hp
        · refine ⟨a, List.mem_cons_self, ?_⟩
          unfold lookupPair at ha
          split at ha
          · rename_i x y hx hy
            simp only [Option.some.injEq] at ha
            subst ha
            exact ⟨hx, hy⟩
          · exact absurd ha (by simp)
        · obtain ⟨t, ht, h⟩ := ih rest hl hp
          exact ⟨t, List.mem_cons_of_mem _ ht, h⟩

/-- **Constraints.** Two submodels are tied together by their points only if at least 20 tracks agree within 0.3 under one
similarity whose scale is between 1/1.3 and 1.3, and then by exactly the points of these tracks; nothing raises. -/
theorem C91_constraints (svd : Mat 3 → Svd 3) (hs : ∀ C, IsSvd C (svd C)) (fid : O → F) (order : List (T × T) → List (T × T))
    (horder : ∀ l, (order l).Perm l) (r1 r2 : Rec S T) (m1 m2 : TM S T O) (perms : List (List ℕ)) (hne : perms ≠ [])
    (hp : ∀ perm ∈ perms, perm.Perm (List.range (commonTracks fid r1 r2 m1 m2).length)) :
    ∃ cs, pointConstraints svd fid order r1 r2 m1 m2 perms = some cs ∧
      (cs ≠ [] → 20 ≤ cs.length ∧ ∃ (s : ℝ) (Q : Mat 3) (t : Vec 3), IsRot Q ∧ 10 / 13 ≤ s ∧ s ≤ 13 / 10 ∧
        ∀ p ∈ cs, Real.sqrt ((p.2 - (s • (Q *ᵥ p.1) + t)) ⬝ᵥ (p.2 - (s • (Q *ᵥ p.1) + t))) < 3 / 10 ∧
          ∃ t1 t2, (t1, t2) ∈ commonTracks fid r1 r2 m1 m2 ∧ r1.points.get? t1 = some p.1 ∧ r2.points.get? t2 = some p.2) := by
  obtain ⟨hA, hB⟩ := C91_resect svd fid order horder r1 r2 m1 m2 perms hne hp (3 / 10) 20
  have hfalse : resect svd fid order r1 r2 m1 m2 perms (3 / 10) 20 = some (false, none, []) →
      pointConstraints svd fid order r1 r2 m1 m2 perms = some [] := by
    intro h
    unfold pointConstraints
    rw [h]
  rcases Nat.lt_or_ge 6 (commonTracks fid r1 r2 m1 m2).length with h6 | h6
  swap
  · exact ⟨[], hfalse (hA h6), fun h => absurd rfl h⟩
  rcases hB h6 with h | ⟨M, inl, h, hin0, hnd, hin⟩
  · exact ⟨[], hfalse h, fun h => absurd rfl h⟩
  · have hsim : ∃ (s : ℝ) (Q : Mat 3) (t : Vec 3), 0 ≤ s ∧ IsRot Q ∧ M = sim s Q t := by
      unfold resect at h
      simp only at h
      cases hal : alignTwo svd r1 r2 (order (commonTracks fid r1 r2 m1 m2)) perms (3 / 10) with
      | none => rw [hal] at h; exact absurd h (by simp)
      | some x =>
        obtain ⟨w, t, il⟩ := x
        rw [hal] at h
        simp only at h
        split at h
        · exact absurd h (by simp)
        · simp only [Option.some.injEq, Prod.mk.injEq] at h
          obtain ⟨-, rfl, -⟩ := h
          unfold alignTwo at hal
          split at hal
          · cases hpp : pointPairs r1 r2 (order (commonTracks fid r1 r2 m1 m2)) with
            | none => rw [hpp] at hal; exact absurd hal (by simp)
            | some pairs =>
              rw [hpp] at hal
              simp only at hal
              cases hf : fitSimilarity svd pairs perms (3 / 10) with
              | none => rw [hf] at hal; exact absurd hal (by simp)
              | some y =>
                obtain ⟨t', il'⟩ := y
                rw [hf] at hal
                simp only at hal
                split at hal
                · simp only [Option.some.injEq, Prod.mk.injEq] at hal
                  obtain ⟨-, rfl, -⟩ := hal
                  obtain ⟨perm, -, T0, hT0, -, h1, h2⟩ := C88_best svd pairs perms (3 / 10) M il' hf
                  rcases Nat.lt_or_ge (2 + 4) (inliersOf T0 (3 / 10) pairs).length with hl | hl
                  · obtain ⟨s, R, t, h0, hR, e, -⟩ := C88_optimal svd hs true _ M (h2 hl)
                    exact ⟨s, R, t, h0, hR, e⟩
                  · rw [h1 hl]
                    obtain ⟨s, R, t, h0, hR, e, -⟩ := C88_optimal svd hs true _ T0 hT0
                    exact ⟨s, R, t, h0, hR, e⟩
                · exact absurd hal (by simp)
          · exact absurd hal (by simp)
    obtain ⟨s, Q, t, hs0, hQ, rfl⟩ := hsim
    have hpts : ∀ q ∈ inl, (r1.points.get? q.1).isSome ∧ (r2.points.get? q.2).isSome := by
      intro q hq
      obtain ⟨-, x, y, hx, hy, -⟩ := (hin q.1 q.2).1 hq
      rw [hx, hy]
      exact ⟨rfl, rfl⟩
    obtain ⟨pairs, hpp, hpl, -⟩ := pointPairs_some r1 r2 inl hpts
    by_cases hc : (decompose (sim s Q t)).1 > 13 / 10 ∨ (decompose (sim s Q t)).1 < 1 / (13 / 10) ∨ inl.length < 20
    · refine ⟨[], ?_, fun h => absurd rfl h⟩
      unfold pointConstraints
      rw [h]
      simp only
      rw [if_pos hc]
    · refine ⟨pairs, ?_, ?_⟩
      · unfold pointConstraints
        rw [h]
        simp only
        rw [if_neg hc, hpp]
      · intro _
        push Not at hc
        obtain ⟨c1, c2, c3⟩ := hc
        have hpos : 0 < s := by
          rcases hs0.lt_or_eq with h | rfl
          · exact h
          · exfalso
            have : (decompose (sim 0 Q t)).1 = 0 := by
              unfold decompose sim
              simp only [zero_smul, det_zero]
              apply Real.zero_rpow
              norm_num
            rw [this] at c2
            norm_num at c2
        rw [C88_decompose s hpos Q hQ t] at c1 c2
        simp only at c1 c2
        refine ⟨by omega, s, Q, t, hQ, by norm_num at c2 ⊢; exact c2, c1, ?_⟩
        intro p hpm
        obtain ⟨q, hq, e1, e2⟩ := pointPairs_forall r1 r2 inl pairs hpp p hpm
        obtain ⟨hcm, x, y, hx, hy, hr⟩ := (hin q.1 q.2).1 hq
        rw [e1] at hx
        rw [e2] at hy
        simp only [Option.some.injEq] at hx hy
        subst hx hy
        refine ⟨?_, q.1, q.2, hcm, e1, e2⟩
        simpa only [Sim.apply, sim, smul_mulVec] using hr

/-- **Tied when exact.** If at least 20 tracks are common and one similarity of scale between 1/1.3 and 1.3 explains all of them,
and one of the random samples is three points not on a line, the points of every common pair of tracks are constrained. -/
theorem C91_tied (svd : Mat 3 → Svd 3) (hs : ∀ C, IsSvd C (svd C)) (fid : O → F) (order : List (T × T) → List (T × T))
    (horder : ∀ l, (order l).Perm l) (r1 r2 : Rec S T) (m1 m2 : TM S T O) (perms : List (List ℕ))
    (hp : ∀ perm ∈ perms, perm.Perm (List.range (commonTracks fid r1 r2 m1 m2).length))
    (h20 : 20 ≤ (commonTracks fid r1 r2 m1 m2).length)
    (s : ℝ) (hs0 : 10 / 13 ≤ s) (hs1 : s ≤ 13 / 10) (Q : Mat 3) (hQ : IsRot Q) (t : Vec 3)
    (hrel : ∀ t1 t2 x y, (t1, t2) ∈ commonTracks fid r1 r2 m1 m2 → r1.points.get? t1 = some x → r2.points.get? t2 = some y →
      y = s • (Q *ᵥ x) + t)
    (hsample : ∃ perm ∈ perms, ∃ pairs, pointPairs r1 r2 (order (commonTracks fid r1 r2 m1 m2)) = some pairs ∧
      Spanning (select pairs (perm.take 3))) :
    ∃ cs, pointConstraints svd fid order r1 r2 m1 m2 perms = some cs ∧
      cs.length = (commonTracks fid r1 r2 m1 m2).length ∧
      ∀ t1 t2 x y, (t1, t2) ∈ commonTracks fid r1 r2 m1 m2 → r1.points.get? t1 = some x → r2.points.get? t2 = some y →
        (x, y) ∈ cs := by
  have hlen := (horder (commonTracks fid r1 r2 m1 m2)).length_eq
  have hpos : 0 < s := lt_of_lt_of_le (by norm_num) hs0
  have hres := C91_exact svd hs fid order horder r1 r2 m1 m2 perms hp (3 / 10) (by norm_num) 20 (by omega) s hpos Q hQ t hrel hsample
  obtain ⟨pairs, h1, h2, h3⟩ := pointPairs_some r1 r2 _ (common_points fid r1 r2 m1 m2 order horder)
  refine ⟨pairs, ?_, by rw [h2, hlen], ?_⟩
  · unfold pointConstraints
    rw [hres]
    simp only
    rw [if_neg, h1]
    rw [C88_decompose s hpos Q hQ t]
    simp only
    push Not
    refine ⟨hs1, ?_, by rw [hlen]; exact h20⟩
    norm_num
    exact hs0
  · intro t1 t2 x y hm e1 e2
    obtain ⟨i, hi⟩ := List.mem_iff_getElem?.1 ((horder _).mem_iff.2 hm)
    obtain ⟨p, hpi, f1, f2⟩ := h3 i _ hi
    rw [e1] at f1
    rw [e2] at f2
    simp only [Option.some.injEq] at f1 f2
    have : p = (x, y) := by rw [f1, f2]
    rw [← this]
    exact List.mem_of_getElem? hpi

/-! ### Merging -/

/-- `merge_two_reconstructions` never merges: it hands both reconstructions back, or raises; with more than six common tracks it
raises unless the two-letter readings of the track ids happen to name points and no pair of them is consistent: when the readings
can be aligned the truth value of the array that is the similarity raises. -/
theorem C91_never_merged (svd : Mat 3 → Svd 3) (r1 r2 : Rec S (List Char)) (perms : List (List ℕ)) (threshold : ℝ) :
    mergeTwo svd r1 r2 perms threshold ≠ .merged ∧
    ((r1.points.keys.filter (fun t => r2.points.has t)).length ≤ 6 → mergeTwo svd r1 r2 perms threshold = .both) ∧
    (6 < (r1.points.keys.filter (fun t => r2.points.has t)).length →
      (∃ t ∈ r1.points.keys, r2.points.has t = true ∧ ∀ a, t.head? = some a → r1.points.get? [a] = none) →
      mergeTwo svd r1 r2 perms threshold = .raised) ∧
    (6 < (r1.points.keys.filter (fun t => r2.points.has t)).length →
      ∀ (l : List (List Char × List Char)) (M : Sim 3) (inl : List ℕ),
      l.map (fun p => some (p.1 ++ p.2)) = (r1.points.keys.filter (fun t => r2.points.has t)).map
        (fun t => if 2 ≤ t.length then some (t.take 2) else none) →
      (∀ p ∈ l, p.1.length = 1) →
      alignTwo svd r1 r2 l perms threshold = some (true, some M, inl) → mergeTwo svd r1 r2 perms threshold = .raised) := by
  refine ⟨?_, ?_, ?_, ?_⟩
  · unfold mergeTwo
    simp only
    split
    · simp
    · rename_i w t inl _
      cases t with
      | none => simp [truth]
      | some M => simp [truth]
  · intro h
    unfold mergeTwo
    simp only
    rw [if_neg (by omega)]
    simp [truth]
  · rintro h ⟨t, ht, h2, hno⟩
    have hmem : t ∈ r1.points.keys.filter (fun t => r2.points.has t) := List.mem_filter.2 ⟨ht, h2⟩
    unfold mergeTwo
    simp only
    rw [if_pos h]
    generalize hc : r1.points.keys.filter (fun t => r2.points.has t) = common at h hmem
    have key : ∀ (l : List (List Char)), t ∈ l → l.mapM chars = none ∨
        ∃ l', l.mapM chars = some l' ∧ l'.length = l.length ∧ l'.mapM (lookupPair r1 r2) = none := by
      intro l
      induction l with
      | nil => intro h; exact absurd h (by simp)
      | cons a l ih =>
        intro hm
        rw [List.mapM_cons]
        cases ha : chars a with
        | none => left; rfl
        | some p =>
          cases hl : l.mapM chars with
          | none => left; rfl
          | some l' =>
            right
            have hll : l'.length = l.length := by
              clear ih hm
              induction l generalizing l' with
              | nil => simp only [List.mapM_nil, Option.pure_def, Option.some.injEq] at hl; subst hl; rfl
              | cons b l ih =>
                rw [List.mapM_cons] at hl
                cases hb : chars b with
                | none => rw [hb] at hl; exact absurd hl (by simp)
                | some q =>
                  cases hl2 : l.mapM chars with
                  | none => rw [hb, hl2] at hl; exact absurd hl (by simp)
                  | some l2 =>
                    rw [hb, hl2] at hl
                    simp only [Option.pure_def, Option.bind_eq_bind, Option.bind_some, Option.some.injEq] at hl
                    subst hl
                    simp [ih l2 hl2]
            refine ⟨p :: l', rfl, by simp [hll], ?_⟩
            rw [List.mapM_cons]
            rcases List.mem_cons.1 hm with rfl | hm
            · have : lookupPair r1 r2 p = none := by
                unfold chars at ha
                split at ha
                · rename_i c d _
                  simp only [Option.some.injEq] at ha
                  subst ha
                  unfold lookupPair
                  simp only
                  rw [hno c rfl]
                · exact absurd ha (by simp)
              rw [this]
              rfl
            · rcases ih hm with h | ⟨l'', e1, -, e2⟩
              · rw [hl] at h; exact absurd h (by simp)
              · rw [hl] at e1
                simp only [Option.some.injEq] at e1
                subst e1
                rw [e2]
                cases lookupPair r1 r2 p <;> rfl
    rcases key common hmem with e | ⟨l', e, hl, e2⟩
    · rw [e]
    · rw [e]
      simp only
      have : alignTwo svd r1 r2 l' perms threshold = none := by
        unfold alignTwo
        rw [if_pos (by omega), pointPairs_eq, e2]
      rw [this]
  · intro h l M inl hl h1 ha
    have key : ∀ (c : List (List Char)) (l : List (List Char × List Char)),
        l.map (fun p => some (p.1 ++ p.2)) = c.map (fun t => if 2 ≤ t.length then some (t.take 2) else none) →
        (∀ p ∈ l, p.1.length = 1) → c.mapM chars = some l := by
      intro c
      induction c with
      | nil =>
        intro l hl _
        cases l with
        | nil => rfl
        | cons _ _ => exact absurd hl (by simp)
      | cons t c ih =>
        intro l hl h1
        cases l with
        | nil => exact absurd hl (by simp)
        | cons p l =>
          simp only [List.map_cons, List.cons.injEq] at hl
          obtain ⟨e1, e2⟩ := hl
          rw [List.mapM_cons, ih l e2 (fun p hp => h1 p (List.mem_cons_of_mem _ hp))]
          have hc : chars t = some p := by
            obtain ⟨p1, p2⟩ := p
            have hp1 := h1 (p1, p2) (by simp)
            match t, e1 with
            | a :: b :: t, e1 =>
              match p1, hp1 with
              | [x], _ =>
                simp at e1
                obtain ⟨rfl, rfl⟩ := e1
                rfl
            | [], e1 => simp at e1
            | [_], e1 => simp at e1
          rw [hc]
          rfl
    unfold mergeTwo
    simp only
    rw [if_pos h, key _ l hl h1]
    simp only
    rw [ha]
    rfl

/-! ### Examples -/

/-- Two tracks of one manager share a feature; the last one counts, and it has no point: the pair is lost. -/
example : commonTracks (S := ℕ) (T := ℕ) (O := ℕ) id ⟨[0], [(1, ![0, 0, 0])]⟩ ⟨[0], [(5, ![0, 0, 0])]⟩
    ((TM.empty.addObservation 0 1 77).addObservation 0 2 77) (TM.empty.addObservation 0 5 77) = [] := by decide

/-- A track can be common with two tracks, in two images. -/
example : commonTracks (S := ℕ) (T := ℕ) (O := ℕ) id ⟨[0, 1], [(1, ![0, 0, 0])]⟩ ⟨[0, 1], [(5, ![0, 0, 0]), (6, ![0, 0, 0])]⟩
    ((TM.empty.addObservation 0 1 77).addObservation 1 1 78)
    ((TM.empty.addObservation 0 5 77).addObservation 1 6 78) = [(1, 5), (1, 6)] := by decide

/-- Twenty tracks seen in one image. -/
private def ex20 : TM ℕ ℕ ℕ := (List.range 20).foldl (fun m i => m.addObservation 0 i i) TM.empty

/-- A point for each, no three on a line. -/
private def pts20 : Rec ℕ ℕ := ⟨[0], (List.range 20).map (fun i => (i, ![(i : ℝ), (i : ℝ) ^ 2, 0]))⟩

private theorem common20 : commonTracks id pts20 pts20 ex20 ex20 = (List.range 20).map (fun i => (i, i)) := by decide +kernel

private theorem pairs20 : pointPairs pts20 pts20 ((List.range 20).map (fun i => (i, i))) =
    some ((List.range 20).map (fun i => (![(i : ℝ), (i : ℝ) ^ 2, 0], ![(i : ℝ), (i : ℝ) ^ 2, 0]))) := rfl

/-- The hypotheses of the theorems on exact resection are met: a reconstruction resected by itself. -/
example : ∃ cs, pointConstraints (C88_svd 3).choose id id pts20 pts20 ex20 ex20 [List.range 20] = some cs ∧ cs.length = 20 := by
  have hl : (commonTracks id pts20 pts20 ex20 ex20).length = 20 := by rw [common20]; rfl
  obtain ⟨cs, h, h2, -⟩ := C91_tied (C88_svd 3).choose (C88_svd 3).choose_spec id id (fun l => List.Perm.refl l) pts20 pts20 ex20 ex20
    [List.range 20] (by intro perm hp; rw [List.mem_singleton] at hp; rw [hp, hl]) (by rw [hl]) 1 (by norm_num) (by norm_num) 1
    ⟨by simp, by simp⟩ 0
    (by
      intro t1 t2 x y hm h1 h2
      rw [common20, List.mem_map] at hm
      obtain ⟨i, -, e⟩ := hm
      simp only [Prod.mk.injEq] at e
      rw [← e.1] at h1
      rw [← e.2, h1] at h2
      simp only [Option.some.injEq] at h2
      simp [h2])
    ⟨List.range 20, by simp, _, by rw [common20]; exact pairs20, by
      intro y z hyz
      have e : select ((List.range 20).map (fun i => (![(i : ℝ), (i : ℝ) ^ 2, 0], ![(i : ℝ), (i : ℝ) ^ 2, 0])))
          ((List.range 20).take 3) = [(![((0 : ℕ) : ℝ), ((0 : ℕ) : ℝ) ^ 2, 0], ![((0 : ℕ) : ℝ), ((0 : ℕ) : ℝ) ^ 2, 0]),
            (![((1 : ℕ) : ℝ), ((1 : ℕ) : ℝ) ^ 2, 0], ![((1 : ℕ) : ℝ), ((1 : ℕ) : ℝ) ^ 2, 0]),
            (![((2 : ℕ) : ℝ), ((2 : ℕ) : ℝ) ^ 2, 0], ![((2 : ℕ) : ℝ), ((2 : ℕ) : ℝ) ^ 2, 0])] := rfl
      rw [e] at hyz
      have h1 := hyz _ List.mem_cons_self _ (List.mem_cons_of_mem _ List.mem_cons_self)
      have h2 := hyz _ List.mem_cons_self _ (List.mem_cons_of_mem _ (List.mem_cons_of_mem _ List.mem_cons_self))
      simp [dotProduct, Fin.sum_univ_three] at h1 h2
      obtain ⟨a1, a2⟩ := h1
      obtain ⟨b1, b2⟩ := h2
      have y1 : y 1 = 0 := by linarith
      have y0 : y 0 = 0 := by linarith
      have z1 : z 1 = 0 := by linarith
      have z0 : z 0 = 0 := by linarith
      by_cases hz : z 2 = 0
      · exact ⟨0, 1, Or.inr one_ne_zero, by ext i; fin_cases i <;> simp [z0, z1, hz]⟩
      · exact ⟨z 2, -y 2, Or.inl hz, by ext i; fin_cases i <;> simp [z0, z1, y0, y1]; ring⟩⟩
  exact ⟨cs, h, h2.trans hl⟩

end Verif.CommonTracks
