import Verif.Model.Incremental
import Mathlib.Data.List.Perm.Basic
import Mathlib.Data.List.Nodup
import Mathlib.Data.List.Sort
import Mathlib.Data.List.Perm.Subperm

/-!
Properties C33 (partial reconstructions are disjoint and account for every image) and C34 (growing
terminates, only adds, and stops only when nothing can be added).
-/
set_option linter.unusedSectionVars false
set_option linter.unusedSimpArgs false
namespace Verif.Inc

variable {Img Trk World : Type} [DecidableEq Img] [DecidableEq Trk]

/-! ### Specification -/

/-- The rig assignment file partitions the images it mentions: no image is listed twice. -/
def RigPartition (rigs : List (List Img)) : Prop := rigs.flatten.Nodup

/-- The set iteration order is some permutation of the set. -/
def OrderOk (env : Env Img Trk World) : Prop := ∀ l, (env.order l).Perm l

/-- Two images are rig mates: the same image, or listed in the same rig instance. -/
def Mates (rigs : List (List Img)) (a b : Img) : Prop :=
  a = b ∨ ∃ inst ∈ rigs, a ∈ inst ∧ b ∈ inst

/-- Number of tracks of `im` that are points of the reconstruction. -/
def visible (env : Env Img Trk World) (r : Rec Img Trk World) (im : Img) : Nat :=
  (env.tracks im).countP (fun t => decide (t ∈ r.points))

/-- Number of those that RANSAC declares inliers when run in world `w`. -/
def inlierCount (env : Env Img Trk World) (r : Rec Img Trk World) (w : World) (im : Img) : Nat :=
  (env.tracks im).countP
    (fun t => decide (t ∈ r.points) && (env.ransac ⟨r.shots, r.points, w⟩ im).1 t)

/-- `im` cannot be added to `r` when resected in world `w`. -/
def CannotAdd (env : Env Img Trk World) (r : Rec Img Trk World) (w : World) (im : Img) : Prop :=
  visible env r im < 5 ∨ inlierCount env r w im < env.minInliers

/-! ### Rig units -/

theorem assignOne_get (inst : List Img) (im : Img) (l : List Img) (d : Dict Img (List Img)) :
    Dict.get? (l.foldl (fun (d : Dict Img (List Img)) s => Dict.set d s inst) d) im =
      if im ∈ l then some inst else Dict.get? d im := by
  induction l generalizing d with
  | nil => simp
  | cons a t ih =>
    simp only [List.foldl_cons, ih, Dict.get?_set, List.mem_cons]
    by_cases h : im ∈ t
    · simp [h]
    · by_cases h' : a = im
      · simp [h, h']
      · have : ¬ im = a := fun e => h' e.symm
        simp [h, h', this]

theorem get_assignOne (inst : List Img) (im : Img) (d : Dict Img (List Img)) :
    Dict.get? (assignOne inst d) im = if im ∈ inst then some inst else Dict.get? d im :=
  assignOne_get inst im inst d

theorem assignments_get (rigs : List (List Img)) (im : Img) (inst : List Img)
    (h : Dict.get? (assignments rigs) im = some inst) : inst ∈ rigs ∧ im ∈ inst := by
  have key : ∀ (l : List (List Img)) (d : Dict Img (List Img)),
      Dict.get? (l.foldl (fun d inst => assignOne inst d) d) im = some inst →
      (inst ∈ l ∧ im ∈ inst) ∨ Dict.get? d im = some inst := by
    intro l
    induction l with
    | nil => intro d h; exact Or.inr h
    | cons a t ih =>
      intro d h
      rcases ih _ h with h' | h'
      · exact Or.inl ⟨List.mem_cons_of_mem _ h'.1, h'.2⟩
      · rw [get_assignOne] at h'
        split at h'
        · rename_i hm
          cases h'
          exact Or.inl ⟨by simp, hm⟩
        · exact Or.inr h'
  rcases key rigs [] h with h' | h'
  · exact h'
  · simp at h'

theorem assignments_some (rigs : List (List Img)) (im : Img)
    (h : ∃ inst ∈ rigs, im ∈ inst) : ∃ inst, Dict.get? (assignments rigs) im = some inst := by
  have key : ∀ (l : List (List Img)) (d : Dict Img (List Img)),
      (∃ inst ∈ l, im ∈ inst) ∨ (∃ inst, Dict.get? d im = some inst) →
      ∃ inst, Dict.get? (l.foldl (fun d inst => assignOne inst d) d) im = some inst := by
    intro l
    induction l with
    | nil => intro d h; simpa using h
    | cons a t ih =>
      intro d h
      apply ih
      rw [get_assignOne]
      by_cases hm : im ∈ a
      · right; exact ⟨a, by simp [hm]⟩
      · rcases h with ⟨i, hi, hmem⟩ | ⟨i, hi⟩
        · rcases List.mem_cons.1 hi with rfl | hi
          · exact absurd hmem hm
          · exact Or.inl ⟨i, hi, hmem⟩
        · right; exact ⟨i, by simp [hm, hi]⟩
  exact key rigs [] (Or.inl h)

theorem mem_unit (rigs : List (List Img)) (im : Img) : im ∈ unit rigs im := by
  unfold unit
  split
  · simp
  · rename_i inst h
    exact (assignments_get rigs im inst h).2

/-- Instances of a partition that share an image are equal. -/
theorem part_unique {rigs : List (List Img)} (hp : RigPartition rigs) {i j : List Img}
    (hi : i ∈ rigs) (hj : j ∈ rigs) {a : Img} (ha : a ∈ i) (ha' : a ∈ j) : i = j := by
  rw [RigPartition, List.nodup_flatten] at hp
  by_contra hne
  have hd := hp.2
  have : ∀ l : List (List Img), l.Pairwise List.Disjoint → i ∈ l → j ∈ l → False := by
    intro l
    induction l with
    | nil => intro _ h; simp at h
    | cons x t ih =>
      intro h h1 h2
      rw [List.pairwise_cons] at h
      rcases List.mem_cons.1 h1 with g1 | g1 <;> rcases List.mem_cons.1 h2 with g2 | g2
      · exact hne (g1.trans g2.symm)
      · subst g1; exact h.1 j g2 ha ha'
      · subst g2; exact h.1 i g1 ha' ha
      · exact ih h.2 g1 g2
  exact this rigs hd hi hj

theorem mem_unit_iff {rigs : List (List Img)} (hp : RigPartition rigs) (a b : Img) :
    b ∈ unit rigs a ↔ Mates rigs a b := by
  constructor
  · intro h
    unfold unit at h
    split at h
    · simp at h; exact Or.inl h.symm
    · rename_i inst hi
      have := assignments_get rigs a inst hi
      exact Or.inr ⟨inst, this.1, this.2, h⟩
  · rintro (rfl | ⟨inst, hi, ha, hb⟩)
    · exact mem_unit _ _
    · obtain ⟨i', h'⟩ := assignments_some rigs a ⟨inst, hi, ha⟩
      have := assignments_get rigs a i' h'
      have : i' = inst := part_unique hp this.1 hi this.2 ha
      unfold unit
      rw [h', this]
      exact hb

theorem unit_nodup {rigs : List (List Img)} (hp : RigPartition rigs) (a : Img) :
    (unit rigs a).Nodup := by
  unfold unit
  split
  · simp
  · rename_i inst h
    rw [RigPartition, List.nodup_flatten] at hp
    exact hp.1 _ (assignments_get rigs a inst h).1

theorem Mates.symm {rigs : List (List Img)} {a b : Img} (h : Mates rigs a b) : Mates rigs b a := by
  rcases h with rfl | ⟨i, hi, ha, hb⟩
  · exact Or.inl rfl
  · exact Or.inr ⟨i, hi, hb, ha⟩

theorem Mates.trans {rigs : List (List Img)} (hp : RigPartition rigs) {a b c : Img}
    (h : Mates rigs a b) (h' : Mates rigs b c) : Mates rigs a c := by
  rcases h with rfl | ⟨i, hi, ha, hb⟩
  · exact h'
  · rcases h' with rfl | ⟨j, hj, hb', hc⟩
    · exact Or.inr ⟨i, hi, ha, hb⟩
    · have := part_unique hp hi hj hb hb'
      subst this
      exact Or.inr ⟨i, hi, ha, hc⟩

/-- A set of shots contains rig instances entirely or not at all. -/
def Whole (rigs : List (List Img)) (shots : List Img) : Prop :=
  ∀ a b, Mates rigs a b → a ∈ shots → b ∈ shots

theorem createShots_eq (l shots : List Img) (h : ∀ s ∈ l, s ∉ shots) (hn : l.Nodup) :
    createShots shots l = some (shots ++ l) := by
  induction l generalizing shots with
  | nil => simp [createShots]
  | cons a t ih =>
    rw [createShots, if_neg (h a (by simp)), ih]
    · simp
    · intro s hs
      rw [List.nodup_cons] at hn
      have := h s (by simp [hs])
      simp only [List.mem_append, List.mem_singleton, not_or]
      exact ⟨this, fun e => hn.1 (e ▸ hs)⟩
    · exact (List.nodup_cons.1 hn).2

theorem createShots_some (l shots s' : List Img) (h : createShots shots l = some s') :
    s' = shots ++ l := by
  induction l generalizing shots with
  | nil => simp [createShots] at h; simp [h]
  | cons a t ih =>
    rw [createShots] at h
    split at h
    · simp at h
    · rw [ih _ h]; simp

/-- `add_shot` in a partition: it succeeds and adds exactly the image and its rig mates. -/
theorem addShot_ok {env : Env Img Trk World} (hp : RigPartition env.rigs) {shots : List Img}
    (hw : Whole env.rigs shots) {im : Img} (h : im ∉ shots) :
    addShot env shots im = some (shots ++ unit env.rigs im, unit env.rigs im) := by
  unfold addShot
  rw [createShots_eq]
  · rfl
  · intro s hs hmem
    exact h (hw s im ((mem_unit_iff hp _ _).1 hs).symm hmem)
  · exact unit_nodup hp im

theorem addShot_some {env : Env Img Trk World} {shots : List Img} {im : Img}
    {p : List Img × List Img} (h : addShot env shots im = some p) :
    p = (shots ++ unit env.rigs im, unit env.rigs im) := by
  unfold addShot at h
  cases hc : createShots shots (unit env.rigs im) with
  | none => rw [hc] at h; simp at h
  | some s =>
    rw [hc] at h
    simp at h
    rw [← h, createShots_some _ _ _ hc]

theorem whole_append {env : Env Img Trk World} (hp : RigPartition env.rigs) {shots : List Img}
    (hw : Whole env.rigs shots) (im : Img) : Whole env.rigs (shots ++ unit env.rigs im) := by
  intro a b hm ha
  rw [List.mem_append] at ha ⊢
  rcases ha with ha | ha
  · exact Or.inl (hw a b hm ha)
  · right
    rw [mem_unit_iff hp] at ha ⊢
    exact ha.trans hp hm

theorem nodup_append_unit {env : Env Img Trk World} (hp : RigPartition env.rigs)
    {shots : List Img} (hw : Whole env.rigs shots) (hn : shots.Nodup) {im : Img}
    (h : im ∉ shots) : (shots ++ unit env.rigs im).Nodup := by
  rw [List.nodup_append]
  refine ⟨hn, unit_nodup hp im, ?_⟩
  intro a ha b hb e
  subst e
  exact h (hw a im ((mem_unit_iff hp _ _).1 hb).symm ha)

/-! ### Resection -/

theorem mem_candidates {env : Env Img Trk World} (ho : OrderOk env) (r : Rec Img Trk World)
    (images : List Img) (c : Img × Nat) :
    c ∈ candidates env r images ↔
      c.1 ∈ images ∧ c.1 ∉ r.shots ∧ c.2 = visible env r c.1 := by
  unfold candidates
  rw [(List.perm_insertionSort _ _).mem_iff, List.mem_map]
  constructor
  · rintro ⟨im, hm, rfl⟩
    rw [(ho _).mem_iff, List.mem_filter] at hm
    refine ⟨hm.1, by simpa using hm.2, ?_⟩
    simp [visible, common, List.countP_eq_length_filter]
  · rintro ⟨h1, h2, h3⟩
    refine ⟨c.1, ?_, ?_⟩
    · rw [(ho _).mem_iff, List.mem_filter]
      exact ⟨h1, by simpa using h2⟩
    · apply Prod.ext
      · rfl
      · rw [h3]; simp [visible, common, List.countP_eq_length_filter]

theorem candidates_sorted (env : Env Img Trk World) (r : Rec Img Trk World) (images : List Img) :
    (candidates env r images).Pairwise (fun a b => b.2 ≤ a.2) := by
  have : Std.Total (fun (a b : Img × Nat) => b.2 ≤ a.2) := ⟨fun a b => by omega⟩
  have : IsTrans (Img × Nat) (fun a b => b.2 ≤ a.2) := ⟨fun a b c h1 h2 => by omega⟩
  exact List.pairwise_insertionSort _ _

theorem length_common (env : Env Img Trk World) (r : Rec Img Trk World) (im : Img) :
    (common env r im).length = visible env r im := by
  simp [visible, common, List.countP_eq_length_filter]

theorem length_inliers (env : Env Img Trk World) (r : Rec Img Trk World) (im : Img) :
    ((common env r im).filter (env.ransac r im).1).length = inlierCount env r r.world im := by
  simp only [inlierCount, common, List.countP_eq_length_filter, List.filter_filter]
  congr 1
  apply List.filter_congr
  intro x _
  rw [Bool.and_comm]

theorem resect_failed {env : Env Img Trk World} {r r' : Rec Img Trk World} {im : Img}
    (h : resect env r im = .failed r') :
    r'.shots = r.shots ∧ r'.points = r.points ∧ CannotAdd env r r.world im := by
  unfold resect at h
  simp only [length_common, length_inliers] at h
  split at h
  · rename_i hc
    cases h
    exact ⟨rfl, rfl, Or.inl hc⟩
  · split at h
    · split at h
      · cases h
      · split at h <;> cases h
    · rename_i hc
      cases h
      exact ⟨rfl, rfl, Or.inr (by omega)⟩

theorem resect_ok {env : Env Img Trk World} {r r' : Rec Img Trk World} {im : Img} {s : Step Img}
    (h : resect env r im = .ok r' s) :
    r'.shots = r.shots ++ s.images ∧ s.image = im ∧ s.images = unit env.rigs im ∧
    s.commonPoints = visible env r im ∧ s.inliers = inlierCount env r r.world im ∧
    5 ≤ s.commonPoints ∧ env.minInliers ≤ s.inliers ∧ im ∉ r.shots := by
  unfold resect at h
  simp only [length_common, length_inliers] at h
  split at h
  · cases h
  · split at h
    · split at h
      · cases h
      · split at h
        · cases h
        · rename_i hc hi hm _ _ _ ha
          have := addShot_some ha
          cases this
          cases h
          exact ⟨rfl, rfl, rfl, rfl, rfl, by simpa using hc, by simpa using hi, hm⟩
    · cases h

theorem resect_not_raised {env : Env Img Trk World} (hp : RigPartition env.rigs)
    {r : Rec Img Trk World} (hw : Whole env.rigs r.shots) {im : Img} (h : im ∉ r.shots) :
    resect env r im ≠ .raised := by
  unfold resect
  simp only [addShot_ok hp hw h]
  split
  · simp
  · split
    · simp [h]
    · simp

/-- One pass over the candidates. -/
theorem tryCandidates_ok {env : Env Img Trk World} {r r' : Rec Img Trk World} {s : Step Img}
    {cs : List (Img × Nat)} (h : tryCandidates env r cs = .ok r' s) :
    ∃ pre n post w, cs = pre ++ (s.image, n) :: post ∧
      (∀ c ∈ pre, ∃ w', CannotAdd env r w' c.1) ∧
      resect env ⟨r.shots, r.points, w⟩ s.image = .ok r' s := by
  induction cs generalizing r with
  | nil => cases h
  | cons c t ih =>
    obtain ⟨im, n⟩ := c
    rw [tryCandidates] at h
    split at h
    · cases h
    · rename_i r2 s2 hr
      cases h
      have := (resect_ok hr).2.1
      subst this
      exact ⟨[], n, t, r.world, rfl, by simp, hr⟩
    · rename_i r2 hr
      obtain ⟨e1, e2, hc⟩ := resect_failed hr
      obtain ⟨pre, m, post, w, rfl, hpre, hres⟩ := ih h
      refine ⟨(im, n) :: pre, m, post, w, rfl, ?_, ?_⟩
      · intro c hc'
        rcases List.mem_cons.1 hc' with rfl | hc'
        · exact ⟨_, hc⟩
        · obtain ⟨w', hw'⟩ := hpre c hc'
          refine ⟨w', ?_⟩
          simpa [CannotAdd, visible, inlierCount, e1, e2] using hw'
      · rw [← e1, ← e2]; exact hres

theorem tryCandidates_failed {env : Env Img Trk World} {r r' : Rec Img Trk World}
    {cs : List (Img × Nat)} (h : tryCandidates env r cs = .failed r') :
    r'.shots = r.shots ∧ r'.points = r.points ∧ ∀ c ∈ cs, ∃ w, CannotAdd env r w c.1 := by
  induction cs generalizing r with
  | nil => cases h; simp
  | cons c t ih =>
    obtain ⟨im, n⟩ := c
    rw [tryCandidates] at h
    split at h
    · cases h
    · cases h
    · rename_i r2 hr
      obtain ⟨e1, e2, hc⟩ := resect_failed hr
      obtain ⟨f1, f2, hcs⟩ := ih h
      refine ⟨f1.trans e1, f2.trans e2, ?_⟩
      intro c hc'
      rcases List.mem_cons.1 hc' with rfl | hc'
      · exact ⟨_, hc⟩
      · obtain ⟨w', hw'⟩ := hcs c hc'
        exact ⟨w', by simpa [CannotAdd, visible, inlierCount, e1, e2] using hw'⟩

theorem tryCandidates_not_raised {env : Env Img Trk World} (hp : RigPartition env.rigs)
    {r : Rec Img Trk World} (hw : Whole env.rigs r.shots) {cs : List (Img × Nat)}
    (h : ∀ c ∈ cs, c.1 ∉ r.shots) : tryCandidates env r cs ≠ .raised := by
  induction cs generalizing r with
  | nil => simp [tryCandidates]
  | cons c t ih =>
    obtain ⟨im, n⟩ := c
    rw [tryCandidates]
    split
    · rename_i hr
      exact absurd hr (resect_not_raised hp hw (h (im, n) (by simp)))
    · simp
    · rename_i r2 hr
      obtain ⟨e1, e2, hc⟩ := resect_failed hr
      apply ih
      · rw [e1]; exact hw
      · intro c hc; rw [e1]; exact h c (by simp [hc])

/-! ### The growing loop -/

theorem mem_minus (images shots : List Img) (a : Img) :
    a ∈ minus images shots ↔ a ∈ images ∧ a ∉ shots := by
  simp [minus]

theorem minus_minus (images a b : List Img) :
    minus (minus images a) b = minus images (a ++ b) := by
  simp only [minus, List.filter_filter]
  apply List.filter_congr
  intro x _
  by_cases h1 : x ∈ a <;> by_cases h2 : x ∈ b <;> simp [h1, h2]

theorem minus_length_lt {images shots : List Img} {a : Img} (h : a ∈ images) (h' : a ∈ shots) :
    (minus images shots).length < images.length := by
  unfold minus
  rw [List.length_filter_lt_length_iff_exists]
  exact ⟨a, h, by simpa using h'⟩

/-- The steps of a growth, as a specification: each step resects an image that is still requested
and not in the reconstruction, with the reported counts reaching the thresholds; all the requested
images that see strictly more points were tried in that state and could not be added; the shots
added are the image and its rig mates; afterwards points and world may change arbitrarily. -/
inductive Grows (env : Env Img Trk World) :
    Rec Img Trk World → List Img → List (Step Img) → Rec Img Trk World → List Img → Prop
  | nil (r : Rec Img Trk World) (images : List Img) : Grows env r images [] r images
  | step (r : Rec Img Trk World) (images : List Img) (s : Step Img) (steps : List (Step Img))
      (r1 r2 : Rec Img Trk World) (images2 : List Img) (w : World)
      (requested : s.image ∈ images) (new : s.image ∉ r.shots)
      (added : ∀ b, b ∈ s.images ↔ Mates env.rigs s.image b) (once : s.images.Nodup)
      (common : s.commonPoints = visible env r s.image) (common5 : 5 ≤ s.commonPoints)
      (inl : s.inliers = inlierCount env r w s.image) (enough : env.minInliers ≤ s.inliers)
      (best : ∀ im ∈ images, im ∉ r.shots → visible env r s.image < visible env r im →
        ∃ w', CannotAdd env r w' im)
      (shots : r1.shots = r.shots ++ s.images)
      (rest : Grows env r1 (minus images s.images) steps r2 images2) :
      Grows env r images (s :: steps) r2 images2

theorem growLoop_spec {env : Env Img Trk World} (ho : OrderOk env)
    (hp : RigPartition env.rigs) (fuel : Nat)
    (r : Rec Img Trk World) (images : List Img) (acc : List (Step Img))
    (r' : Rec Img Trk World) (images' : List Img) (steps' : List (Step Img))
    (h : growLoop env fuel r images acc = .done (r', images', steps')) :
    ∃ steps rl, steps' = acc ++ steps ∧ Grows env r images steps rl images' ∧
      r'.shots = rl.shots ∧ r'.points = rl.points ∧
      ∀ im ∈ images', im ∉ rl.shots → ∃ w, CannotAdd env rl w im := by
  induction fuel generalizing r images acc with
  | zero => cases h
  | succ fuel ih =>
    rw [growLoop] at h
    split at h
    · cases h
    · rename_i r2 hr
      cases h
      obtain ⟨e1, e2, hc⟩ := tryCandidates_failed hr
      refine ⟨[], r, by simp, .nil _ _, e1, e2, ?_⟩
      intro im hi hn
      exact hc (im, visible env r im) ((mem_candidates ho _ _ _).2 ⟨hi, hn, rfl⟩)
    · rename_i r2 s hr
      obtain ⟨steps, rl, rfl, hg, e1, e2, hc⟩ := ih _ _ _ h
      obtain ⟨pre, n, post, w, hcs, hpre, hres⟩ := tryCandidates_ok hr
      obtain ⟨f1, f2, f3, f4, f5, f6, f7, f8⟩ := resect_ok hres
      have hmem : (s.image, n) ∈ candidates env r images := by rw [hcs]; simp
      obtain ⟨m1, m2, m3⟩ := (mem_candidates ho _ _ _).1 hmem
      refine ⟨s :: steps, rl, by simp, ?_, e1, e2, hc⟩
      refine .step r images s steps _ rl images' w m1 m2 ?_ ?_ f4 f6 f5 f7 ?_ ?_ hg
      · intro b; rw [f3]; exact mem_unit_iff hp _ _
      · rw [f3]; exact unit_nodup hp _
      · intro im hi hn hlt
        have hc1 : (im, visible env r im) ∈ candidates env r images :=
          (mem_candidates ho _ _ _).2 ⟨hi, hn, rfl⟩
        have hsort := candidates_sorted env r images
        rw [hcs] at hc1 hsort
        rw [List.mem_append, List.mem_cons] at hc1
        rcases hc1 with hc1 | hc1 | hc1
        · exact hpre _ hc1
        · have hn := (Prod.mk.inj hc1).1
          rw [hn] at hlt; omega
        · rw [List.pairwise_append] at hsort
          have := (List.pairwise_cons.1 hsort.2.1).1 _ hc1
          simp only at this m3
          omega
      · simpa [settle] using f1

theorem growLoop_not_running {env : Env Img Trk World} (ho : OrderOk env) (fuel : Nat)
    (r : Rec Img Trk World) (images : List Img) (acc : List (Step Img))
    (h : images.length < fuel) : growLoop env fuel r images acc ≠ .running := by
  induction fuel generalizing r images acc with
  | zero => omega
  | succ fuel ih =>
    rw [growLoop]
    split
    · simp
    · simp
    · rename_i r2 s hr
      apply ih
      obtain ⟨pre, n, post, w, hcs, hpre, hres⟩ := tryCandidates_ok hr
      obtain ⟨f1, f2, f3, f4, f5, f6, f7, f8⟩ := resect_ok hres
      have hmem : (s.image, n) ∈ candidates env r images := by rw [hcs]; simp
      obtain ⟨m1, m2, m3⟩ := (mem_candidates ho _ _ _).1 hmem
      have : s.image ∈ s.images := by rw [f3]; exact mem_unit _ _
      have := minus_length_lt m1 this
      omega

theorem growLoop_not_raised {env : Env Img Trk World} (ho : OrderOk env)
    (hp : RigPartition env.rigs) (fuel : Nat)
    (r : Rec Img Trk World) (images : List Img) (acc : List (Step Img))
    (hw : Whole env.rigs r.shots) : growLoop env fuel r images acc ≠ .raised := by
  induction fuel generalizing r images acc with
  | zero => simp [growLoop]
  | succ fuel ih =>
    rw [growLoop]
    split
    · rename_i hr
      refine absurd hr (tryCandidates_not_raised hp hw ?_)
      intro c hc
      exact ((mem_candidates ho _ _ _).1 hc).2.1
    · simp
    · rename_i r2 s hr
      apply ih
      obtain ⟨pre, n, post, w, hcs, hpre, hres⟩ := tryCandidates_ok hr
      obtain ⟨f1, f2, f3, f4, f5, f6, f7, f8⟩ := resect_ok hres
      simp only [settle]
      rw [f1, f3]
      exact whole_append hp hw _

theorem Grows.shots {env : Env Img Trk World} {r rl : Rec Img Trk World} {images images' : List Img}
    {steps : List (Step Img)} (h : Grows env r images steps rl images') :
    rl.shots = r.shots ++ steps.flatMap Step.images ∧
    images' = minus images (steps.flatMap Step.images) := by
  induction h with
  | nil r images => simp [minus]
  | step r images s steps r1 r2 images2 w _ _ _ _ _ _ _ _ _ hs _ ih =>
    rw [ih.1, ih.2, hs, minus_minus]
    simp

theorem Grows.length_le {env : Env Img Trk World} {r rl : Rec Img Trk World}
    {images images' : List Img}
    {steps : List (Step Img)} (h : Grows env r images steps rl images') :
    steps.length + images'.length ≤ images.length := by
  induction h with
  | nil r images => simp
  | step r images s steps r1 r2 images2 w hreq _ hadd _ _ _ _ _ _ hs _ ih =>
    have : s.image ∈ s.images := (hadd _).2 (Or.inl rfl)
    have := minus_length_lt hreq this
    simp only [List.length_cons]
    omega

theorem Grows.whole {env : Env Img Trk World} (hp : RigPartition env.rigs)
    {r rl : Rec Img Trk World} {images images' : List Img}
    {steps : List (Step Img)} (h : Grows env r images steps rl images')
    (hw : Whole env.rigs r.shots) (hn : r.shots.Nodup) :
    Whole env.rigs rl.shots ∧ rl.shots.Nodup := by
  induction h with
  | nil r images => exact ⟨hw, hn⟩
  | step r images s steps r1 r2 images2 w _ hnew hadd hno _ _ _ _ _ hs _ ih =>
    apply ih
    · have := whole_append hp hw s.image
      intro a b hm ha
      rw [hs, List.mem_append, hadd] at ha ⊢
      have := this a b hm
      simp only [List.mem_append, mem_unit_iff hp] at this
      exact this ha
    · rw [hs, List.nodup_append]
      refine ⟨hn, hno, ?_⟩
      intro a ha b hb e
      subst e
      exact hnew (hw _ _ ((hadd _).1 hb).symm ha)

theorem Grows.new_from {env : Env Img Trk World}
    {r rl : Rec Img Trk World} {images images' : List Img}
    {steps : List (Step Img)} (h : Grows env r images steps rl images') :
    ∀ b ∈ steps.flatMap Step.images, ∃ a ∈ images, a ∈ steps.map Step.image ∧
      Mates env.rigs a b := by
  induction h with
  | nil r images => simp
  | step r images s steps r1 r2 images2 w hreq _ hadd _ _ _ _ _ _ hs _ ih =>
    intro b hb
    rw [List.flatMap_cons, List.mem_append] at hb
    rcases hb with hb | hb
    · exact ⟨s.image, hreq, by simp, (hadd b).1 hb⟩
    · obtain ⟨a, ha, ha2, hb⟩ := ih b hb
      exact ⟨a, ((mem_minus _ _ _).1 ha).1, by simp [ha2], hb⟩

/-! ### C34 -/

/-- **C34.** For every outcome of every numerical step, `grow_reconstruction`:
terminates (any fuel above the number of requested images gives a result, never `running`), raises
no exception; its successive additions satisfy `Grows` (each resects a requested image not yet
there, with at least 5 common points and `min_inliers` inliers, preferring images that see more
points, and adds it with its rig mates); there are at most as many steps as requested images; no
shot is removed; the returned set is what was requested minus what was added; and it stopped
because no requested image outside the reconstruction could be added to it. -/
theorem C34_grow (env : Env Img Trk World) (ho : OrderOk env) (hp : RigPartition env.rigs)
    (r : Rec Img Trk World) (images : List Img) (hn : r.shots.Nodup)
    (hw : ∀ inst ∈ env.rigs, ∀ a ∈ inst, ∀ b ∈ inst, a ∈ r.shots → b ∈ r.shots)
    (fuel : Nat) (hf : images.length < fuel) :
    ∃ (r' rl r0 : Rec Img Trk World) (images' : List Img) (steps : List (Step Img)),
      grow env fuel r images = .done (r', images', steps) ∧
      r0.shots = r.shots ∧ Grows env r0 images steps rl images' ∧
      steps.length ≤ images.length ∧
      r'.shots = r.shots ++ steps.flatMap Step.images ∧ r'.shots.Nodup ∧
      (∀ b ∈ steps.flatMap Step.images, ∃ a ∈ images, a ∈ steps.map Step.image ∧
        Mates env.rigs a b) ∧
      (∀ im, im ∈ images' ↔ im ∈ images ∧ im ∉ steps.flatMap Step.images) ∧
      (r'.shots = rl.shots ∧
        ∀ im ∈ images', im ∉ rl.shots → ∃ w, CannotAdd env rl w im) := by
  have hw' : Whole env.rigs r.shots := by
    rintro a b (rfl | ⟨i, hi, ha, hb⟩) h
    · exact h
    · exact hw i hi a ha b hb h
  cases hg : growLoop env fuel (settle r (env.growInit r)) images [] with
  | running => exact absurd hg (growLoop_not_running ho _ _ _ _ hf)
  | raised => exact absurd hg (growLoop_not_raised ho hp _ _ _ _ hw')
  | done p =>
    obtain ⟨r1, images', steps'⟩ := p
    obtain ⟨steps, rl, hst, hgr, e1, e2, hc⟩ := growLoop_spec ho hp _ _ _ _ _ _ _ hg
    simp only [List.nil_append] at hst
    subst hst
    refine ⟨settle r1 (env.growFinish r1), rl, settle r (env.growInit r), images', steps', ?_, rfl, hgr, ?_, ?_, ?_, ?_, ?_,
      e1, hc⟩
    · unfold grow; rw [hg]
    · have := hgr.length_le; omega
    · simp only [settle]; rw [e1, hgr.shots.1]; rfl
    · simp only [settle]; rw [e1]; exact (hgr.whole hp hw' hn).2
    · exact hgr.new_from
    · intro im; rw [hgr.shots.2, mem_minus]

/-! ### C33 -/

theorem bootShots_ok {env : Env Img Trk World} (hp : RigPartition env.rigs) (im1 im2 : Img) :
    ∃ shots, bootShots env im1 im2 = some shots ∧ shots.Nodup ∧ Whole env.rigs shots ∧
      ∀ s, s ∈ shots ↔ Mates env.rigs im1 s ∨ Mates env.rigs im2 s := by
  have hw0 : Whole env.rigs [] := by intro a b _ h; simp at h
  have h1 := addShot_ok hp hw0 (im := im1) (by simp)
  have hw1 := whole_append hp hw0 im1
  have hn1 := nodup_append_unit hp hw0 List.nodup_nil (im := im1) (by simp)
  simp only [List.nil_append] at h1 hw1 hn1
  unfold bootShots
  rw [h1]
  simp only
  split
  · rename_i hm
    refine ⟨_, rfl, hn1, hw1, ?_⟩
    intro s
    rw [mem_unit_iff hp]
    rw [mem_unit_iff hp] at hm
    exact ⟨Or.inl, fun h => h.elim id (fun h => hm.trans hp h)⟩
  · rename_i hm
    refine ⟨_, by rw [addShot_ok hp hw1 hm]; rfl, nodup_append_unit hp hw1 hn1 hm,
      whole_append hp hw1 im2, ?_⟩
    intro s
    rw [List.mem_append, mem_unit_iff hp, mem_unit_iff hp]

theorem bootstrap_ok {env : Env Img Trk World} (hp : RigPartition env.rigs) (im1 im2 : Img) :
    bootstrap env im1 im2 = some none ∨
    ∃ r, bootstrap env im1 im2 = some (some r) ∧ r.shots.Nodup ∧ Whole env.rigs r.shots ∧
      (∀ s, s ∈ r.shots ↔ Mates env.rigs im1 s ∨ Mates env.rigs im2 s) ∧
      env.minBoot ≤ r.points.length := by
  obtain ⟨shots, h1, h2, h3, h4⟩ := bootShots_ok hp im1 im2 (env := env)
  unfold bootstrap
  rw [h1]
  split
  · simp only
    split
    · exact Or.inl rfl
    · split
      · exact Or.inl rfl
      · rename_i h
        exact Or.inr ⟨_, rfl, h2, h3, h4, by simpa using h⟩
  · exact Or.inl rfl

/-- Invariant of the main loop. -/
structure Inv (env : Env Img Trk World) (recs : List (Rec Img Trk World)) (rem : List Img) :
    Prop where
  sub : ∀ im ∈ rem, im ∈ env.images
  nodup : rem.Nodup
  shots : ∀ r ∈ recs, r.shots.Nodup ∧ Whole env.rigs r.shots ∧ 
    ∀ s ∈ r.shots, ∃ a ∈ env.images, a ∈ r.shots ∧ Mates env.rigs a s
  disj : recs.Pairwise (fun a b => ∀ s ∈ a.shots, s ∉ b.shots)
  account : ∀ im ∈ env.images, im ∈ rem ↔ ∀ r ∈ recs, im ∉ r.shots
  sorted : recs.Pairwise (fun a b => b.shots.length ≤ a.shots.length)

theorem sortRecs_perm (rs : List (Rec Img Trk World)) : (sortRecs rs).Perm rs :=
  List.perm_insertionSort _ _

theorem sortRecs_sorted (rs : List (Rec Img Trk World)) :
    (sortRecs rs).Pairwise (fun a b => b.shots.length ≤ a.shots.length) := by
  have : Std.Total (fun (a b : Rec Img Trk World) => b.shots.length ≤ a.shots.length) :=
    ⟨fun a b => by omega⟩
  have : IsTrans (Rec Img Trk World) (fun a b => b.shots.length ≤ a.shots.length) :=
    ⟨fun a b c h1 h2 => by omega⟩
  exact List.pairwise_insertionSort _ _

theorem Inv.add {env : Env Img Trk World} {recs : List (Rec Img Trk World)}
    {rem rem' : List Img} (h : Inv env recs rem) (r : Rec Img Trk World)
    (hn : r.shots.Nodup) (hw : Whole env.rigs r.shots)
    (hfrom : ∀ s ∈ r.shots, ∃ a ∈ rem, a ∈ r.shots ∧ Mates env.rigs a s)
    (hrem : rem' = minus rem r.shots) : Inv env (sortRecs (recs ++ [r])) rem' := by
  have hperm := sortRecs_perm (recs ++ [r])
  have hdis : ∀ r0 ∈ recs, ∀ s ∈ r0.shots, s ∉ r.shots := by
    intro r0 h0 s hs hs'
    obtain ⟨a, ha, _, hm⟩ := hfrom s hs'
    exact (h.account a (h.sub a ha)).1 ha r0 h0 ((h.shots r0 h0).2.1 s a hm.symm hs)
  constructor
  · intro im hi; rw [hrem, mem_minus] at hi; exact h.sub im hi.1
  · rw [hrem]; exact h.nodup.filter _
  · intro r0 h0
    rw [hperm.mem_iff, List.mem_append, List.mem_singleton] at h0
    rcases h0 with h0 | rfl
    · exact h.shots r0 h0
    · refine ⟨hn, hw, ?_⟩
      intro s hs
      obtain ⟨a, ha, ha', hm⟩ := hfrom s hs
      exact ⟨a, h.sub a ha, ha', hm⟩
  · rw [List.Perm.pairwise_iff ?_ hperm]
    · rw [List.pairwise_append]
      refine ⟨h.disj, by simp, ?_⟩
      intro a ha b hb
      rw [List.mem_singleton] at hb
      subst hb
      exact hdis a ha
    · intro a b hab s hs hs'
      exact hab s hs' hs
  · intro im him
    rw [hrem, mem_minus, h.account im him]
    constructor
    · rintro ⟨h1, h2⟩ r0 h0
      rw [hperm.mem_iff, List.mem_append, List.mem_singleton] at h0
      rcases h0 with h0 | rfl
      · exact h1 r0 h0
      · exact h2
    · intro h1
      refine ⟨fun r0 h0 => h1 r0 (hperm.mem_iff.2 (by simp [h0])), h1 r (hperm.mem_iff.2 (by simp))⟩
  · exact sortRecs_sorted _

theorem mainLoop_spec {env : Env Img Trk World} (ho : OrderOk env) (hp : RigPartition env.rigs)
    (fuel : Nat) (hf : env.images.length < fuel) (pairs : List (Img × Img))
    (recs : List (Rec Img Trk World)) (rem : List Img) (h : Inv env recs rem)
    (hlen : rem.length ≤ env.images.length) :
    ∃ recs' rem', mainLoop env fuel pairs recs rem = .done (recs', rem') ∧ Inv env recs' rem' := by
  induction pairs generalizing recs rem with
  | nil => exact ⟨recs, rem, rfl, h⟩
  | cons p t ih =>
    obtain ⟨im1, im2⟩ := p
    rw [mainLoop]
    split
    · rename_i hin
      rcases bootstrap_ok hp im1 im2 (env := env) with hb | ⟨r, hb, hn, hw, hmem, _⟩
      · rw [hb]; exact ih recs rem h hlen
      · rw [hb]
        have hl1 : (minus rem r.shots).length ≤ rem.length := List.length_filter_le _ _
        obtain ⟨r', rl, r0, images', steps, hg, h0, hgr, hle, hs, hnd, hfrom, him, hrl, _⟩ :=
          C34_grow env ho hp r (minus rem r.shots) hn
            (fun i hi a ha b hb h => hw a b (Or.inr ⟨i, hi, ha, hb⟩) h) fuel (by omega)
        simp only [hg]
        have hw0 : Whole env.rigs r0.shots := by rw [h0]; exact hw
        have hn0 : r0.shots.Nodup := by rw [h0]; exact hn
        have e : images' = minus rem r'.shots := by
          rw [hgr.shots.2, minus_minus, hs]
        apply ih
        · apply h.add r' hnd
          · rw [hrl]; exact (hgr.whole hp hw0 hn0).1
          · intro s hs'
            rw [hs, List.mem_append] at hs'
            rcases hs' with hs' | hs'
            · rcases (hmem s).1 hs' with hm | hm
              · refine ⟨im1, hin.1, ?_, hm⟩
                rw [hs, List.mem_append]
                exact Or.inl ((hmem _).2 (Or.inl (Or.inl rfl)))
              · refine ⟨im2, hin.2, ?_, hm⟩
                rw [hs, List.mem_append]
                exact Or.inl ((hmem _).2 (Or.inr (Or.inl rfl)))
            · obtain ⟨a, ha, _, hm⟩ := hfrom s hs'
              refine ⟨a, ((mem_minus _ _ _).1 ha).1, ?_, hm⟩
              rw [hrl]
              apply (hgr.whole hp hw0 hn0).1 s a hm.symm
              rw [hgr.shots.1, List.mem_append]; exact Or.inr hs'
          · exact e
        · rw [e]
          have : (minus rem r'.shots).length ≤ rem.length := List.length_filter_le _ _
          omega
    · exact ih recs rem h hlen

/-- **C33, bootstrap.** A pair of images starts a reconstruction exactly when its two-view
reconstruction succeeds and at least the configured number of points is triangulated, both before
and after the bundle adjustment and re-triangulation of the pair; the points of the reconstruction
are those of the re-triangulation. -/
theorem C33_bootstrap (env : Env Img Trk World) (im1 im2 : Img) (r : Rec Img Trk World) :
    bootstrap env im1 im2 = some (some r) ↔
      env.twoView im1 im2 = true ∧ ∃ shots, bootShots env im1 im2 = some shots ∧
        env.minBoot ≤ (env.bootTriangulate im1 im2 shots).1.length ∧
        ∃ r1 : Rec Img Trk World, r1.shots = shots ∧
          (r1.points, r1.world) = env.bootTriangulate im1 im2 shots ∧
          env.minBoot ≤ (env.bootRetriangulate r1).1.length ∧
          r.shots = shots ∧ r.points = (env.bootRetriangulate r1).1 ∧
          r.world = env.bootBundle
            ⟨shots, (env.bootRetriangulate r1).1, (env.bootRetriangulate r1).2⟩ := by
  unfold bootstrap
  constructor
  · intro h
    split at h
    · rename_i htv
      refine ⟨htv, ?_⟩
      split at h
      · cases h
      · rename_i shots hb
        simp only at h
        split at h
        · cases h
        · rename_i h1
          split at h
          · cases h
          · rename_i h2
            cases h
            exact ⟨shots, hb, not_lt.1 h1, ⟨shots, _, _⟩, rfl, rfl, not_lt.1 h2, rfl, rfl, rfl⟩
    · cases h
  · rintro ⟨htv, shots, hb, h1, r1, e1, e2, h2, e3, e4, e5⟩
    obtain ⟨a, b, c⟩ := r1
    obtain ⟨a', b', c'⟩ := r
    simp only at e1 e2 e3 e4 e5 h2
    subst e1
    rw [if_pos htv, hb]
    simp only
    have g : env.bootTriangulate im1 im2 a = (b, c) := e2.symm
    rw [g] at h1
    show (if (env.bootTriangulate im1 im2 a).1.length < env.minBoot then some none
      else if (env.bootRetriangulate ⟨a, (env.bootTriangulate im1 im2 a).1,
          (env.bootTriangulate im1 im2 a).2⟩).1.length < env.minBoot then some none
      else _) = _
    rw [g, if_neg (not_lt.2 h1), if_neg (not_lt.2 h2), e3, e4, e5]
    have g' : ((env.bootTriangulate im1 im2 a).1, (env.bootTriangulate im1 im2 a).2) = (b, c) := g
    obtain ⟨g1, g2⟩ := Prod.mk.injEq _ _ _ _ ▸ g'
    rw [← g1, ← g2]

/-- **C33.** For every list of candidate pairs, every outcome of every numerical step, every
partition into rig instances and every iteration order of the sets, `incremental_reconstruction`
terminates without an exception and returns reconstructions and a list of images not reconstructed
such that: no reconstruction holds a shot twice and two reconstructions share no shot; rig
instances are whole; every shot is an input image or the rig mate of one; every input image is
either in exactly one reconstruction, or in none and then listed as not reconstructed (only input
images are, each once); and the reconstructions come by decreasing number of shots. -/
theorem C33_partition (env : Env Img Trk World) (ho : OrderOk env) (hp : RigPartition env.rigs)
    (hn : env.images.Nodup) (pairs : List (Img × Img)) (fuel : Nat)
    (hf : env.images.length < fuel) :
    ∃ (recs : List (Rec Img Trk World)) (notRec : List Img),
      incremental env fuel pairs = .done (recs, notRec) ∧
      (∀ r ∈ recs, r.shots.Nodup) ∧
      recs.Pairwise (fun a b => ∀ s ∈ a.shots, s ∉ b.shots) ∧
      (∀ r ∈ recs, ∀ inst ∈ env.rigs, (∀ s ∈ inst, s ∈ r.shots) ∨ (∀ s ∈ inst, s ∉ r.shots)) ∧
      (∀ r ∈ recs, ∀ s ∈ r.shots, ∃ a ∈ env.images, a ∈ r.shots ∧ Mates env.rigs a s) ∧
      (∀ im ∈ env.images,
        (im ∉ notRec ∧ ∃ (i : Nat) (r : Rec Img Trk World), recs[i]? = some r ∧ im ∈ r.shots ∧
          ∀ (j : Nat) (r' : Rec Img Trk World), recs[j]? = some r' → im ∈ r'.shots → j = i) ∨
        (im ∈ notRec ∧ ∀ r ∈ recs, im ∉ r.shots)) ∧
      (∀ im ∈ notRec, im ∈ env.images) ∧ notRec.Nodup ∧
      recs.Pairwise (fun a b => b.shots.length ≤ a.shots.length) := by
  obtain ⟨recs, rem, hm, hi⟩ := mainLoop_spec ho hp fuel hf pairs [] env.images
    ⟨fun _ h => h, hn, by simp, List.Pairwise.nil, by simp, List.Pairwise.nil⟩ (Nat.le_refl _)
  refine ⟨recs, rem, hm, fun r hr => (hi.shots r hr).1, hi.disj, ?_,
    fun r hr => (hi.shots r hr).2.2, ?_, hi.sub, hi.nodup, hi.sorted⟩
  · intro r hr inst hinst
    by_cases h : ∃ s ∈ inst, s ∈ r.shots
    · obtain ⟨s, hs, hsr⟩ := h
      left
      intro b hb
      exact (hi.shots r hr).2.1 s b (Or.inr ⟨inst, hinst, hs, hb⟩) hsr
    · right
      intro s hs hsr
      exact h ⟨s, hs, hsr⟩
  · intro im him
    by_cases h : im ∈ rem
    · exact Or.inr ⟨h, (hi.account im him).1 h⟩
    · left
      refine ⟨h, ?_⟩
      have : ∃ r ∈ recs, im ∈ r.shots := by
        by_contra hc
        exact h ((hi.account im him).2 (fun r hr hm => hc ⟨r, hr, hm⟩))
      obtain ⟨r, hr, hmr⟩ := this
      obtain ⟨i, hil, rfl⟩ := List.mem_iff_getElem.1 hr
      refine ⟨i, recs[i], by simp [hil], hmr, ?_⟩
      intro j r' hj hm'
      obtain ⟨hjl, rfl⟩ := List.getElem?_eq_some_iff.1 hj
      rcases Nat.lt_trichotomy i j with hlt | heq | hgt
      · exact absurd hm' (List.pairwise_iff_getElem.1 hi.disj i j hil hjl hlt im hmr)
      · exact heq.symm
      · exact absurd hmr (List.pairwise_iff_getElem.1 hi.disj j i hjl hil hgt im hm')

/-- A concrete run: four images, images 2 and 3 on one rig; pair (0,1) succeeds, 2 is resected and
brings 3. -/
def exEnv : Env Nat Nat Nat where
  images := [0, 1, 2, 4]
  tracks := fun im => if im = 4 then [0, 1] else [0, 1, 2, 3, 4, 5]
  rigs := [[2, 3]]
  minInliers := 3
  minBoot := 4
  twoView := fun _ _ => true
  bootTriangulate := fun _ _ _ => ([0, 1, 2, 3, 4], 0)
  bootRetriangulate := fun r => (r.points, r.world + 1)
  bootBundle := fun r => r.world + 1
  order := List.reverse
  ransac := fun r _ => (fun t => t % 2 == 0, r.world + 1)
  resectAdd := fun r _ => (r.points, r.world)
  growInit := fun r => (r.points, r.world)
  growSettle := fun r _ => (r.points ++ [5], r.world)
  growFinish := fun r => (r.points, r.world)

example : OrderOk exEnv ∧ RigPartition exEnv.rigs ∧ exEnv.images.Nodup ∧
    exEnv.images.length < 5 := by
  refine ⟨fun l => List.reverse_perm l, ?_, ?_, ?_⟩ <;> simp [RigPartition, exEnv]

example : (match incremental exEnv 5 [(0, 4), (0, 1), (1, 2)] with
    | .done (recs, rem) => (recs.map Rec.shots, rem)
    | _ => ([], [])) = ([[0, 4, 2, 3, 1]], []) := by decide +kernel

example : (match incremental exEnv 5 [(0, 1), (1, 2)] with
    | .done (recs, rem) => (recs.map Rec.shots, rem)
    | _ => ([], [])) = ([[0, 1, 2, 3]], [4]) := by decide +kernel

example : (match incremental { exEnv with minInliers := 100 } 5 [(0, 1), (1, 2), (2, 4)] with
    | .done (recs, rem) => (recs.map Rec.shots, rem)
    | _ => ([], [])) = ([[2, 3, 4], [0, 1]], []) := by decide +kernel

end Verif.Inc
