import Verif.Model.AlignSetup
import Verif.Props.AlignCost
import Verif.Props.SubmodelAlign

/-!
# C134: the problem set up to align submodels
-/
set_option linter.unusedSectionVars false
set_option linter.unusedSimpArgs false
set_option linter.unusedVariables false
namespace Verif.AlignSetup
open Matrix Verif.Superimpose Verif.GpsBias Verif.AlignCost Verif.SubmodelAlign

/-! ### Specification -/

/-- The shots have distinct names and their positions deviations. -/
def Valid (subs : Subs) : Prop :=
  subs.Wf ∧ ∀ k shots, (k, shots) ∈ subs → shots.Wf ∧ ∀ s d, (s, d) ∈ shots → d.sd ≠ 0

/-- The reconstruction `k` has the shot `s` with the data `d`. -/
def Has (subs : Subs) (k : Key Name) (s : Name) (d : ShotData) : Prop := ∃ shots, (k, shots) ∈ subs ∧ (s, d) ∈ shots

/-- The first reconstruction that has the shot `s` has it with the data `d`. -/
def FirstHas (subs : Subs) (s : Name) (d : ShotData) : Prop :=
  ∃ pre k shots post, subs = pre ++ (k, shots) :: post ∧ (s, d) ∈ shots ∧ ∀ l other, (l, other) ∈ pre → s ∉ other.keys

/-- The points of connected reconstructions that match, when their scales agree within 1.3 and there are twenty of them. -/
def PointsMeet {T : Type} (resect : Key Name → Key Name → Bool × ℝ × List (T × T)) (coord : Key Name → T → Vec 3)
    (subs : Subs) (x : Name → Recon) : Prop :=
  ∀ k l, (k, l) ∈ connected (shotNames subs) → ∀ scale inliers, resect k l = (true, scale, inliers) →
    scale ≤ 13 / 10 → 10 / 13 ≤ scale → 20 ≤ inliers.length → ∀ t u, (t, u) ∈ inliers →
    ∃ y, forward (x (recName k)) y = coord k t ∧ forward (x (recName l)) y = coord l u

/-- No two shots get the same name under the hard constraints. -/
def NoClash (subs : Subs) : Prop := ∀ k s d l t e, Has subs k s d → Has subs l t e →
  hardShotName k s = hardShotName l t → k = l ∧ s = t

/-! ### Soft constraints -/

theorem soft_inner (k : Key Name) (l : Dict Name ShotData) (hl : l.Wf) (A : List Name) (ra : Ra) :
    (∀ n, n ∈ (l.foldl (addSoftShot k) (A, ra)).1 ↔ n ∈ A ∨ n ∈ Dict.keys l) ∧
    (l.foldl (addSoftShot k) (A, ra)).2.items = ra.items ++ l.flatMap (fun q =>
      (softConstraints q.2.pose q.2.gps q.2.sd (recName k) q.1 (decide (q.1 ∉ A))).map .plain) := by
  induction l generalizing A ra with
  | nil => simp
  | cons q l ih =>
    have hq : q.1 ∉ Dict.keys l := (List.nodup_cons.1 hl).1
    have hl' : Dict.Wf l := (List.nodup_cons.1 hl).2
    rw [List.foldl_cons]
    by_cases h : q.1 ∈ A
    · have e : addSoftShot k (A, ra) q =
          (A, addItems ((softConstraints q.2.pose q.2.gps q.2.sd (recName k) q.1 false).map .plain) ra) := by
        unfold addSoftShot; simp only [h, if_true]
      rw [e]
      obtain ⟨i1, i2⟩ := ih hl' A (addItems ((softConstraints q.2.pose q.2.gps q.2.sd (recName k) q.1 false).map .plain) ra)
      refine ⟨fun n => ?_, ?_⟩
      · rw [i1, Dict.keys_cons, List.mem_cons]
        constructor
        · rintro (h1 | h1)
          · exact Or.inl h1
          · exact Or.inr (Or.inr h1)
        · rintro (h1 | rfl | h1)
          · exact Or.inl h1
          · exact Or.inl h
          · exact Or.inr h1
      · rw [i2, List.flatMap_cons]
        simp only [h, not_true_eq_false, decide_false, addItems, List.append_assoc]
    · have e : addSoftShot k (A, ra) q =
          (A ++ [q.1], addItems ((softConstraints q.2.pose q.2.gps q.2.sd (recName k) q.1 true).map .plain)
            (addShot q.1 q.2.pose false ra)) := by
        unfold addSoftShot; simp only [h, if_false]
      rw [e]
      obtain ⟨i1, i2⟩ := ih hl' (A ++ [q.1])
        (addItems ((softConstraints q.2.pose q.2.gps q.2.sd (recName k) q.1 true).map .plain)
            (addShot q.1 q.2.pose false ra))
      refine ⟨fun n => ?_, ?_⟩
      · rw [i1, Dict.keys_cons, List.mem_cons, List.mem_append, List.mem_singleton, or_assoc]
      · rw [i2, List.flatMap_cons]
        simp only [h, not_false_eq_true, decide_true, addItems, addShot, List.append_assoc]
        congr 2
        rw [List.flatMap_def, List.flatMap_def]
        congr 1
        apply List.map_congr_left
        intro p hp
        have hne : p.1 ≠ q.1 := fun h1 => hq (h1 ▸ List.mem_map_of_mem hp)
        have : (decide (p.1 ∉ A ++ [q.1])) = decide (p.1 ∉ A) := by
          simp only [List.mem_append, List.mem_singleton, hne, or_false]
        rw [this]

theorem soft_outer (subs : Subs) (hs : ∀ k shots, (k, shots) ∈ subs → shots.Wf) (A : List Name) (ra : Ra) (it : Item) :
    it ∈ (subs.foldl addSoftRec (A, ra)).2.items ↔ it ∈ ra.items ∨
      ∃ pre k shots post, subs = pre ++ (k, shots) :: post ∧ ∃ s d, (s, d) ∈ shots ∧
        ∃ c, it = .plain c ∧
        ((c ∈ softConstraints d.pose d.gps d.sd (recName k) s true ∧ s ∉ A ∧ ∀ l other, (l, other) ∈ pre → s ∉ other.keys) ∨
         (c ∈ softConstraints d.pose d.gps d.sd (recName k) s false ∧
          ¬(s ∉ A ∧ ∀ l other, (l, other) ∈ pre → s ∉ other.keys))) := by
  induction subs generalizing A ra with
  | nil => simp
  | cons e rest ih =>
    obtain ⟨k, shots⟩ := e
    rw [List.foldl_cons]
    obtain ⟨i1, i2⟩ := soft_inner k shots (hs k shots List.mem_cons_self) A (addReconstruction (recName k) ra)
    have e0 : (addReconstruction (recName k) ra).items = ra.items := by
      unfold addReconstruction; split <;> rfl
    rw [e0] at i2
    have e1 : addSoftRec (A, ra) (k, shots) = ((addSoftRec (A, ra) (k, shots)).1, (addSoftRec (A, ra) (k, shots)).2) := rfl
    rw [e1, ih (fun k' s' h => hs k' s' (List.mem_cons_of_mem _ h))]
    have i2' : (addSoftRec (A, ra) (k, shots)).2.items = ra.items ++ shots.flatMap (fun q =>
      (softConstraints q.2.pose q.2.gps q.2.sd (recName k) q.1 (decide (q.1 ∉ A))).map .plain) := i2
    have i1' : ∀ n, n ∈ (addSoftRec (A, ra) (k, shots)).1 ↔ n ∈ A ∨ n ∈ shots.keys := i1
    rw [i2', List.mem_append, or_assoc]
    apply or_congr Iff.rfl
    simp only [i1', List.mem_flatMap, List.mem_map]
    constructor
    · rintro (⟨q, hq, c, hc, rfl⟩ | ⟨pre, k', sh', post, rfl, s, d, hd, c, rfl, h⟩)
      · refine ⟨[], k, shots, rest, rfl, q.1, q.2, hq, c, rfl, ?_⟩
        by_cases h : q.1 ∈ A
        · rw [decide_eq_false (by simpa using h)] at hc
          exact Or.inr ⟨hc, fun h1 => h1.1 h⟩
        · rw [decide_eq_true h] at hc
          exact Or.inl ⟨hc, h, by simp⟩
      · refine ⟨(k, shots) :: pre, k', sh', post, rfl, s, d, hd, c, rfl, ?_⟩
        have : (¬(s ∈ A ∨ s ∈ shots.keys) ∧ ∀ l other, (l, other) ∈ pre → s ∉ other.keys) ↔
            (s ∉ A ∧ ∀ l other, (l, other) ∈ (k, shots) :: pre → s ∉ other.keys) := by
          constructor
          · rintro ⟨h1, h2⟩
            refine ⟨fun h3 => h1 (Or.inl h3), fun l other h3 => ?_⟩
            rcases List.mem_cons.1 h3 with h3 | h3
            · cases h3; exact fun h4 => h1 (Or.inr h4)
            · exact h2 l other h3
          · rintro ⟨h1, h2⟩
            exact ⟨fun h3 => h3.elim h1 (h2 k shots List.mem_cons_self),
              fun l other h3 => h2 l other (List.mem_cons_of_mem _ h3)⟩
        rw [← this]; exact h
    · rintro ⟨pre, k', sh', post, heq, s, d, hd, c, rfl, h⟩
      cases pre with
      | nil =>
        simp only [List.nil_append, List.cons.injEq, Prod.mk.injEq] at heq
        obtain ⟨⟨rfl, rfl⟩, rfl⟩ := heq
        left
        refine ⟨(s, d), hd, c, ?_, rfl⟩
        rcases h with ⟨hc, h1, -⟩ | ⟨hc, h1⟩
        · rw [decide_eq_true h1]; exact hc
        · have h2 : s ∈ A := by
            by_contra h3; exact h1 ⟨h3, by simp⟩
          rw [decide_eq_false (by simpa using h2)]; exact hc
      | cons e pre =>
        simp only [List.cons_append, List.cons.injEq] at heq
        obtain ⟨rfl, rfl⟩ := heq
        right
        refine ⟨pre, k', sh', post, rfl, s, d, hd, c, rfl, ?_⟩
        have : (¬(s ∈ A ∨ s ∈ shots.keys) ∧ ∀ l other, (l, other) ∈ pre → s ∉ other.keys) ↔
            (s ∉ A ∧ ∀ l other, (l, other) ∈ (k, shots) :: pre → s ∉ other.keys) := by
          constructor
          · rintro ⟨h1, h2⟩
            refine ⟨fun h3 => h1 (Or.inl h3), fun l other h3 => ?_⟩
            rcases List.mem_cons.1 h3 with h3 | h3
            · cases h3; exact fun h4 => h1 (Or.inr h4)
            · exact h2 l other h3
          · rintro ⟨h1, h2⟩
            exact ⟨fun h3 => h3.elim h1 (h2 k shots List.mem_cons_self),
              fun l other h3 => h2 l other (List.mem_cons_of_mem _ h3)⟩
        rw [this]; exact h

/-- What the points ask for, and that their weights are not zero. -/
theorem points_spec {T : Type} (resect : Key Name → Key Name → Bool × ℝ × List (T × T)) (coord : Key Name → T → Vec 3)
    (subs : Subs) (x : Name → Recon) (y : Name → Shot) (shots : Dict Name (Shot × Bool)) :
    (∀ it ∈ (connected (shotNames subs)).flatMap (pairPoints resect coord), Weighted (resolve shots it)) ∧
    ((∀ it ∈ (connected (shotNames subs)).flatMap (pairPoints resect coord), Met x y (resolve shots it)) ↔
      PointsMeet resect coord subs x) := by
  have hmem : ∀ it, it ∈ (connected (shotNames subs)).flatMap (pairPoints resect coord) ↔
      ∃ k l, (k, l) ∈ connected (shotNames subs) ∧ ∃ scale inliers, resect k l = (true, scale, inliers) ∧
        scale ≤ 13 / 10 ∧ 10 / 13 ≤ scale ∧ 20 ≤ inliers.length ∧ ∃ t u, (t, u) ∈ inliers ∧
        it = .plain (.point (coord k t) (coord l u) (1 / 10) (recName k) (recName l)) := by
    intro it
    rw [List.mem_flatMap]
    constructor
    · rintro ⟨⟨k, l⟩, hkl, hit⟩
      refine ⟨k, l, hkl, (resect k l).2.1, (resect k l).2.2, ?_⟩
      unfold pairPoints at hit
      simp only at hit
      split at hit
      · simp at hit
      · rename_i hok
        split at hit
        · simp at hit
        · rename_i hb
          push Not at hb
          obtain ⟨t, ht, rfl⟩ := List.mem_map.1 hit
          have hok' : (resect k l).1 = true := by simpa using hok
          refine ⟨?_, hb.1, ?_, hb.2.2, t.1, t.2, ht, rfl⟩
          · rw [← hok']
          · have := hb.2.1; norm_num at this; linarith
    · rintro ⟨k, l, hkl, scale, inliers, hr, h1, h2, h3, t, u, htu, rfl⟩
      refine ⟨(k, l), hkl, ?_⟩
      unfold pairPoints
      simp only [hr]
      rw [if_neg (by simp), if_neg]
      · exact List.mem_map.2 ⟨(t, u), htu, rfl⟩
      · push Not
        exact ⟨h1, by norm_num; linarith, h3⟩
  constructor
  · intro it hit
    obtain ⟨k, l, -, scale, inliers, -, -, -, -, t, u, -, rfl⟩ := (hmem it).1 hit
    show (1 / 10 : ℝ) ≠ 0
    norm_num
  · constructor
    · intro h k l hkl scale inliers hr h1 h2 h3 t u htu
      exact h _ ((hmem _).2 ⟨k, l, hkl, scale, inliers, hr, h1, h2, h3, t, u, htu, rfl⟩)
    · intro h it hit
      obtain ⟨k, l, hkl, scale, inliers, hr, h1, h2, h3, t, u, htu, rfl⟩ := (hmem it).1 hit
      exact h k l hkl scale inliers hr h1 h2 h3 t u htu

theorem forall_map_iff {α β : Type} (f : α → β) (l : List α) (p : β → Prop) :
    (∀ b ∈ l.map f, p b) ↔ ∀ a ∈ l, p (f a) := by simp

theorem forall_append {α : Type} (l m : List α) (p : α → Prop) :
    (∀ a ∈ l ++ m, p a) ↔ (∀ a ∈ l, p a) ∧ ∀ a ∈ m, p a := by
  simp only [List.mem_append]
  exact ⟨fun h => ⟨fun a ha => h a (Or.inl ha), fun a ha => h a (Or.inr ha)⟩, fun h a ha => ha.elim (h.1 a) (h.2 a)⟩

/-- The points appended to a problem. -/
theorem with_points {T : Type} (resect : Key Name → Key Name → Bool × ℝ × List (T × T)) (coord : Key Name → T → Vec 3)
    (subs : Subs) (points : Bool) (ra : Ra) (x : Name → Recon) (y : Name → Shot) :
    let r := if points then addPoints resect coord subs ra else ra
    ((∀ c ∈ constraints ra, Weighted c) → ∀ c ∈ constraints r, Weighted c) ∧
    ((∀ c ∈ constraints r, Met x y c) ↔
      (∀ c ∈ constraints ra, Met x y c) ∧ (points = true → PointsMeet resect coord subs x)) := by
  cases points with
  | false => simp
  | true =>
    simp only [if_true, true_implies]
    obtain ⟨h1, h2⟩ := points_spec resect coord subs x y ra.shots
    unfold constraints addPoints addItems
    simp only [forall_map_iff, forall_append]
    exact ⟨fun h => ⟨h, h1⟩, and_congr Iff.rfl h2⟩

theorem soft_spec (subs : Subs) (hv : Valid subs) (x : Name → Recon) (y : Name → Shot) :
    (∀ c ∈ constraints (addSoft subs), Weighted c) ∧
    ((∀ c ∈ constraints (addSoft subs), Met x y c) ↔
      (∀ k s d, Has subs k s d → vecToMat (y s).r = vecToMat d.pose.r * vecToMat (x (recName k)).r ∧
        forward (x (recName k)) (centre (y s)) = centre d.pose) ∧
      (∀ s d, FirstHas subs s d → centre (y s) = d.gps)) := by
  have hm := fun it => soft_outer subs (fun k sh h => (hv.2 k sh h).1) [] empty it
  have hsd : ∀ pre k shots post s d, subs = pre ++ (k, shots) :: post → (s, d) ∈ shots → d.sd ≠ 0 := by
    intro pre k shots post s d h hd
    exact (hv.2 k shots (by rw [h]; simp)).2 s d hd
  unfold constraints
  simp only [forall_map_iff]
  constructor
  · intro it hit
    rcases (hm it).1 hit with h | ⟨pre, k, shots, post, hsub, s, d, hd, c, rfl, h⟩
    · exact absurd h (by simp [empty])
    · have h0 := hsd pre k shots post s d hsub hd
      rcases h with ⟨hc, -⟩ | ⟨hc, -⟩
      · exact (C133_soft d.pose d.gps d.sd h0 (recName k) s true x y).1 c hc
      · exact (C133_soft d.pose d.gps d.sd h0 (recName k) s false x y).1 c hc
  · constructor
    · intro h
      constructor
      · rintro k s d ⟨shots, hk, hd⟩
        obtain ⟨pre, post, hsub⟩ := List.append_of_mem hk
        have h0 := hsd pre k shots post s d hsub hd
        by_cases hf : s ∉ ([] : List Name) ∧ ∀ l other, (l, other) ∈ pre → s ∉ Dict.keys other
        · exact ((C133_soft d.pose d.gps d.sd h0 (recName k) s true x y).2.1 (fun c hc =>
            h _ ((hm _).2 (Or.inr ⟨pre, k, shots, post, hsub, s, d, hd, c, rfl, Or.inl ⟨hc, hf⟩⟩)))).2
        · exact ((C133_soft d.pose d.gps d.sd h0 (recName k) s false x y).2.1 (fun c hc =>
            h _ ((hm _).2 (Or.inr ⟨pre, k, shots, post, hsub, s, d, hd, c, rfl, Or.inr ⟨hc, hf⟩⟩)))).2
      · rintro s d ⟨pre, k, shots, post, hsub, hd, hf⟩
        have h0 := hsd pre k shots post s d hsub hd
        exact ((C133_soft d.pose d.gps d.sd h0 (recName k) s true x y).2.1 (fun c hc =>
            h _ ((hm _).2 (Or.inr ⟨pre, k, shots, post, hsub, s, d, hd, c, rfl, Or.inl ⟨hc, by simp, hf⟩⟩)))).1 rfl
    · rintro ⟨h1, h2⟩ it hit
      rcases (hm it).1 hit with h | ⟨pre, k, shots, post, hsub, s, d, hd, c, rfl, h⟩
      · exact absurd h (by simp [empty])
      · have h0 := hsd pre k shots post s d hsub hd
        have hh : Has subs k s d := ⟨shots, by rw [hsub]; simp, hd⟩
        rcases h with ⟨hc, -, hf⟩ | ⟨hc, -⟩
        · exact (C133_soft d.pose d.gps d.sd h0 (recName k) s true x y).2.2
            ⟨fun _ => h2 s d ⟨pre, k, shots, post, hsub, hd, hf⟩, h1 k s d hh⟩ c hc
        · exact (C133_soft d.pose d.gps d.sd h0 (recName k) s false x y).2.2 ⟨by simp, h1 k s d hh⟩ c hc

/-- C134. With soft cameras, the cost of an alignment is zero exactly if every shot has in the world the pose that each of
its reconstructions gives it, its centre is at the position that the first reconstruction that has it gives, and, with
points, the points that match are the same in the world. -/
theorem C134_soft {T : Type} (resect : Key Name → Key Name → Bool × ℝ × List (T × T)) (coord : Key Name → T → Vec 3)
    (subs : Subs) (hv : Valid subs) (points : Bool) {toVec : Mat 3 → Vec 3} (hl : Log toVec) {x : Name → Recon}
    (hx : ∀ n, 0 < (x n).s) (y : Name → Shot) :
    cost toVec (constraints (problem true points resect coord subs)) x y = 0 ↔
      (∀ k s d, Has subs k s d → vecToMat (y s).r = vecToMat d.pose.r * vecToMat (x (recName k)).r ∧
        forward (x (recName k)) (centre (y s)) = centre d.pose) ∧
      (∀ s d, FirstHas subs s d → centre (y s) = d.gps) ∧
      (points = true → PointsMeet resect coord subs x) := by
  obtain ⟨w1, w2⟩ := with_points resect coord subs points (addSoft subs) x y
  obtain ⟨s1, s2⟩ := soft_spec subs hv x y
  have e : problem true points resect coord subs = if points then addPoints resect coord subs (addSoft subs) else addSoft subs := by
    unfold problem; simp
  rw [e, (C133_cost hl _ (w1 s1) hx).2, w2, s2, and_assoc]

/-! ### Hard constraints -/

/-- The shots of all reconstructions in order. -/
def flat (subs : Subs) : List (Key Name × Name × ShotData) := subs.flatMap (fun e => e.2.map (fun q => (e.1, q)))

theorem mem_flat (subs : Subs) (k : Key Name) (s : Name) (d : ShotData) : (k, s, d) ∈ flat subs ↔ Has subs k s d := by
  unfold flat Has
  rw [List.mem_flatMap]
  constructor
  · rintro ⟨e, he, h⟩
    obtain ⟨q, hq, h1⟩ := List.mem_map.1 h
    cases h1
    exact ⟨e.2, he, hq⟩
  · rintro ⟨shots, h1, h2⟩
    exact ⟨(k, shots), h1, List.mem_map.2 ⟨(s, d), h2, rfl⟩⟩

theorem hard_inner (k : Key Name) (l : List (Name × ShotData)) (ra : Ra) :
    (l.foldl (addHardShot k) ra).shots =
      (l.map (fun q => (k, q))).foldl (fun m p => m.set (hardShotName p.1 p.2.1) (p.2.2.pose, true)) ra.shots ∧
    (l.foldl (addHardShot k) ra).items = ra.items ++ (l.map (fun q => (k, q))).map (fun p =>
      .relAbs (recName p.1) (hardShotName p.1 p.2.1) p.2.2.gps p.2.2.sd) := by
  induction l generalizing ra with
  | nil => simp
  | cons q l ih =>
    obtain ⟨i1, i2⟩ := ih (addHardShot k ra q)
    rw [List.foldl_cons, i1, i2]
    simp [addHardShot, addItems, addShot]

theorem hard_fold (subs : Subs) (ra : Ra) :
    (subs.foldl addHardRec ra).shots =
      (flat subs).foldl (fun m p => m.set (hardShotName p.1 p.2.1) (p.2.2.pose, true)) ra.shots ∧
    (subs.foldl addHardRec ra).items = ra.items ++ (flat subs).map (fun p =>
      .relAbs (recName p.1) (hardShotName p.1 p.2.1) p.2.2.gps p.2.2.sd) := by
  induction subs generalizing ra with
  | nil => simp [flat]
  | cons e rest ih =>
    obtain ⟨i1, i2⟩ := ih (addHardRec ra e)
    obtain ⟨j1, j2⟩ := hard_inner e.1 e.2 (addReconstruction (recName e.1) ra)
    have a1 : (addReconstruction (recName e.1) ra).shots = ra.shots := by unfold addReconstruction; split <;> rfl
    have a2 : (addReconstruction (recName e.1) ra).items = ra.items := by unfold addReconstruction; split <;> rfl
    have e0 : flat (e :: rest) = e.2.map (fun q => (e.1, q)) ++ flat rest := by unfold flat; rw [List.flatMap_cons]
    have k1 : (addHardRec ra e).shots = _ := j1
    have k2 : (addHardRec ra e).items = _ := j2
    rw [List.foldl_cons, i1, i2, e0, k1, k2, a1, a2, List.foldl_append, List.map_append, List.append_assoc]
    exact ⟨rfl, rfl⟩

theorem fold_other {A : Type} (name : A → Name) (val : A → Shot × Bool) (l : List A) (m : Dict Name (Shot × Bool))
    (n : Name) (h : ∀ p ∈ l, name p ≠ n) :
    (l.foldl (fun m p => m.set (name p) (val p)) m).get? n = m.get? n := by
  induction l generalizing m with
  | nil => rfl
  | cons p l ih =>
    rw [List.foldl_cons, ih _ (fun q hq => h q (List.mem_cons_of_mem _ hq)), Dict.get?_set_ne]
    exact h p List.mem_cons_self

theorem fold_last {A : Type} (name : A → Name) (val : A → Shot × Bool) (pre post : List A) (p : A)
    (m : Dict Name (Shot × Bool)) (h : ∀ q ∈ post, name q ≠ name p) :
    ((pre ++ p :: post).foldl (fun m p => m.set (name p) (val p)) m).get? (name p) = some (val p) := by
  rw [List.foldl_append, List.foldl_cons, fold_other name val post _ _ h, Dict.get?_set_self]

theorem fold_all {A : Type} (name : A → Name) (val : A → Shot × Bool) (l : List A) (m : Dict Name (Shot × Bool))
    (n : Name) (v : Shot × Bool) (h : ∀ p ∈ l, name p = n → val p = v) (hm : (∃ p ∈ l, name p = n) ∨ m.get? n = some v) :
    (l.foldl (fun m p => m.set (name p) (val p)) m).get? n = some v := by
  induction l generalizing m with
  | nil =>
    rcases hm with ⟨p, hp, -⟩ | hm
    · simp at hp
    · exact hm
  | cons p l ih =>
    rw [List.foldl_cons]
    apply ih _ (fun q hq => h q (List.mem_cons_of_mem _ hq))
    by_cases hp : name p = n
    · right
      rw [← hp, Dict.get?_set_self, h p List.mem_cons_self hp]
    · rcases hm with ⟨q, hq, h1⟩ | hm
      · rcases List.mem_cons.1 hq with rfl | hq
        · exact absurd h1 hp
        · exact Or.inl ⟨q, hq, h1⟩
      · right
        rw [Dict.get?_set_ne _ _ hp, hm]

theorem has_unique {subs : Subs} (hv : Valid subs) {k : Key Name} {s : Name} {d e : ShotData} (h1 : Has subs k s d)
    (h2 : Has subs k s e) : d = e := by
  obtain ⟨sh1, a1, b1⟩ := h1
  obtain ⟨sh2, a2, b2⟩ := h2
  have e1 := Dict.get?_of_mem hv.1 a1
  have e2 := Dict.get?_of_mem hv.1 a2
  have : sh1 = sh2 := Option.some.inj (e1.symm.trans e2)
  subst this
  have hw := (hv.2 k sh1 a1).1
  exact Option.some.inj ((Dict.get?_of_mem hw b1).symm.trans (Dict.get?_of_mem hw b2))

theorem addHard_shots (subs : Subs) : (addHard subs).shots =
    (flat subs).foldl (fun (m : Dict Name (Shot × Bool)) p => m.set (hardShotName p.1 p.2.1) (p.2.2.pose, true)) [] :=
  (hard_fold subs empty).1

theorem pose_hard {subs : Subs} (hv : Valid subs) (hc : NoClash subs) {k : Key Name} {s : Name} {d : ShotData}
    (h : Has subs k s d) : poseOf (addHard subs).shots (hardShotName k s) = d.pose := by
  unfold poseOf
  rw [addHard_shots, fold_all (fun p : Key Name × Name × ShotData => hardShotName p.1 p.2.1) (fun p => (p.2.2.pose, true))
    (flat subs) [] (hardShotName k s) (d.pose, true) ?_ (Or.inl ⟨(k, s, d), (mem_flat subs k s d).2 h, rfl⟩)]
  · rfl
  · rintro ⟨l, t, e⟩ he hn
    have he' := (mem_flat subs l t e).1 he
    obtain ⟨rfl, rfl⟩ := hc _ _ _ _ _ _ he' h hn
    rw [has_unique hv he' h]

theorem mem_common {subs : Subs} (hv : Valid subs) (k l : Key Name) (s : Name) :
    s ∈ commonImages subs k l ↔ ∃ d e, Has subs k s d ∧ Has subs l s e := by
  have hk : ∀ k, s ∈ ((subs.get? k).getD []).keys ↔ ∃ d, Has subs k s d := by
    intro k
    constructor
    · intro h
      cases hg : subs.get? k with
      | none => rw [hg] at h; simp at h
      | some shots =>
        rw [hg] at h
        obtain ⟨q, hq, rfl⟩ := List.mem_map.1 h
        exact ⟨q.2, shots, Dict.mem_of_get? hg, hq⟩
    · rintro ⟨d, shots, h1, h2⟩
      rw [Dict.get?_of_mem hv.1 h1]
      exact List.mem_map.2 ⟨(s, d), h2, rfl⟩
  unfold commonImages
  rw [List.mem_filter, decide_eq_true_eq, hk, hk]
  exact ⟨fun ⟨⟨d, h1⟩, e, h2⟩ => ⟨d, e, h1, h2⟩, fun ⟨d, e, h1, h2⟩ => ⟨⟨d, h1⟩, e, h2⟩⟩

theorem shotNames_wf {subs : Subs} (h : subs.Wf) : (shotNames subs).Wf := by
  have : Dict.keys (shotNames subs) = Dict.keys subs := by simp [Dict.keys, shotNames]
  unfold Dict.Wf
  rw [this]; exact h

theorem connected_mem {P S : Type} [LinearOrder P] [DecidableEq S] (m : Dict (Key P) (List S)) (hm : m.Wf) (u v : Key P) :
    ((u, v) ∈ connected m ∨ (v, u) ∈ connected m) ↔
      u ≠ v ∧ ∃ su sv s, (u, su) ∈ m ∧ (v, sv) ∈ m ∧ s ∈ su ∧ s ∈ sv := by
  rw [(C70_connected m hm).2.2 u v]
  apply and_congr Iff.rfl
  constructor
  · rintro ⟨su, sv, s, h1, h2, h3, h4⟩
    exact ⟨su, sv, s, Dict.mem_of_get? h1, Dict.mem_of_get? h2, h3, h4⟩
  · rintro ⟨su, sv, s, h1, h2, h3, h4⟩
    exact ⟨su, sv, s, Dict.get?_of_mem hm h1, Dict.get?_of_mem hm h2, h3, h4⟩

theorem connected_nodup {P S : Type} [LinearOrder P] [DecidableEq S] (m : Dict (Key P) (List S)) (hm : m.Wf) :
    (connected m).Nodup := (C70_connected m hm).1

theorem connected_asymm {P S : Type} [LinearOrder P] [DecidableEq S] (m : Dict (Key P) (List S)) (hm : m.Wf)
    (a : Key P × Key P) (h : a ∈ connected m) : (a.2, a.1) ∉ connected m := (C70_connected m hm).2.1 a h

theorem conn_iff {subs : Subs} (hv : Valid subs) (k l : Key Name) :
    ((k, l) ∈ connected (shotNames subs) ∨ (l, k) ∈ connected (shotNames subs)) ↔
      k ≠ l ∧ ∃ s d e, Has subs k s d ∧ Has subs l s e := by
  have hw := shotNames_wf hv.1
  rw [connected_mem (shotNames subs) hw k l]
  have hmem : ∀ k sh, (k, sh) ∈ shotNames subs ↔ ∃ shots, (k, shots) ∈ subs ∧ sh = Dict.keys shots := by
    intro k sh
    unfold shotNames
    rw [List.mem_map]
    constructor
    · rintro ⟨e, he, h1⟩
      cases h1
      exact ⟨e.2, he, rfl⟩
    · rintro ⟨shots, h1, rfl⟩
      exact ⟨(k, shots), h1, rfl⟩
  apply and_congr Iff.rfl
  constructor
  · rintro ⟨su, sv, s, h1, h2, h3, h4⟩
    obtain ⟨shu, hu, rfl⟩ := (hmem k su).1 h1
    obtain ⟨shv, hv', rfl⟩ := (hmem l sv).1 h2
    obtain ⟨q, hq, rfl⟩ := List.mem_map.1 h3
    obtain ⟨r, hr, h5⟩ := List.mem_map.1 h4
    exact ⟨q.1, q.2, r.2, ⟨shu, hu, hq⟩, ⟨shv, hv', h5 ▸ hr⟩⟩
  · rintro ⟨s, d, e, ⟨shu, hu, hd⟩, ⟨shv, hv', he⟩⟩
    exact ⟨Dict.keys shu, Dict.keys shv, s, (hmem k _).2 ⟨shu, hu, rfl⟩, (hmem l _).2 ⟨shv, hv', rfl⟩,
      List.mem_map.2 ⟨(s, d), hd, rfl⟩, List.mem_map.2 ⟨(s, e), he, rfl⟩⟩

theorem hard_items {subs : Subs} (hv : Valid subs) (it : Item) : it ∈ (addHard subs).items ↔
    (∃ k s d, Has subs k s d ∧ it = .relAbs (recName k) (hardShotName k s) d.gps d.sd) ∨
    ∃ k l, (k, l) ∈ connected (shotNames subs) ∧ ∃ s d e, Has subs k s d ∧ Has subs l s e ∧
      it = .camera (recName k) (hardShotName k s) (recName l) (hardShotName l s) 1 (1 / 10) := by
  have e0 : (addHard subs).items = ((flat subs).map (fun p =>
      Item.relAbs (recName p.1) (hardShotName p.1 p.2.1) p.2.2.gps p.2.2.sd)) ++
      (connected (shotNames subs)).flatMap (pairCameras subs) := by
    have := (hard_fold subs empty).2
    unfold addHard addItems
    simp only [this]
    rfl
  rw [e0, List.mem_append, List.mem_map, List.mem_flatMap]
  apply or_congr
  · constructor
    · rintro ⟨⟨k, s, d⟩, h, rfl⟩
      exact ⟨k, s, d, (mem_flat subs k s d).1 h, rfl⟩
    · rintro ⟨k, s, d, h, rfl⟩
      exact ⟨(k, s, d), (mem_flat subs k s d).2 h, rfl⟩
  · constructor
    · rintro ⟨⟨k, l⟩, hkl, h⟩
      obtain ⟨s, hs, rfl⟩ := List.mem_map.1 h
      obtain ⟨d, e, h1, h2⟩ := (mem_common hv k l s).1 hs
      exact ⟨k, l, hkl, s, d, e, h1, h2, rfl⟩
    · rintro ⟨k, l, hkl, s, d, e, h1, h2, rfl⟩
      exact ⟨(k, l), hkl, List.mem_map.2 ⟨s, (mem_common hv k l s).2 ⟨d, e, h1, h2⟩, rfl⟩⟩

theorem hard_spec (subs : Subs) (hv : Valid subs) (hc : NoClash subs) (x : Name → Recon) (y : Name → Shot) :
    (∀ c ∈ constraints (addHard subs), Weighted c) ∧
    ((∀ c ∈ constraints (addHard subs), Met x y c) ↔
      (∀ k s d, Has subs k s d → forward (x (recName k)) d.gps = centre d.pose) ∧
      ∀ k l s d e, k ≠ l → Has subs k s d → Has subs l s e →
        vecToMat d.pose.r * vecToMat (x (recName k)).r = vecToMat e.pose.r * vecToMat (x (recName l)).r ∧
        ∃ z, forward (x (recName k)) z = centre d.pose ∧ forward (x (recName l)) z = centre e.pose) := by
  have hp := fun {k s d} (h : Has subs k s d) => pose_hard hv hc h
  unfold constraints
  simp only [forall_map_iff]
  constructor
  · intro it hit
    rcases (hard_items hv it).1 hit with ⟨k, s, d, ⟨shots, h1, h2⟩, rfl⟩ | ⟨k, l, -, s, d, e, -, -, rfl⟩
    · exact (hv.2 k shots h1).2 s d h2
    · exact ⟨one_ne_zero, by norm_num⟩
  · constructor
    · intro h
      constructor
      · intro k s d hd
        have := h _ ((hard_items hv _).2 (Or.inl ⟨k, s, d, hd, rfl⟩))
        simp only [resolve, Met, hp hd] at this
        exact this
      · intro k l s d e hne hd he
        rcases (conn_iff hv k l).2 ⟨hne, s, d, e, hd, he⟩ with hkl | hkl
        · have := h _ ((hard_items hv _).2 (Or.inr ⟨k, l, hkl, s, d, e, hd, he, rfl⟩))
          simp only [resolve, Met, hp hd, hp he] at this
          exact this
        · have := h _ ((hard_items hv _).2 (Or.inr ⟨l, k, hkl, s, e, d, he, hd, rfl⟩))
          simp only [resolve, Met, hp hd, hp he] at this
          obtain ⟨h1, z, h2, h3⟩ := this
          exact ⟨h1.symm, z, h3, h2⟩
    · rintro ⟨h1, h2⟩ it hit
      rcases (hard_items hv it).1 hit with ⟨k, s, d, hd, rfl⟩ | ⟨k, l, hkl, s, d, e, hd, he, rfl⟩
      · simp only [resolve, Met, hp hd]
        exact h1 k s d hd
      · simp only [resolve, Met, hp hd, hp he]
        exact h2 k l s d e ((conn_iff hv k l).1 (Or.inl hkl)).1 hd he

/-- C134. With hard cameras, if no two shots get the same name, the cost of an alignment is zero exactly if the centre of
every shot of every reconstruction is in the world at the position of its metadata, every image of two reconstructions has
the same pose in the world in both, and, with points, the points that match are the same in the world. -/
theorem C134_hard {T : Type} (resect : Key Name → Key Name → Bool × ℝ × List (T × T)) (coord : Key Name → T → Vec 3)
    (subs : Subs) (hv : Valid subs) (hc : NoClash subs) (points : Bool) {toVec : Mat 3 → Vec 3} (hl : Log toVec)
    {x : Name → Recon} (hx : ∀ n, 0 < (x n).s) (y : Name → Shot) :
    cost toVec (constraints (problem false points resect coord subs)) x y = 0 ↔
      (∀ k s d, Has subs k s d → forward (x (recName k)) d.gps = centre d.pose) ∧
      (∀ k l s d e, k ≠ l → Has subs k s d → Has subs l s e →
        vecToMat d.pose.r * vecToMat (x (recName k)).r = vecToMat e.pose.r * vecToMat (x (recName l)).r ∧
        ∃ z, forward (x (recName k)) z = centre d.pose ∧ forward (x (recName l)) z = centre e.pose) ∧
      (points = true → PointsMeet resect coord subs x) := by
  obtain ⟨w1, w2⟩ := with_points resect coord subs points (addHard subs) x y
  obtain ⟨s1, s2⟩ := hard_spec subs hv hc x y
  have e : problem false points resect coord subs = if points then addPoints resect coord subs (addHard subs) else addHard subs := by
    unfold problem; simp
  rw [e, (C133_cost hl _ (w1 s1) hx).2, w2, s2, and_assoc]

/-- C134. If a later shot of another reconstruction gets the same name, the position of the first shot is held against the
pose of the later one. -/
theorem C134_clash (a b : Key Name) (s t : Name) (d e : ShotData) (hn : hardShotName a s = hardShotName b t)
    (pre mid post : Subs) (sa sb : Dict Name ShotData) (hs : (s, d) ∈ sa) (before after : Dict Name ShotData)
    (hb : sb = before ++ (t, e) :: after) (hlast : ∀ q ∈ after, hardShotName b q.1 ≠ hardShotName b t)
    (hpost : ∀ l other, (l, other) ∈ post → ∀ q ∈ other, hardShotName l q.1 ≠ hardShotName b t) :
    Constraint.relativeAbsolute d.gps e.pose d.sd (recName a) ∈
      constraints (addHard (pre ++ (a, sa) :: mid ++ (b, sb) :: post)) := by
  set subs : Subs := pre ++ (a, sa) :: mid ++ (b, sb) :: post with hsub
  have hfl : flat subs = (flat (pre ++ (a, sa) :: mid) ++ before.map (fun q => (b, q))) ++
      (b, t, e) :: (after.map (fun q => (b, q)) ++ flat post) := by
    rw [hsub, hb]
    simp [flat, List.flatMap_append]
  have hpose : poseOf (addHard subs).shots (hardShotName a s) = e.pose := by
    unfold poseOf
    rw [addHard_shots, hfl, hn, fold_last (fun p : Key Name × Name × ShotData => hardShotName p.1 p.2.1)
      (fun p => (p.2.2.pose, true)) _ _ (b, t, e) []]
    · rfl
    · intro q hq
      rcases List.mem_append.1 hq with hq | hq
      · obtain ⟨r, hr, rfl⟩ := List.mem_map.1 hq
        exact hlast r hr
      · obtain ⟨l, n, v⟩ := q
        obtain ⟨other, h1, h2⟩ := (mem_flat post l n v).1 hq
        exact hpost l other h1 (n, v) h2
  unfold constraints
  rw [List.mem_map]
  refine ⟨.relAbs (recName a) (hardShotName a s) d.gps d.sd, ?_, by simp only [resolve, hpose]⟩
  have e0 := (hard_fold subs empty).2
  unfold addHard addItems
  simp only [e0]
  rw [List.mem_append]
  left
  rw [List.mem_append]
  right
  refine List.mem_map.2 ⟨(a, s, d), (mem_flat _ _ _ _).2 ⟨sa, by rw [hsub]; simp, hs⟩, rfl⟩

theorem flat_nodup {subs : Subs} (hv : Valid subs) : ((flat subs).map (fun p => (p.1, p.2.1))).Nodup := by
  obtain ⟨h1, h2⟩ := hv
  induction subs with
  | nil => simp [flat]
  | cons e rest ih =>
    have e0 : flat (e :: rest) = e.2.map (fun q => (e.1, q)) ++ flat rest := by unfold flat; rw [List.flatMap_cons]
    rw [e0, List.map_append, List.nodup_append]
    refine ⟨?_, ih (List.nodup_cons.1 h1).2 (fun k sh h => h2 k sh (List.mem_cons_of_mem _ h)), ?_⟩
    · have := (h2 e.1 e.2 List.mem_cons_self).1
      have e1 : (e.2.map (fun q => (e.1, q))).map (fun p => (p.1, p.2.1)) = (Dict.keys e.2).map (fun s => (e.1, s)) := by
        simp [Dict.keys]
      rw [e1]
      exact List.Nodup.map (fun a b hab => (Prod.mk.inj hab).2) this
    · intro a ha b hb hab
      subst hab
      obtain ⟨p, hp, rfl⟩ := List.mem_map.1 ha
      obtain ⟨q, hq, rfl⟩ := List.mem_map.1 hp
      obtain ⟨r, hr, h3⟩ := List.mem_map.1 hb
      obtain ⟨l, t, d⟩ := r
      obtain ⟨sh, h4, h5⟩ := (mem_flat rest l t d).1 hr
      have : l = e.1 := (Prod.mk.inj h3).1
      subst this
      exact (List.nodup_cons.1 h1).1 (List.mem_map.2 ⟨_, h4, rfl⟩)

/-- C134. With hard cameras no constraint is given twice: one for the position of each shot of each reconstruction, and one
for each image of two reconstructions, not both ways round. -/
theorem C134_once (subs : Subs) (hv : Valid subs) :
    (addHard subs).items.Nodup ∧
    ∀ ra sa rb sb sc sr, .camera ra sa rb sb sc sr ∈ (addHard subs).items →
      ∀ sc' sr', .camera rb sb ra sa sc' sr' ∉ (addHard subs).items := by
  have hname : ∀ k : Key Name, ∀ s t, hardShotName k s = hardShotName k t → s = t := by
    intro k s t h
    unfold hardShotName at h
    exact List.append_cancel_left h
  constructor
  · have e0 : (addHard subs).items = ((flat subs).map (fun p =>
        Item.relAbs (recName p.1) (hardShotName p.1 p.2.1) p.2.2.gps p.2.2.sd)) ++
        (connected (shotNames subs)).flatMap (pairCameras subs) := by
      have := (hard_fold subs empty).2
      unfold addHard addItems
      simp only [this]
      rfl
    rw [e0, List.nodup_append]
    refine ⟨?_, ?_, ?_⟩
    · have hf := flat_nodup hv
      rw [List.Nodup, List.pairwise_map] at hf ⊢
      refine hf.imp ?_
      intro p q hne h
      injection h with h1 h2 h3 h4
      have hk := C70_names _ _ h1
      rw [hk] at h2
      exact hne (by rw [hk, hname _ _ _ h2])
    · rw [List.nodup_flatMap]
      constructor
      · rintro ⟨k, l⟩ hkl
        unfold pairCameras
        obtain ⟨s, d, e, h1, -⟩ := ((conn_iff hv k l).1 (Or.inl hkl)).2
        obtain ⟨sh, h3, -⟩ := h1
        refine List.Nodup.map ?_ ?_
        · intro s t h
          injection h with _ h2
          exact hname _ _ _ h2
        · unfold commonImages
          rw [Dict.get?_of_mem hv.1 h3]
          exact List.Nodup.filter _ (hv.2 k sh h3).1
      · refine (connected_nodup (shotNames subs) (shotNames_wf hv.1)).imp ?_
        intro p q hne
        rw [Function.onFun, List.disjoint_left]
        intro it h1 h2
        obtain ⟨s, -, rfl⟩ := List.mem_map.1 h1
        obtain ⟨t, -, h⟩ := List.mem_map.1 h2
        injection h with h3 _ h4
        exact hne (Prod.ext (C70_names _ _ h3).symm (C70_names _ _ h4).symm)
    · intro a ha b hb hab
      subst hab
      obtain ⟨p, -, rfl⟩ := List.mem_map.1 ha
      obtain ⟨c, -, h⟩ := List.mem_flatMap.1 hb
      obtain ⟨s, -, h⟩ := List.mem_map.1 h
      simp at h
  · intro ra sa rb sb sc sr h1 sc' sr' h2
    rcases (hard_items hv _).1 h1 with ⟨k, s, d, -, h⟩ | ⟨k, l, hkl, s, d, e, -, -, h⟩
    · simp at h
    rcases (hard_items hv _).1 h2 with ⟨k', s', d', -, h'⟩ | ⟨k', l', hkl', s', d', e', -, -, h'⟩
    · simp at h'
    injection h with a1 a2 a3
    injection h' with b1 b2 b3
    have e1 : k' = l := C70_names _ _ (b1.symm.trans a3)
    have e2 : l' = k := C70_names _ _ (b3.symm.trans a1)
    subst e1 e2
    exact connected_asymm (shotNames subs) (shotNames_wf hv.1) _ hkl hkl'

/-! ### Examples -/

/-- Two reconstructions of a submodel with two images. -/
def exSubs : Subs :=
  [(("m".toList, 0), [("a".toList, ⟨exShot 5, ![5, 0, 0], 1⟩), ("b".toList, ⟨exShot 7, ![7, 0, 0], 1⟩)]),
   (("m".toList, 1), [("a".toList, ⟨exShot 11, ![5, 0, 0], 1⟩), ("b".toList, ⟨exShot 15, ![7, 0, 0], 1⟩)])]

/-- Their places in the world: the second is twice as large and moved. -/
noncomputable def exX (n : Name) : Recon := if n = "m_index1".toList then exRecs 1 else exRecs 0

theorem exX0 : exX (recName ("m".toList, 0)) = exRecs 0 := if_neg (by decide +kernel)
theorem exX1 : exX (recName ("m".toList, 1)) = exRecs 1 := if_pos (by decide +kernel)

theorem exHas {k : Key Name} {s : Name} {d : ShotData} (h : Has exSubs k s d) :
    (k = ("m".toList, 0) ∧ s = "a".toList ∧ d = ⟨exShot 5, ![5, 0, 0], 1⟩) ∨
    (k = ("m".toList, 0) ∧ s = "b".toList ∧ d = ⟨exShot 7, ![7, 0, 0], 1⟩) ∨
    (k = ("m".toList, 1) ∧ s = "a".toList ∧ d = ⟨exShot 11, ![5, 0, 0], 1⟩) ∨
    (k = ("m".toList, 1) ∧ s = "b".toList ∧ d = ⟨exShot 15, ![7, 0, 0], 1⟩) := by
  obtain ⟨sh, h1, h2⟩ := h
  simp only [exSubs, List.mem_cons, List.not_mem_nil, or_false, Prod.mk.injEq] at h1
  rcases h1 with ⟨rfl, rfl⟩ | ⟨rfl, rfl⟩ <;>
    simp only [List.mem_cons, List.not_mem_nil, or_false, Prod.mk.injEq] at h2 <;>
    rcases h2 with ⟨rfl, rfl⟩ | ⟨rfl, rfl⟩ <;> simp

theorem exValid : Valid exSubs := by
  refine ⟨by unfold Dict.Wf exSubs Dict.keys; decide +kernel, ?_⟩
  intro k sh h
  simp only [exSubs, List.mem_cons, List.not_mem_nil, or_false, Prod.mk.injEq] at h
  rcases h with ⟨rfl, rfl⟩ | ⟨rfl, rfl⟩ <;>
    refine ⟨?_, ?_⟩
  · show (["a".toList, "b".toList] : List Name).Nodup; decide +kernel
  · intro s d h
    simp only [List.mem_cons, List.not_mem_nil, or_false, Prod.mk.injEq] at h
    rcases h with ⟨rfl, rfl⟩ | ⟨rfl, rfl⟩ <;> exact one_ne_zero
  · show (["a".toList, "b".toList] : List Name).Nodup; decide +kernel
  · intro s d h
    simp only [List.mem_cons, List.not_mem_nil, or_false, Prod.mk.injEq] at h
    rcases h with ⟨rfl, rfl⟩ | ⟨rfl, rfl⟩ <;> exact one_ne_zero

theorem exNoClash : NoClash exSubs := by
  intro k s d l t e h1 h2 hn
  rcases exHas h1 with ⟨rfl, rfl, -⟩ | ⟨rfl, rfl, -⟩ | ⟨rfl, rfl, -⟩ | ⟨rfl, rfl, -⟩ <;>
    rcases exHas h2 with ⟨rfl, rfl, -⟩ | ⟨rfl, rfl, -⟩ | ⟨rfl, rfl, -⟩ | ⟨rfl, rfl, -⟩ <;>
    first | exact ⟨rfl, rfl⟩ | exact absurd hn (by decide +kernel)

theorem ex_pos (n : Name) : 0 < (exX n).s := by
  unfold exX exRecs; split <;> norm_num

theorem ex_r (n : Name) : (exX n).r = 0 := by unfold exX exRecs; split <;> simp

theorem ex_f {k : Key Name} {s : Name} {d : ShotData} (h : Has exSubs k s d) :
    forward (exX (recName k)) d.gps = centre d.pose ∧ d.pose.r = 0 ∧
    d.gps = (if s = "a".toList then ![5, 0, 0] else ![7, 0, 0]) := by
  have e11 : (2 : ℝ) • ![(5 : ℝ), 0, 0] + ![1, 0, 0] = ![11, 0, 0] := by
    funext k; fin_cases k <;> norm_num
  have e15 : (2 : ℝ) • ![(7 : ℝ), 0, 0] + ![1, 0, 0] = ![15, 0, 0] := by
    funext k; fin_cases k <;> norm_num
  rcases exHas h with ⟨rfl, rfl, rfl⟩ | ⟨rfl, rfl, rfl⟩ | ⟨rfl, rfl, rfl⟩ | ⟨rfl, rfl, rfl⟩ <;>
    refine ⟨?_, rfl, ?_⟩
  · rw [exX0, (ex_forward _).1, exShot_centre]
  · rw [if_pos rfl]
  · rw [exX0, (ex_forward _).1, exShot_centre]
  · rw [if_neg (by decide +kernel)]
  · rw [exX1, (ex_forward _).2, exShot_centre, e11]
  · rw [if_pos rfl]
  · rw [exX1, (ex_forward _).2, exShot_centre, e15]
  · rw [if_neg (by decide +kernel)]

/-- Twenty points that match, all at the same place. -/
noncomputable def exResect (_ _ : Key Name) : Bool × ℝ × List (Unit × Unit) := (true, 1, List.replicate 20 ((), ()))

/-- The hypotheses of `C134_soft` and `C134_hard` are met, and the costs are zero, with points. -/
example : ∃ toVec, Log toVec ∧
    cost toVec (constraints (problem true true exResect (fun k _ => forward (exX (recName k)) ![1, 0, 0]) exSubs)) exX
      (fun n => if n = "a".toList then exShot 5 else exShot 7) = 0 ∧
    cost toVec (constraints (problem false true exResect (fun k _ => forward (exX (recName k)) ![1, 0, 0]) exSubs)) exX
      (fun _ => exShot 0) = 0 := by
  obtain ⟨toVec, h⟩ := log_exists
  have hp : PointsMeet exResect (fun k _ => forward (exX (recName k)) ![1, 0, 0]) exSubs exX :=
    fun k l _ _ _ _ _ _ _ _ _ _ => ⟨_, rfl, rfl⟩
  have hc : ∀ s : Name, centre (if s = "a".toList then exShot 5 else exShot 7) =
      (if s = "a".toList then ![5, 0, 0] else ![7, 0, 0]) := by
    intro s; split <;> exact exShot_centre _
  have hr : ∀ s : Name, (if s = "a".toList then exShot 5 else exShot 7).r = 0 := by
    intro s; split <;> rfl
  refine ⟨toVec, h, (C134_soft _ _ exSubs exValid true h ex_pos _).2 ⟨?_, ?_, fun _ => hp⟩,
    (C134_hard _ _ exSubs exValid exNoClash true h ex_pos _).2 ⟨fun k s d hd => (ex_f hd).1, ?_, fun _ => hp⟩⟩
  · intro k s d hd
    obtain ⟨h1, h2, h3⟩ := ex_f hd
    refine ⟨?_, ?_⟩
    · rw [hr, h2, ex_r]; simp [vecToMat_zero]
    · rw [hc, ← h3, h1]
  · rintro s d ⟨pre, k, shots, post, hsub, hd, -⟩
    have hd' : Has exSubs k s d := ⟨shots, by rw [hsub]; simp, hd⟩
    rw [hc, (ex_f hd').2.2]
  · intro k l s d e _ hd he
    obtain ⟨h1, h2, h3⟩ := ex_f hd
    obtain ⟨g1, g2, g3⟩ := ex_f he
    refine ⟨by rw [h2, g2, ex_r, ex_r], d.gps, h1, ?_⟩
    rw [h3, ← g3, g1]

/-- The two reconstructions of the example are connected, so their points are asked to match. -/
example : (("m".toList, 0), ("m".toList, 1)) ∈ connected (shotNames exSubs) ∨
    (("m".toList, 1), ("m".toList, 0)) ∈ connected (shotNames exSubs) :=
  (conn_iff exValid _ _).2 ⟨by decide +kernel, "a".toList, _, _, ⟨_, List.mem_cons_self, List.mem_cons_self⟩,
    ⟨_, List.mem_cons_of_mem _ List.mem_cons_self, List.mem_cons_self⟩⟩

/-- The hypotheses of `C134_clash` are met: reconstructions 1 and 10 with the images `0.jpg` and `.jpg`. -/
example (d e : ShotData) : Constraint.relativeAbsolute d.gps e.pose d.sd "m_index1".toList ∈
    constraints (addHard [(("m".toList, 1), [("0.jpg".toList, d)]), (("m".toList, 10), [(".jpg".toList, e)])]) :=
  C134_clash ("m".toList, 1) ("m".toList, 10) "0.jpg".toList ".jpg".toList d e (by decide +kernel) [] [] []
    [("0.jpg".toList, d)] [(".jpg".toList, e)] (by simp) [] [] rfl (by simp) (by simp)

end Verif.AlignSetup
