import Verif.Model.DenseNeighbors
import Verif.Props.Tracking
import Verif.Props.PatchMatch
import Mathlib.Geometry.Euclidean.Angle.Unoriented.Affine
import Mathlib.Analysis.InnerProductSpace.PiL2

/-!
# C83: neighbors and depth range in dense reconstruction
-/
set_option linter.unusedSectionVars false
set_option linter.unusedSimpArgs false
namespace Verif.DenseNeighbors
open Verif.Depthmap Matrix TM
variable {S T O : Type} [DecidableEq S] [DecidableEq T]

/-! ### Specification -/

/-- A point of space. -/
def pt (v : V3) : EuclideanSpace ℝ (Fin 3) := WithLp.toLp 2 v

/-- The track `t` is seen in the shots at `ca` and `cb` under an angle between 3 and 30 degrees. -/
def WellSeen (r : Rec S T) (ca cb : V3) (t : T) : Prop :=
  ∃ p, r.points.get? t = some p ∧ Real.pi / 60 < EuclideanGeometry.angle (pt ca) (pt p) (pt cb) ∧
    EuclideanGeometry.angle (pt ca) (pt p) (pt cb) < Real.pi / 6

open Classical in
/-- The number of tracks with a point that both shots see, under such an angle. -/
noncomputable def goodPoints (ops : List (TM.Op S T O)) (r : Rec S T) (a b : S) (ca cb : V3) : ℕ :=
  (addedTracks ops).dedup.countP (fun t => decide ((lastWrite ops.reverse a t).isSome ∧
    (lastWrite ops.reverse b t).isSome ∧ WellSeen r ca cb t))

/-- The number of points two shots of the reconstruction see under a good angle. -/
noncomputable def quality (ops : List (TM.Op S T O)) (r : Rec S T) (a b : S) : ℕ :=
  match r.shots.get? a, r.shots.get? b with
  | some pa, some pb => goodPoints ops r a b pa.origin pb.origin
  | _, _ => 0

/-- `b` can be a neighbor of `a`. -/
def Eligible (ops : List (TM.Op S T O)) (r : Rec S T) (a b : S) : Prop :=
  a ≠ b ∧ 50 ≤ sharedTracks ops (addedTracks ops).dedup a b ∧ 20 < quality ops r a b

/-! ### Common tracks -/

theorem map_set {K V W : Type} [DecidableEq K] (f : V → W) (d : Dict K V) (k : K) (v : V) :
    (d.set k v).map (fun e => (e.1, f e.2)) = Dict.set (d.map (fun e => (e.1, f e.2))) k (f v) := by
  induction d with
  | nil => rfl
  | cons e d ih =>
    obtain ⟨a, b⟩ := e
    by_cases h : a = k
    · simp [Dict.set, h]
    · simp only [Dict.set, h, if_false, List.map_cons, ih]

theorem get_map {K V W : Type} [DecidableEq K] (f : V → W) (d : Dict K V) (k : K) :
    Dict.get? (d.map (fun e => (e.1, f e.2))) k = (d.get? k).map f := by
  induction d with
  | nil => rfl
  | cons e d ih =>
    obtain ⟨a, b⟩ := e
    by_cases h : a = k
    · simp [Dict.get?, h]
    · simp only [List.map_cons, Dict.get?, h, if_false, ih]

theorem common_fold (m : TM S T O) (l : List ((S × S) × Nat))
    (acc : Except TMErr (Dict (S × S) (List T × List Unit × List Unit))) :
    (l.foldl (Tracking.allCommonStep (fun _ => ()) m 50) acc).map (fun d => d.map (fun e => (e.1, e.2.1))) =
      l.foldl (commonStep m 50) (acc.map (fun d => d.map (fun e => (e.1, e.2.1)))) := by
  induction l generalizing acc with
  | nil => rfl
  | cons q l ih =>
    rw [List.foldl_cons, List.foldl_cons, ih]
    congr 1
    cases acc with
    | error e => rfl
    | ok d =>
      unfold Tracking.allCommonStep commonStep
      simp only [Except.map]
      split_ifs
      · rfl
      · cases m.getAllCommonObservations q.1.1 q.1.2 with
        | error e => rfl
        | ok l => simp only [map_set]

theorem common_wf (m : TM S T O) (l : List ((S × S) × Nat)) (acc : Except TMErr (Dict (S × S) (List T)))
    (ha : ∀ d, acc = .ok d → d.Wf) : ∀ d, l.foldl (commonStep m 50) acc = .ok d → d.Wf := by
  induction l generalizing acc with
  | nil => exact ha
  | cons q l ih =>
    rw [List.foldl_cons]
    apply ih
    intro d hd
    cases acc with
    | error e => cases hd
    | ok d' =>
      unfold commonStep at hd
      simp only at hd
      split_ifs at hd
      · injection hd with hd; exact hd ▸ ha d' rfl
      · cases hg : m.getAllCommonObservations q.1.1 q.1.2 with
        | error e => rw [hg] at hd; cases hd
        | ok l =>
          rw [hg] at hd
          injection hd with hd
          rw [← hd]
          exact Dict.wf_set (ha d' rfl) _ _

/-- What `ts` is for the shots `a` and `b`. -/
def IsCommon (ops : List (TM.Op S T O)) (a b : S) (ts : List T) : Prop :=
  ts.Nodup ∧ ∀ t, t ∈ ts ↔ (lastWrite ops.reverse a t).isSome ∧ (lastWrite ops.reverse b t).isSome

theorem IsCommon.symm {ops : List (TM.Op S T O)} {a b : S} {ts : List T} (h : IsCommon ops a b ts) :
    IsCommon ops b a ts := ⟨h.1, fun t => by rw [h.2 t, and_comm]⟩

theorem shared_comm (ops : List (TM.Op S T O)) (l : List T) (a b : S) : sharedTracks ops l a b = sharedTracks ops l b a := by
  unfold sharedTracks
  apply List.countP_congr
  intro t _
  simp only [decide_eq_true_eq]
  exact and_comm

theorem seen_added (ops : List (TM.Op S T O)) (a : S) (t : T) (h : (lastWrite ops.reverse a t).isSome) :
    a ∈ addedShots ops ∧ t ∈ addedTracks ops := by
  obtain ⟨o, ho⟩ := Option.isSome_iff_exists.1 h
  constructor
  · by_contra hc
    obtain ⟨d, h1, -⟩ := (C01_shotView ops a t o).2 ho
    rw [((C02_lookup ops a t).2.2.1).2 hc] at h1
    cases h1
  · by_contra hc
    obtain ⟨d, h1, -⟩ := (C01_trackView ops a t o).2 ho
    rw [((C02_lookup ops a t).2.2.2).2 hc] at h1
    cases h1

theorem shared_added (ops : List (TM.Op S T O)) (a b : S) (l : List T) (h : 0 < sharedTracks ops l a b) :
    a ∈ addedShots ops ∧ b ∈ addedShots ops := by
  unfold sharedTracks at h
  rw [List.countP_pos_iff] at h
  obtain ⟨t, -, ht⟩ := h
  simp only [decide_eq_true_eq] at ht
  exact ⟨(seen_added ops a t ht.1).1, (seen_added ops b t ht.2).1⟩

theorem common_spec (lt : S → S → Bool) (ops : List (TM.Op S T O)) :
    ∃ d, commonWithout lt (run ops) = .ok d ∧ d.Wf ∧
      (∀ a b ts, d.get? (a, b) = some ts → lt a b = true ∧ a ∈ addedShots ops ∧ b ∈ addedShots ops ∧
        50 ≤ sharedTracks ops (addedTracks ops).dedup a b ∧ IsCommon ops a b ts) ∧
      ∀ a b, lt a b = true → 50 ≤ sharedTracks ops (addedTracks ops).dedup a b → (d.get? (a, b)).isSome := by
  obtain ⟨d, h1, h2, h3⟩ := Tracking.C13_all_common (fun _ : O => ()) lt ops 50
  have hf : commonWithout lt (run ops) = .ok (d.map (fun e => (e.1, e.2.1))) := by
    have := common_fold (run ops) ((run ops).getAllPairsConnectivity lt [] []) (.ok [])
    unfold Tracking.allCommonTracks at h1
    rw [h1] at this
    exact this.symm
  refine ⟨_, hf, common_wf _ _ _ (fun d' hd' => by injection hd' with hd'; rw [← hd']; exact Dict.wf_nil) _ hf, ?_, ?_⟩
  · intro a b ts hts
    rw [get_map] at hts
    obtain ⟨⟨ts', p1, p2⟩, hd, rfl⟩ := Option.map_eq_some_iff.1 hts
    obtain ⟨a1, a2, a3, -, a5⟩ := (h2 a b).1 (by rw [hd]; rfl)
    obtain ⟨b1, -, -, -, b5, -⟩ := h3 a b _ _ _ hd
    exact ⟨a1, a2, a3, a5, b1, b5⟩
  · intro a b hl hs
    rw [get_map, Option.isSome_map]
    have := shared_added ops a b _ (by omega : 0 < sharedTracks ops (addedTracks ops).dedup a b)
    exact (h2 a b).2 ⟨hl, this.1, this.2, by omega, hs⟩

/-! ### The dictionary of dictionaries -/

/-- `res[a][b]`. -/
def look (res : Dict S (Dict S (List T))) (a b : S) : Option (List T) := ((res.get? a).getD []).get? b

theorem double_fold (ids : List S) (l : List ((S × S) × List T)) (hl : ∀ e ∈ l, e.1.1 ∈ ids ∧ e.1.2 ∈ ids)
    (res0 : Dict S (Dict S (List T))) (h0 : ∀ s ∈ ids, (res0.get? s).isSome) (h00 : ∀ s d, res0.get? s = some d → d = []) :
    ∃ res, l.foldl doubleStep (some res0) = some res ∧ (∀ s ∈ ids, (res.get? s).isSome) ∧
      (∀ s d, res.get? s = some d → Dict.Wf d) ∧
      (∀ a b ts, look res a b = some ts → ∃ e ∈ l, (e.1 = (a, b) ∨ e.1 = (b, a)) ∧ e.2 = ts) ∧
      ∀ a b, (∃ e ∈ l, e.1 = (a, b) ∨ e.1 = (b, a)) → (look res a b).isSome := by
  induction l using List.reverseRecOn with
  | nil =>
    refine ⟨res0, rfl, h0, ?_, ?_, ?_⟩
    · intro s d hd
      rw [h00 s d hd]
      exact Dict.wf_nil
    · intro a b ts h
      unfold look at h
      cases hg : res0.get? a with
      | none => rw [hg] at h; cases h
      | some d => rw [hg, h00 a d hg] at h; cases h
    · rintro a b ⟨e, he, -⟩
      cases he
  | append_singleton l e ih =>
    obtain ⟨res, h1, h2, h3, h4, h5⟩ := ih (fun x hx => hl x (List.mem_append_left _ hx))
    obtain ⟨m1, m2⟩ := hl e (List.mem_append_right _ (List.mem_singleton.2 rfl))
    obtain ⟨⟨x, y⟩, v⟩ := e
    obtain ⟨d1, hd1⟩ := Option.isSome_iff_exists.1 (h2 x m1)
    set res1 := res.set x (d1.set y v) with hres1
    have hsome : (res1.get? y).isSome := by
      rw [hres1, Dict.get?_set]
      split_ifs
      · rfl
      · exact h2 y m2
    obtain ⟨d2, hd2⟩ := Option.isSome_iff_exists.1 hsome
    have hfold : (l ++ [((x, y), v)]).foldl doubleStep (some res0) = some (res1.set y (d2.set x v)) := by
      rw [List.foldl_append, h1, List.foldl_cons, List.foldl_nil]
      unfold doubleStep
      simp only [hd1]
      rw [← hres1, hd2]
    have wf1 : Dict.Wf (d1.set y v) := Dict.wf_set (h3 x d1 hd1) _ _
    have wf2 : Dict.Wf d2 := by
      rw [hres1, Dict.get?_set] at hd2
      split_ifs at hd2 with hxy
      · injection hd2 with hd2; exact hd2 ▸ wf1
      · exact h3 y d2 hd2
    have hlook : ∀ a b, look (res1.set y (d2.set x v)) a b =
        if (x, y) = (a, b) ∨ (x, y) = (b, a) then some v else look res a b := by
      intro a b
      have e1 : ∀ a b, look res1 a b = if x = a ∧ y = b then some v else look res a b := by
        intro a b
        unfold look
        rw [hres1, Dict.get?_set]
        by_cases hxa : x = a
        · subst hxa
          rw [if_pos rfl, hd1, Option.getD_some, Option.getD_some, Dict.get?_set]
          simp
        · rw [if_neg hxa, if_neg (fun h => hxa h.1)]
      have e2 : look (res1.set y (d2.set x v)) a b = if y = a ∧ x = b then some v else look res1 a b := by
        unfold look
        rw [Dict.get?_set]
        by_cases hya : y = a
        · subst hya
          rw [if_pos rfl, hd2, Option.getD_some, Option.getD_some, Dict.get?_set]
          simp
        · rw [if_neg hya, if_neg (fun h => hya h.1)]
      rw [e2, e1]
      simp only [Prod.mk.injEq]
      by_cases c1 : y = a ∧ x = b
      · rw [if_pos c1, if_pos (Or.inr ⟨c1.2, c1.1⟩)]
      · rw [if_neg c1]
        by_cases c2 : x = a ∧ y = b
        · rw [if_pos c2, if_pos (Or.inl c2)]
        · rw [if_neg c2, if_neg]
          rintro (h | h)
          · exact c2 h
          · exact c1 ⟨h.2, h.1⟩
    refine ⟨_, hfold, ?_, ?_, ?_, ?_⟩
    · intro s hs
      rw [Dict.get?_set]
      split_ifs
      · rfl
      · rw [hres1, Dict.get?_set]
        split_ifs
        · rfl
        · exact h2 s hs
    · intro s d hd
      rw [Dict.get?_set] at hd
      split_ifs at hd
      · injection hd with hd; exact hd ▸ Dict.wf_set wf2 _ _
      · rw [hres1, Dict.get?_set] at hd
        split_ifs at hd
        · injection hd with hd; exact hd ▸ wf1
        · exact h3 s d hd
    · intro a b ts h
      rw [hlook] at h
      by_cases hc : (x, y) = (a, b) ∨ (x, y) = (b, a)
      · rw [if_pos hc] at h
        injection h with h
        exact ⟨((x, y), v), List.mem_append_right _ (List.mem_singleton.2 rfl), hc, h⟩
      · rw [if_neg hc] at h
        obtain ⟨e, he, hr⟩ := h4 a b ts h
        exact ⟨e, List.mem_append_left _ he, hr⟩
    · rintro a b ⟨e, he, hr⟩
      rw [hlook]
      by_cases hc : (x, y) = (a, b) ∨ (x, y) = (b, a)
      · rw [if_pos hc]; rfl
      · rw [if_neg hc]
        rcases List.mem_append.1 he with h | h
        · exact h5 a b ⟨e, h, hr⟩
        · rw [List.mem_singleton.1 h] at hr
          exact absurd hr hc

theorem get_ids (ids : List S) (s : S) : Dict.get? (ids.map (fun s => (s, ([] : Dict S (List T))))) s =
    if s ∈ ids then some [] else none := by
  induction ids with
  | nil => rfl
  | cons x ids ih =>
    by_cases h : x = s
    · simp [Dict.get?, h]
    · have : s ≠ x := Ne.symm h
      simp only [List.map_cons, Dict.get?, h, if_false, ih, List.mem_cons, this, false_or]

/-- C83. The table of common tracks never fails to be built. It has an entry for two shots, in either order, exactly if
they are different and see at least 50 tracks in common, and then lists these, each once. -/
theorem C83_common (lt : S → S → Bool) (hirr : ∀ a, lt a a = false) (htot : ∀ a b, a ≠ b → lt a b = true ∨ lt b a = true)
    (ops : List (TM.Op S T O)) :
    ∃ res, doubleDict lt (run ops) = some res ∧ (∀ s d, res.get? s = some d → Dict.Wf d) ∧ ∀ a b,
      ((∃ ts, ((res.get? a).getD []).get? b = some ts) ↔ a ≠ b ∧ 50 ≤ sharedTracks ops (addedTracks ops).dedup a b) ∧
      ∀ ts, ((res.get? a).getD []).get? b = some ts → ts.Nodup ∧
        ∀ t, t ∈ ts ↔ (lastWrite ops.reverse a t).isSome ∧ (lastWrite ops.reverse b t).isSome := by
  obtain ⟨d, h1, hw, h2, h3⟩ := common_spec lt ops
  have hids : ∀ s, s ∈ (run ops).getShotIds ↔ s ∈ addedShots ops := fun s => mem_shotIds ops s
  obtain ⟨res, r1, -, r3, r4, r5⟩ := double_fold ((run ops).getShotIds) d (by
    rintro ⟨⟨a, b⟩, ts⟩ he
    have := h2 a b ts (Dict.get?_of_mem hw he)
    rw [hids, hids]
    exact ⟨this.2.1, this.2.2.1⟩) ((run ops).getShotIds.map (fun s => (s, []))) (by
    intro s hs
    rw [get_ids, if_pos hs]; rfl) (by
    intro s d' hd
    rw [get_ids] at hd
    split_ifs at hd
    injection hd with hd
    exact hd.symm)
  have key : ∀ a b ts, look res a b = some ts → a ≠ b ∧ 50 ≤ sharedTracks ops (addedTracks ops).dedup a b ∧
      IsCommon ops a b ts := by
    intro a b ts hts
    obtain ⟨⟨⟨x, y⟩, v⟩, he, hr, hv⟩ := r4 a b ts hts
    have hd := h2 x y v (Dict.get?_of_mem hw he)
    have hne : x ≠ y := by
      intro h
      rw [h, hirr] at hd
      cases hd.1
    simp only at hv
    subst hv
    rcases hr with hr | hr
    · simp only [Prod.mk.injEq] at hr
      obtain ⟨rfl, rfl⟩ := hr
      exact ⟨hne, hd.2.2.2.1, hd.2.2.2.2⟩
    · simp only [Prod.mk.injEq] at hr
      obtain ⟨rfl, rfl⟩ := hr
      exact ⟨hne.symm, by rw [shared_comm]; exact hd.2.2.2.1, hd.2.2.2.2.symm⟩
  refine ⟨res, ?_, r3, ?_⟩
  · unfold doubleDict
    rw [h1]
    exact r1
  · intro a b
    refine ⟨⟨?_, ?_⟩, ?_⟩
    · rintro ⟨ts, hts⟩
      have := key a b ts hts
      exact ⟨this.1, this.2.1⟩
    · rintro ⟨hne, hs⟩
      apply Option.isSome_iff_exists.1
      apply r5 a b
      rcases htot a b hne with h | h
      · obtain ⟨ts, hts⟩ := Option.isSome_iff_exists.1 (h3 a b h hs)
        exact ⟨((a, b), ts), Dict.mem_of_get? hts, Or.inl rfl⟩
      · obtain ⟨ts, hts⟩ := Option.isSome_iff_exists.1 (h3 b a h (by rw [shared_comm]; exact hs))
        exact ⟨((b, a), ts), Dict.mem_of_get? hts, Or.inr rfl⟩
    · intro ts hts
      exact (key a b ts hts).2.2

/-! ### Angles and scores -/

/-- C83. The angle computed from coordinates is the angle at the point between the directions to both centres. -/
theorem C83_angle (o a b : V3) : angleBetween o a b = EuclideanGeometry.angle (pt a) (pt o) (pt b) := by
  unfold angleBetween EuclideanGeometry.angle InnerProductGeometry.angle
  have h1 : ∀ x y : V3, inner ℝ (pt x) (pt y) = x 0 * y 0 + x 1 * y 1 + x 2 * y 2 := by
    intro x y
    unfold pt
    rw [EuclideanSpace.inner_toLp_toLp, dotProduct, Fin.sum_univ_three]
    simp [mul_comm]
  have h2 : ∀ x y : V3, pt x -ᵥ pt y = pt (x - y) := fun x y => rfl
  have h3 : ∀ x : V3, ‖pt x‖ = Real.sqrt (x 0 * x 0 + x 1 * x 1 + x 2 * x 2) := by
    intro x
    rw [← h1 x x, real_inner_self_eq_norm_sq, Real.sqrt_sq (norm_nonneg _)]
  rw [h2, h2, h1, h3, h3, ← Real.sqrt_mul (add_nonneg (add_nonneg (mul_self_nonneg _) (mul_self_nonneg _))
    (mul_self_nonneg _))]
  rfl

open Classical in
theorem score_eq (r : Rec S T) (c1 c2 : V3) (ts : List T) (n : ℕ) :
    ts.foldl (scoreStep r.points c1 c2) n = n + ts.countP (fun t => decide (WellSeen r c1 c2 t)) := by
  induction ts generalizing n with
  | nil => rfl
  | cons t ts ih =>
    have hstep : scoreStep r.points c1 c2 n t = n + if WellSeen r c1 c2 t then 1 else 0 := by
      unfold scoreStep
      cases hg : r.points.get? t with
      | none =>
        have : ¬WellSeen r c1 c2 t := by
          rintro ⟨p, hp, -⟩
          rw [hg] at hp; cases hp
        rw [if_neg this]; rfl
      | some p =>
        have : WellSeen r c1 c2 t ↔ (angleBetween p c1 c2 > Real.pi / 60 ∧ angleBetween p c1 c2 < Real.pi / 6) := by
          rw [C83_angle]
          constructor
          · rintro ⟨p', hp', h⟩
            rw [hg] at hp'
            injection hp' with hp'
            exact hp' ▸ h
          · intro h
            exact ⟨p, hg, h⟩
        simp only [this]
        split_ifs <;> rfl
    rw [List.foldl_cons, ih, hstep, List.countP_cons]
    by_cases hw : WellSeen r c1 c2 t
    · simp [hw]; omega
    · simp [hw]

open Classical in
theorem count_common (ops : List (TM.Op S T O)) (r : Rec S T) (a b : S) (c1 c2 : V3) (ts : List T)
    (h : IsCommon ops a b ts) : ts.countP (fun t => decide (WellSeen r c1 c2 t)) = goodPoints ops r a b c1 c2 := by
  unfold goodPoints
  have hperm : ts.Perm ((addedTracks ops).dedup.filter (fun t => decide ((lastWrite ops.reverse a t).isSome ∧
      (lastWrite ops.reverse b t).isSome))) := by
    rw [List.perm_ext_iff_of_nodup h.1 ((List.nodup_dedup _).filter _)]
    intro t
    rw [h.2, List.mem_filter, List.mem_dedup, decide_eq_true_eq]
    exact ⟨fun hs => ⟨(seen_added ops a t hs.1).2, hs⟩, fun hs => hs.2⟩
  rw [hperm.countP_eq, List.countP_filter]
  apply List.countP_congr
  intro t _
  simp only [Bool.and_eq_true, decide_eq_true_eq]
  tauto

theorem angle_comm' (o a b : V3) : EuclideanGeometry.angle (pt a) (pt o) (pt b) =
    EuclideanGeometry.angle (pt b) (pt o) (pt a) := EuclideanGeometry.angle_comm _ _ _

/-- C83. Being eligible is symmetric, and so is the number of points by which neighbors are ranked. -/
theorem C83_symmetric (ops : List (TM.Op S T O)) (r : Rec S T) (a b : S) :
    quality ops r a b = quality ops r b a ∧ (Eligible ops r a b ↔ Eligible ops r b a) := by
  have hg : ∀ ca cb, goodPoints ops r a b ca cb = goodPoints ops r b a cb ca := by
    intro ca cb
    unfold goodPoints WellSeen
    apply List.countP_congr
    intro t _
    simp only [decide_eq_true_eq, angle_comm' _ ca cb]
    tauto
  have hq : quality ops r a b = quality ops r b a := by
    unfold quality
    cases r.shots.get? a with
    | none => cases r.shots.get? b <;> rfl
    | some pa =>
      cases r.shots.get? b with
      | none => rfl
      | some pb => exact hg _ _
  refine ⟨hq, ?_⟩
  unfold Eligible
  rw [hq, shared_comm ops _ a b, ne_comm]

/-! ### Neighbors -/

theorem candidates_mem (ops : List (TM.Op S T O)) (r : Rec S T) (a : S) (pa : Pose) (ha : r.shots.get? a = some pa)
    (l : Dict S (List T)) (hl : ∀ b ts, (b, ts) ∈ l → IsCommon ops a b ts) (acc : List (S × ℕ)) :
    ∃ ns, l.foldl (candidateStep r pa.origin) acc = acc ++ ns ∧ (ns.map Prod.fst).Sublist l.keys ∧
      ∀ b n, (b, n) ∈ ns ↔ b ∈ l.keys ∧ n = quality ops r a b ∧ 20 < quality ops r a b := by
  induction l generalizing acc with
  | nil => exact ⟨[], by simp, List.Sublist.refl _, by simp⟩
  | cons e l ih =>
    obtain ⟨b, ts⟩ := e
    have hc := hl b ts (List.mem_cons_self ..)
    have hstep : candidateStep r pa.origin acc (b, ts) =
        if 20 < quality ops r a b then acc ++ [(b, quality ops r a b)] else acc := by
      unfold candidateStep quality
      rw [ha]
      simp only
      cases hb : r.shots.get? b with
      | none => rfl
      | some pb =>
        simp only
        rw [score_eq, count_common ops r a b _ _ ts hc, Nat.zero_add]
    rw [List.foldl_cons, hstep]
    by_cases hq : 20 < quality ops r a b
    · rw [if_pos hq]
      obtain ⟨ns, h1, h2, h3⟩ := ih (fun b' ts' h => hl b' ts' (List.mem_cons_of_mem _ h)) (acc ++ [(b, quality ops r a b)])
      refine ⟨(b, quality ops r a b) :: ns, by rw [h1]; simp, ?_, ?_⟩
      · rw [List.map_cons, Dict.keys_cons]
        exact h2.cons_cons _
      · intro b' n
        rw [List.mem_cons, h3, Dict.keys_cons, List.mem_cons]
        simp only [Prod.mk.injEq]
        constructor
        · rintro (⟨rfl, rfl⟩ | ⟨h, h'⟩)
          · exact ⟨Or.inl rfl, rfl, hq⟩
          · exact ⟨Or.inr h, h'⟩
        · rintro ⟨rfl | h, h', h''⟩
          · exact Or.inl ⟨rfl, h'⟩
          · exact Or.inr ⟨h, h', h''⟩
    · rw [if_neg hq]
      obtain ⟨ns, h1, h2, h3⟩ := ih (fun b' ts' h => hl b' ts' (List.mem_cons_of_mem _ h)) acc
      refine ⟨ns, h1, ?_, ?_⟩
      · rw [Dict.keys_cons]
        exact h2.cons _
      · intro b' n
        rw [h3, Dict.keys_cons, List.mem_cons]
        constructor
        · rintro ⟨h, h'⟩
          exact ⟨Or.inr h, h'⟩
        · rintro ⟨rfl | h, h', h''⟩
          · exact absurd h'' hq
          · exact ⟨h, h', h''⟩

/-- C83. The neighbors of a shot are the shot itself, first, and then at most `k` different other shots, by decreasing
number of well seen points. All of them are eligible, and if an eligible shot is not among them there are `k` that are at
least as good. -/
theorem C83_neighbors (lt : S → S → Bool) (hirr : ∀ a, lt a a = false)
    (htot : ∀ a b, a ≠ b → lt a b = true ∨ lt b a = true) (ops : List (TM.Op S T O)) (r : Rec S T) (a : S) (pa : Pose)
    (ha : r.shots.get? a = some pa) (k : ℕ) :
    ∃ common ns, doubleDict lt (run ops) = some common ∧ findNeighbors a pa common r k = a :: ns ∧ ns.length ≤ k ∧
      (a :: ns).Nodup ∧ (∀ b ∈ ns, Eligible ops r a b) ∧
      ns.Pairwise (fun b c => quality ops r a c ≤ quality ops r a b) ∧
      ∀ c, Eligible ops r a c → c ∉ ns → ns.length = k ∧ ∀ b ∈ ns, quality ops r a c ≤ quality ops r a b := by
  obtain ⟨common, h1, hwf, h2⟩ := C83_common lt hirr htot ops
  set l := (common.get? a).getD [] with hl
  have lwf : Dict.Wf l := by
    cases hg : common.get? a with
    | none => rw [hl, hg]; exact Dict.wf_nil
    | some d => rw [hl, hg]; exact hwf a d hg
  obtain ⟨cs, c1, c2, c3⟩ := candidates_mem ops r a pa ha l (by
    intro b ts hb
    exact (h2 a b).2 ts (Dict.get?_of_mem lwf hb)) []
  have hkeys : ∀ b, b ∈ l.keys ↔ a ≠ b ∧ 50 ≤ sharedTracks ops (addedTracks ops).dedup a b := by
    intro b
    rw [Dict.mem_keys_iff, Option.isSome_iff_exists]
    exact (h2 a b).1
  have hmem : ∀ b n, (b, n) ∈ cs ↔ Eligible ops r a b ∧ n = quality ops r a b := by
    intro b n
    rw [c3, hkeys]
    unfold Eligible
    tauto
  have csn : (cs.map Prod.fst).Nodup := c2.nodup lwf
  set srt := cs.mergeSort (fun a b => decide (b.2 ≤ a.2)) with hsrt
  have hperm : srt.Perm cs := List.mergeSort_perm _ _
  have hsort : srt.Pairwise (fun x y => y.2 ≤ x.2) :=
    (List.pairwise_mergeSort (le := fun x y : S × ℕ => decide (y.2 ≤ x.2))
      (fun x y z p q => decide_eq_true (le_trans (of_decide_eq_true q) (of_decide_eq_true p)))
      (fun x y => by
        rcases le_total y.2 x.2 with h | h
        · simp [h]
        · simp [h]) cs).imp (fun h => of_decide_eq_true h)
  have smem : ∀ b n, (b, n) ∈ srt ↔ Eligible ops r a b ∧ n = quality ops r a b := by
    intro b n
    rw [hperm.mem_iff, hmem]
  have tmem : ∀ b, b ∈ (srt.take k).map Prod.fst → Eligible ops r a b := by
    intro b hb
    obtain ⟨⟨b', n⟩, hx, rfl⟩ := List.mem_map.1 hb
    exact ((smem b' n).1 (List.mem_of_mem_take hx)).1
  refine ⟨common, (srt.take k).map Prod.fst, h1, ?_, ?_, ?_, tmem, ?_, ?_⟩
  · unfold findNeighbors
    simp only
    rw [← hl, c1, List.nil_append]
  · rw [List.length_map, List.length_take]
    exact Nat.min_le_left _ _
  · rw [List.nodup_cons]
    refine ⟨fun h => (tmem a h).1 rfl, ?_⟩
    have : (srt.map Prod.fst).Nodup := ((hperm.map Prod.fst).nodup_iff).2 csn
    exact ((List.take_sublist k srt).map Prod.fst).nodup this
  · rw [List.pairwise_map]
    refine List.Pairwise.imp_of_mem ?_ (hsort.sublist (List.take_sublist k srt))
    rintro ⟨b, n⟩ ⟨c, m⟩ hb hc h
    rw [← ((smem b n).1 (List.mem_of_mem_take hb)).2, ← ((smem c m).1 (List.mem_of_mem_take hc)).2]
    exact h
  · intro c hc hcn
    have hcs : (c, quality ops r a c) ∈ srt := (smem _ _).2 ⟨hc, rfl⟩
    have hdrop : (c, quality ops r a c) ∈ srt.drop k := by
      rw [← List.take_append_drop k srt] at hcs
      rcases List.mem_append.1 hcs with h | h
      · exact absurd (List.mem_map.2 ⟨_, h, rfl⟩) hcn
      · exact h
    constructor
    · rw [List.length_map, List.length_take]
      apply Nat.min_eq_left
      by_contra hlt
      rw [List.drop_eq_nil_of_le (by omega)] at hdrop
      cases hdrop
    · intro b hb
      obtain ⟨⟨b', n⟩, hx, rfl⟩ := List.mem_map.1 hb
      have := hsort
      rw [← List.take_append_drop k srt, List.pairwise_append] at this
      have h := this.2.2 _ hx _ hdrop
      rw [((smem b' n).1 (List.mem_of_mem_take hx)).2] at h
      exact h

/-! ### Depth range -/

theorem depths_eq (points : Dict T V3) (pose : Pose) (ts : List T) (acc : List ℝ) :
    ts.foldl (depthStep points pose) acc = acc ++ ts.filterMap (fun t => (points.get? t).map (fun p => pose.transform p 2)) := by
  induction ts generalizing acc with
  | nil => simp
  | cons t ts ih =>
    rw [List.foldl_cons, ih]
    unfold depthStep
    cases hg : points.get? t with
    | none => simp [hg]
    | some p => simp [hg]

/-- C83. The centre of a shot is the point it maps to the origin; the depths of a shot are, for the tracks it sees that
have a point, the third coordinate of the point seen from the centre. -/
theorem C83_depths (ops : List (TM.Op S T O)) (r : Rec S T) (s : S) (pose : Pose) (hR : pose.R * pose.Rᵀ = 1) :
    pose.transform pose.origin = 0 ∧
    ∀ depths, depthsOf (run ops) r s pose = some depths → ∀ z, z ∈ depths ↔
      ∃ t p, (lastWrite ops.reverse s t).isSome ∧ r.points.get? t = some p ∧ z = (pose.R *ᵥ (p - pose.origin)) 2 := by
  have ht : ∀ x, pose.transform x = pose.R *ᵥ (x - pose.origin) := by
    intro x
    unfold Pose.transform Pose.origin
    rw [sub_neg_eq_add, Matrix.mulVec_add, Matrix.mulVec_mulVec, hR, Matrix.one_mulVec]
  refine ⟨by rw [ht, sub_self, Matrix.mulVec_zero], ?_⟩
  intro depths hd z
  unfold depthsOf at hd
  cases hobs : (run ops).getShotObservations s with
  | error e => rw [hobs] at hd; cases hd
  | ok obs =>
    rw [hobs] at hd
    simp only [Option.some.injEq] at hd
    rw [depths_eq, List.nil_append] at hd
    rw [← hd, List.mem_filterMap]
    have hmemk : ∀ t, t ∈ obs.keys ↔ (lastWrite ops.reverse s t).isSome := by
      intro t
      constructor
      · intro ht
        obtain ⟨⟨t', o⟩, hx, rfl⟩ := List.mem_map.1 ht
        rw [(C01_shotView ops s t' o).1 ⟨obs, hobs, hx⟩]; rfl
      · intro ht
        obtain ⟨o, ho⟩ := Option.isSome_iff_exists.1 ht
        obtain ⟨d, hd, hx⟩ := (C01_shotView ops s t o).2 ho
        rw [hobs] at hd
        injection hd with hd
        rw [hd]
        exact List.mem_map.2 ⟨_, hx, rfl⟩
    constructor
    · rintro ⟨t, h1, h2⟩
      obtain ⟨p, hp, hz⟩ := Option.map_eq_some_iff.1 h2
      exact ⟨t, p, (hmemk t).1 h1, hp, by rw [← ht, hz]⟩
    · rintro ⟨t, p, h1, hp, hz⟩
      exact ⟨t, (hmemk t).2 h1, by rw [hp, Option.map_some, hz, ht]⟩

open Classical in
/-- C83. A shot with a neighbor always has a depth range: it sees more than 20 points of the reconstruction, so that the
call, which nothing catches, does not raise. -/
theorem C83_range_exists (ops : List (TM.Op S T O)) (r : Rec S T) (a b : S) (h : Eligible ops r a b) (pose : Pose)
    (cmin cmax : ℝ) :
    ∃ depths range, depthsOf (run ops) r a pose = some depths ∧ 20 < depths.length ∧
      depthRange (run ops) r a pose cmin cmax = some range := by
  have hq := h.2.2
  obtain ⟨ca, cb, hgood⟩ : ∃ ca cb, 20 < goodPoints ops r a b ca cb := by
    unfold quality at hq
    cases ha : r.shots.get? a with
    | none => rw [ha] at hq; simp at hq
    | some pa =>
      cases hb : r.shots.get? b with
      | none => rw [ha, hb] at hq; simp at hq
      | some pb => rw [ha, hb] at hq; exact ⟨_, _, hq⟩
  have hsh := shared_added ops a b (addedTracks ops).dedup (by have := h.2.1; omega)
  have hobs : ∃ obs, (run ops).getShotObservations a = .ok obs := by
    cases hg : (run ops).getShotObservations a with
    | ok obs => exact ⟨obs, rfl⟩
    | error e =>
      exfalso
      unfold getShotObservations at hg
      have hm := (mem_shotIds ops a).2 hsh.1
      unfold getShotIds at hm
      rw [Dict.mem_keys_iff] at hm
      cases hp : (run ops).perShot.get? a with
      | none => rw [hp] at hm; cases hm
      | some d => rw [hp] at hg; cases hg
  obtain ⟨obs, hobs⟩ := hobs
  have hmemk : ∀ t, t ∈ obs.keys ↔ (lastWrite ops.reverse a t).isSome := by
    intro t
    constructor
    · intro ht
      obtain ⟨⟨t', o⟩, hx, rfl⟩ := List.mem_map.1 ht
      rw [(C01_shotView ops a t' o).1 ⟨obs, hobs, hx⟩]; rfl
    · intro ht
      obtain ⟨o, ho⟩ := Option.isSome_iff_exists.1 ht
      obtain ⟨d, hd, hx⟩ := (C01_shotView ops a t o).2 ho
      rw [hobs] at hd
      injection hd with hd
      rw [hd]
      exact List.mem_map.2 ⟨_, hx, rfl⟩
  set depths := obs.keys.filterMap (fun t => (r.points.get? t).map (fun p => pose.transform p 2)) with hdep
  have hd : depthsOf (run ops) r a pose = some depths := by
    unfold depthsOf
    rw [hobs]
    simp only
    rw [depths_eq, List.nil_append]
  have hlen : 20 < depths.length := by
    have e1 : depths.length = obs.keys.countP (fun t => (r.points.get? t).isSome) := by
      rw [hdep]
      generalize obs.keys = l
      induction l with
      | nil => rfl
      | cons t l ih =>
        cases hg : r.points.get? t with
        | none => simp [hg, ih]
        | some p => simp [hg, ih]
    have hsub : ((addedTracks ops).dedup.filter (fun t => decide ((lastWrite ops.reverse a t).isSome ∧
        (lastWrite ops.reverse b t).isSome ∧ WellSeen r ca cb t))).Subperm
        (obs.keys.filter (fun t => (r.points.get? t).isSome)) := by
      apply List.subperm_of_subset ((List.nodup_dedup _).filter _)
      intro t ht
      rw [List.mem_filter, decide_eq_true_eq] at ht
      rw [List.mem_filter, hmemk]
      refine ⟨ht.2.1, ?_⟩
      obtain ⟨p, hp, -⟩ := ht.2.2.2
      rw [hp]; rfl
    have := hsub.length_le
    unfold goodPoints at hgood
    rw [List.countP_eq_length_filter] at hgood e1
    omega
  have hne : depths.length ≠ 0 := by omega
  refine ⟨depths, ?_⟩
  unfold depthRange
  rw [hd]
  simp only
  unfold percentile
  rw [if_neg hne, if_neg hne]
  exact ⟨_, trivial, hlen, rfl⟩

open Classical in
/-- C83. The percentile of `n` numbers: at most `⌈(n - 1) q / 100⌉` of them are smaller, at most
`n - 1 - ⌊(n - 1) q / 100⌋` are larger, and it lies between two of them. -/
theorem C83_percentile (q : ℝ) (h0 : 0 ≤ q) (h1 : q ≤ 100) (l : List ℝ) (hl : l ≠ []) :
    ∃ v, percentile q l = some v ∧ (∃ x ∈ l, x ≤ v) ∧ (∃ x ∈ l, v ≤ x) ∧
      l.countP (fun x => decide (x < v)) ≤ ⌈((l.length : ℝ) - 1) * (q / 100)⌉₊ ∧
      l.countP (fun x => decide (v < x)) + ⌊((l.length : ℝ) - 1) * (q / 100)⌋₊ ≤ l.length - 1 := by
  have hn : 0 < l.length := List.length_pos_iff.2 hl
  have hn1 : (1 : ℝ) ≤ l.length := by exact_mod_cast hn
  set srt := l.mergeSort (fun a b : ℝ => decide (a ≤ b)) with hsrt
  have hperm : srt.Perm l := List.mergeSort_perm l _
  have hs : srt.Pairwise (· ≤ ·) :=
    (List.pairwise_mergeSort (le := fun a b : ℝ => decide (a ≤ b))
      (fun a b c h1 h2 => decide_eq_true (le_trans (of_decide_eq_true h1) (of_decide_eq_true h2)))
      (fun a b => by
        rcases le_total a b with h | h
        · simp [h]
        · simp [h]) l).imp (fun h => of_decide_eq_true h)
  have hlen : srt.length = l.length := hperm.length_eq
  set h := ((l.length : ℝ) - 1) * (q / 100) with hh
  have hpos : 0 ≤ h := mul_nonneg (by linarith) (by positivity)
  have hle : h ≤ (l.length : ℝ) - 1 := by
    calc h ≤ ((l.length : ℝ) - 1) * 1 := mul_le_mul_of_nonneg_left (by linarith) (by linarith)
      _ = _ := mul_one _
  set i := ⌊h⌋₊ with hi
  have hiR : (i : ℝ) ≤ h := Nat.floor_le hpos
  have hiR' : h < i + 1 := Nat.lt_floor_add_one h
  have hil : i ≤ l.length - 1 := by
    have : (i : ℝ) ≤ ((l.length - 1 : ℕ) : ℝ) := by rw [Nat.cast_sub hn]; push_cast; linarith
    exact_mod_cast this
  have hik : i < srt.length := by omega
  have hjk : min (i + 1) (l.length - 1) < srt.length := by omega
  have elo : srt.getD i 0 = srt[i] := by
    rw [List.getD_eq_getElem?_getD, List.getElem?_eq_getElem hik, Option.getD_some]
  have ehi : srt.getD (min (i + 1) (l.length - 1)) 0 = srt[min (i + 1) (l.length - 1)] := by
    rw [List.getD_eq_getElem?_getD, List.getElem?_eq_getElem hjk, Option.getD_some]
  have hmono : ∀ a b (ha : a < srt.length) (hb : b < srt.length), a ≤ b → srt[a] ≤ srt[b] := by
    intro a b ha hb hab
    rcases Nat.lt_or_eq_of_le hab with hx | hx
    · exact (List.pairwise_iff_getElem.1 hs) a b ha hb hx
    · subst hx; exact le_refl _
  set v := srt[i] + (srt[min (i + 1) (l.length - 1)] - srt[i]) * (h - i) with hv
  have hd : 0 ≤ srt[min (i + 1) (l.length - 1)] - srt[i] := sub_nonneg.2 (hmono _ _ _ _ (by omega))
  have hlo : srt[i] ≤ v := by
    rw [hv]
    have := mul_nonneg hd (sub_nonneg.2 hiR)
    linarith
  have hck : ⌈h⌉₊ < srt.length := by
    have : ⌈h⌉₊ ≤ l.length - 1 := by
      rw [Nat.ceil_le, Nat.cast_sub hn]; push_cast; linarith
    omega
  have hhi : v ≤ srt[⌈h⌉₊] := by
    rcases eq_or_lt_of_le hiR with he | hlt
    · have hc : ⌈h⌉₊ = i := by rw [← he, Nat.ceil_natCast]
      have hz : v = srt[i] := by rw [hv, he]; simp
      rw [hz]
      exact hmono _ _ _ _ hc.ge
    · have hc : ⌈h⌉₊ = i + 1 := by
        apply le_antisymm
        · rw [Nat.ceil_le]; push_cast; exact hiR'.le
        · rw [Nat.succ_le_iff, Nat.lt_ceil]; exact hlt
      have hm : min (i + 1) (l.length - 1) = ⌈h⌉₊ := by omega
      have hv1 : v ≤ srt[min (i + 1) (l.length - 1)] := by
        rw [hv]
        have := mul_le_mul_of_nonneg_left (by linarith : h - i ≤ 1) hd
        linarith
      refine le_trans hv1 (hmono _ _ _ _ hm.le)
  refine ⟨v, ?_, ⟨srt[i], hperm.mem_iff.1 (List.getElem_mem _), hlo⟩,
    ⟨srt[⌈h⌉₊], hperm.mem_iff.1 (List.getElem_mem _), hhi⟩, ?_, ?_⟩
  · unfold percentile
    rw [if_neg (by omega)]
    simp only
    rw [← hsrt, ← hh, ← hi, elo, ehi]
  · have hcount := (PatchMatch.sorted_ge srt hs _ hck v).1 hhi
    rw [hperm.countP_eq, hlen] at hcount
    have hsum := List.length_eq_countP_add_countP (fun x => decide (v ≤ x)) (l := l)
    have hcg : l.countP (fun x => decide (x < v)) = l.countP (fun a => decide ¬(decide (v ≤ a)) = true) := by
      apply List.countP_congr
      intro x _
      simp
    omega
  · have hcount := (PatchMatch.sorted_le srt hs _ hik v).1 hlo
    rw [hperm.countP_eq] at hcount
    have hsum := List.length_eq_countP_add_countP (fun x => decide (x ≤ v)) (l := l)
    have hcg : l.countP (fun x => decide (v < x)) = l.countP (fun a => decide ¬(decide (a ≤ v)) = true) := by
      apply List.countP_congr
      intro x _
      simp
    omega

theorem interp_mono (f : ℕ → ℝ) (n : ℕ) (hf : ∀ a b, a ≤ b → b ≤ n → f a ≤ f b) (h1 h2 : ℝ) (h0 : 0 ≤ h1)
    (h12 : h1 ≤ h2) (h2n : h2 ≤ n) :
    f ⌊h1⌋₊ + (f (min (⌊h1⌋₊ + 1) n) - f ⌊h1⌋₊) * (h1 - ⌊h1⌋₊) ≤
      f ⌊h2⌋₊ + (f (min (⌊h2⌋₊ + 1) n) - f ⌊h2⌋₊) * (h2 - ⌊h2⌋₊) := by
  have hfl : ⌊h1⌋₊ ≤ ⌊h2⌋₊ := Nat.floor_mono h12
  have hn2 : ⌊h2⌋₊ ≤ n := by
    have := Nat.floor_le (le_trans h0 h12)
    exact_mod_cast le_trans this h2n
  have b1 := Nat.floor_le h0
  have b2 := Nat.floor_le (le_trans h0 h12)
  have c1 := Nat.lt_floor_add_one h1
  have d2 : 0 ≤ f (min (⌊h2⌋₊ + 1) n) - f ⌊h2⌋₊ := sub_nonneg.2 (hf _ _ (by omega) (by omega))
  rcases Nat.eq_or_lt_of_le hfl with he | hlt
  · rw [he]
    have := mul_le_mul_of_nonneg_left (by linarith : h1 - (⌊h2⌋₊ : ℝ) ≤ h2 - ⌊h2⌋₊) d2
    linarith
  · have d1 : 0 ≤ f (min (⌊h1⌋₊ + 1) n) - f ⌊h1⌋₊ := sub_nonneg.2 (hf _ _ (by omega) (by omega))
    have e1 := mul_le_mul_of_nonneg_left (by linarith : h1 - (⌊h1⌋₊ : ℝ) ≤ 1) d1
    have e2 := mul_nonneg d2 (sub_nonneg.2 b2)
    have e3 : f (min (⌊h1⌋₊ + 1) n) ≤ f ⌊h2⌋₊ := hf _ _ (by omega) hn2
    linarith

/-- C83. A larger percentage gives no smaller percentile. -/
theorem C83_percentile_mono (p q : ℝ) (h0 : 0 ≤ p) (hpq : p ≤ q) (h1 : q ≤ 100) (l : List ℝ) (a b : ℝ)
    (ha : percentile p l = some a) (hb : percentile q l = some b) : a ≤ b := by
  classical
  by_cases hn : l.length = 0
  · unfold percentile at ha
    rw [if_pos hn] at ha
    cases ha
  unfold percentile at ha hb
  rw [if_neg hn] at ha hb
  simp only [Option.some.injEq] at ha hb
  rw [← ha, ← hb]
  set srt := l.mergeSort (fun a b : ℝ => decide (a ≤ b)) with hsrt
  have hs : srt.Pairwise (· ≤ ·) :=
    (List.pairwise_mergeSort (le := fun a b : ℝ => decide (a ≤ b))
      (fun a b c h1 h2 => decide_eq_true (le_trans (of_decide_eq_true h1) (of_decide_eq_true h2)))
      (fun a b => by
        rcases le_total a b with h | h
        · simp [h]
        · simp [h]) l).imp (fun h => of_decide_eq_true h)
  have hlen : srt.length = l.length := List.length_mergeSort _
  have hn1 : (1 : ℝ) ≤ l.length := by exact_mod_cast Nat.pos_of_ne_zero hn
  refine interp_mono (fun i => srt.getD i 0) (l.length - 1) ?_ _ _ (mul_nonneg (by linarith) (by positivity))
    (mul_le_mul_of_nonneg_left (by linarith) (by linarith)) ?_
  · intro x y hxy hy
    have hx' : x < srt.length := by omega
    have hy' : y < srt.length := by omega
    skip
    rw [List.getD_eq_getElem?_getD, List.getElem?_eq_getElem hx', Option.getD_some, List.getD_eq_getElem?_getD,
      List.getElem?_eq_getElem hy', Option.getD_some]
    rcases Nat.lt_or_eq_of_le hxy with hx | hx
    · exact (List.pairwise_iff_getElem.1 hs) x y hx' hy' hx
    · subst hx; exact le_refl _
  · rw [Nat.cast_sub (by omega)]
    push_cast
    calc ((l.length : ℝ) - 1) * (q / 100) ≤ ((l.length : ℝ) - 1) * 1 :=
          mul_le_mul_of_nonneg_left (by linarith) (by linarith)
      _ = _ := mul_one _

open Classical in
/-- C83. Without bounds in the configuration and if all points the shot sees are in front of it, the range is not empty,
begins at a positive depth, and leaves out at most a tenth of the points (rounded up) at each end. -/
theorem C83_range (m : TM S T O) (r : Rec S T) (s : S) (pose : Pose) (depths : List ℝ)
    (hd : depthsOf m r s pose = some depths) (hne : depths ≠ []) (hpos : ∀ z ∈ depths, 0 < z) :
    ∃ mn mx, depthRange m r s pose 0 0 = some (mn, mx) ∧ 0 < mn ∧ mn < mx ∧
      depths.countP (fun z => decide (z < mn)) ≤ ⌈((depths.length : ℝ) - 1) / 10⌉₊ ∧
      depths.countP (fun z => decide (mx < z)) ≤ ⌈((depths.length : ℝ) - 1) / 10⌉₊ := by
  obtain ⟨p10, h10, ⟨x, hx, hx'⟩, -, c10, -⟩ := C83_percentile 10 (by norm_num) (by norm_num) depths hne
  obtain ⟨p90, h90, -, -, -, c90⟩ := C83_percentile 90 (by norm_num) (by norm_num) depths hne
  have hle := C83_percentile_mono 10 90 (by norm_num) (by norm_num) (by norm_num) depths p10 p90 h10 h90
  have hp : 0 < p10 := lt_of_lt_of_le (hpos x hx) hx'
  refine ⟨p10 * (9 / 10), p90 * (11 / 10), ?_, by linarith, by linarith, ?_, ?_⟩
  · unfold depthRange
    rw [hd]
    simp only
    rw [h10, h90]
    simp only [pyOr, if_true]
  · refine le_trans (List.countP_mono_left ?_) (le_trans c10 (le_of_eq ?_))
    · intro z _ hz
      simp only [decide_eq_true_eq] at hz ⊢
      linarith
    · congr 1; ring
  · have hm : depths.countP (fun z => decide (p90 * (11 / 10) < z)) ≤ depths.countP (fun z => decide (p90 < z)) := by
      apply List.countP_mono_left
      intro z _ hz
      simp only [decide_eq_true_eq] at hz ⊢
      linarith
    refine le_trans hm ?_
    have hn : 0 < depths.length := List.length_pos_iff.2 hne
    have hn1 : (1 : ℝ) ≤ depths.length := by exact_mod_cast hn
    have hf := Nat.lt_floor_add_one (((depths.length : ℝ) - 1) * (90 / 100))
    have hc : (depths.countP (fun z => decide (p90 < z)) : ℝ) + ⌊((depths.length : ℝ) - 1) * (90 / 100)⌋₊ ≤
        (depths.length : ℝ) - 1 := by
      have : ((depths.countP (fun z => decide (p90 < z)) + ⌊((depths.length : ℝ) - 1) * (90 / 100)⌋₊ : ℕ) : ℝ) ≤
          ((depths.length - 1 : ℕ) : ℝ) := by exact_mod_cast c90
      rw [Nat.cast_sub hn] at this
      push_cast at this
      exact this
    have hlt : (depths.countP (fun z => decide (p90 < z)) : ℝ) < ⌈((depths.length : ℝ) - 1) / 10⌉₊ + 1 := by
      have := Nat.le_ceil (((depths.length : ℝ) - 1) / 10)
      linarith
    have : depths.countP (fun z => decide (p90 < z)) < ⌈((depths.length : ℝ) - 1) / 10⌉₊ + 1 := by exact_mod_cast hlt
    omega

/-- C83. A bound in the configuration that is not zero is used as it is, the other one is still computed; so a lower
bound that is beyond the computed upper one gives a range whose lower end is above the upper one. -/
theorem C83_config (m : TM S T O) (r : Rec S T) (s : S) (pose : Pose) (mn mx : ℝ)
    (h : depthRange m r s pose 0 0 = some (mn, mx)) (cmin cmax : ℝ) :
    depthRange m r s pose cmin cmax = some (if cmin = 0 then mn else cmin, if cmax = 0 then mx else cmax) ∧
    (mx < cmin → cmin ≠ 0 → depthRange m r s pose cmin 0 = some (cmin, mx)) := by
  unfold depthRange at h ⊢
  cases hd : depthsOf m r s pose with
  | none => rw [hd] at h; cases h
  | some depths =>
    rw [hd] at h
    simp only at h
    cases h10 : percentile 10 depths with
    | none => rw [h10] at h; cases h
    | some p10 =>
      cases h90 : percentile 90 depths with
      | none => rw [h10, h90] at h; cases h
      | some p90 =>
        rw [h10, h90] at h
        simp only [h10, h90]
        simp only [pyOr, if_true, Option.some.injEq, Prod.mk.injEq] at h ⊢
        rw [h.1, h.2]
        refine ⟨⟨rfl, rfl⟩, ?_⟩
        intro _ h0
        exact ⟨if_neg h0, rfl⟩

/-- C83. If all points the shot sees are behind it, the whole range is. -/
theorem C83_behind (m : TM S T O) (r : Rec S T) (s : S) (pose : Pose) (depths : List ℝ)
    (hd : depthsOf m r s pose = some depths) (hne : depths ≠ []) (hneg : ∀ z ∈ depths, z < 0) :
    ∃ mn mx, depthRange m r s pose 0 0 = some (mn, mx) ∧ mn < 0 ∧ mx < 0 := by
  obtain ⟨p10, h10, -, ⟨x, hx, hx'⟩, -⟩ := C83_percentile 10 (by norm_num) (by norm_num) depths hne
  obtain ⟨p90, h90, -, ⟨y, hy, hy'⟩, -⟩ := C83_percentile 90 (by norm_num) (by norm_num) depths hne
  have := hneg x hx
  have := hneg y hy
  refine ⟨p10 * (9 / 10), p90 * (11 / 10), ?_, by linarith, by linarith⟩
  unfold depthRange
  rw [hd]
  simp only
  rw [h10, h90]
  simp only [pyOr, if_true]

/-! ### A case in which the hypotheses hold -/

/-- Two shots that see 60 tracks, all of them at the origin, from directions 15 degrees apart. -/
def exOps : List (TM.Op ℕ ℕ Unit) := (List.range 60).flatMap (fun t => [.add 0 t (), .add 1 t ()])
noncomputable def exRec : Rec ℕ ℕ :=
  ⟨[(0, ⟨1, -![0, 0, 1]⟩), (1, ⟨1, -![Real.sin (Real.pi / 12), 0, Real.cos (Real.pi / 12)]⟩)],
    ((List.range 60).map (fun t => (t, ()))).map (fun e => (e.1, (fun _ : Unit => (0 : V3)) e.2))⟩

theorem ex_origin (v : V3) : (⟨1, -v⟩ : Pose).origin = v := by
  unfold Pose.origin
  simp

theorem ex_angle (θ : ℝ) (h0 : 0 ≤ θ) (h1 : θ ≤ Real.pi) :
    angleBetween 0 ![0, 0, 1] ![Real.sin θ, 0, Real.cos θ] = θ := by
  unfold angleBetween
  have e : ∀ x y : ℝ, (![x, 0, y] : V3) 2 = y ∧ (![x, 0, y] : V3) 1 = 0 ∧ (![x, 0, y] : V3) 0 = x :=
    fun _ _ => ⟨rfl, rfl, rfl⟩
  simp only [(e _ _).1, (e _ _).2.1, (e _ _).2.2, Pi.zero_apply, sub_zero, mul_zero, zero_mul, zero_add, add_zero,
    mul_one, one_mul]
  have : Real.sin θ * Real.sin θ + Real.cos θ * Real.cos θ = 1 := by
    have := Real.sin_sq_add_cos_sq θ
    nlinarith
  rw [this, Real.sqrt_one, div_one, Real.arccos_cos h0 h1]

example : Eligible exOps exRec 0 1 ∧ quality exOps exRec 0 1 = 60 := by
  have hs : sharedTracks exOps (addedTracks exOps).dedup 0 1 = 60 := by decide +kernel
  have hpts : ∀ t ∈ (addedTracks exOps).dedup, exRec.points.get? t = some 0 := by
    intro t ht
    have : (Dict.get? ((List.range 60).map (fun t => (t, ()))) t).isSome := by
      revert t
      decide +kernel
    obtain ⟨u, hu⟩ := Option.isSome_iff_exists.1 this
    show Dict.get? (((List.range 60).map (fun t => (t, ()))).map (fun e => (e.1, (fun _ : Unit => (0 : V3)) e.2))) t = some 0
    rw [get_map (fun _ : Unit => (0 : V3)), hu]
    rfl
  have hw : ∀ t ∈ (addedTracks exOps).dedup,
      WellSeen exRec ![0, 0, 1] ![Real.sin (Real.pi / 12), 0, Real.cos (Real.pi / 12)] t := by
    intro t ht
    refine ⟨0, hpts t ht, ?_⟩
    rw [← C83_angle, ex_angle _ (by positivity) (by linarith [Real.pi_pos])]
    constructor <;> linarith [Real.pi_pos]
  have hq : quality exOps exRec 0 1 = 60 := by
    have e0 : exRec.shots.get? 0 = some ⟨1, -![0, 0, 1]⟩ := rfl
    have e1 : exRec.shots.get? 1 = some ⟨1, -![Real.sin (Real.pi / 12), 0, Real.cos (Real.pi / 12)]⟩ := rfl
    unfold quality
    rw [e0, e1]
    simp only
    rw [ex_origin, ex_origin, ← hs]
    unfold goodPoints sharedTracks
    apply List.countP_congr
    intro t ht
    simp only [decide_eq_true_eq]
    exact ⟨fun h => ⟨h.1, h.2.1⟩, fun h => ⟨h.1, h.2, hw t ht⟩⟩
  exact ⟨⟨by norm_num, by rw [hs]; norm_num, by rw [hq]; norm_num⟩, hq⟩

end Verif.DenseNeighbors
