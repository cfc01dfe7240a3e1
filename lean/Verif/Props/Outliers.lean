import Verif.Model.Outliers
import Verif.Props.SfmMap
import Mathlib.Tactic.Linarith
import Mathlib.Algebra.Order.Ring.Int
import Mathlib.Data.List.Perm.Basic

/-!
# C35: outlier removal is exact
-/
set_option linter.unusedSectionVars false
set_option linter.unusedSimpArgs false
namespace Verif.SMap
variable {Id A X K B P F : Type} [DecidableEq Id] [CommRing F] [LinearOrder F]

/-! ## Specification -/

/-- Shot `s` has a recorded error for point `l` longer than the threshold. -/
def Exceeds (errs : Dict Id (Dict Id (F × F))) (thr : F) (l s : Id) : Prop :=
  ∃ d ex ey, errs.get? l = some d ∧ d.get? s = some (ex, ey) ∧ thr ^ 2 < ex ^ 2 + ey ^ 2

/-- The errors are recorded only for observations (they are erased with the observation,
landmark.cc:14-18). -/
def ErrorsOk (m : SMap Id A X K B P) (errs : Dict Id (Dict Id (F × F))) : Prop :=
  ∀ l d, errs.get? l = some d → d.Wf ∧
    ∀ s, (d.get? s).isSome → (m.landmarkObservation l s).isSome

/-- Everything except landmarks and observations is the same in the two maps. -/
structure SameFrame (m m' : SMap Id A X K B P) : Prop where
  cameras : m'.cameras = m.cameras
  bias : m'.bias = m.bias
  rigCameras : m'.rigCameras = m.rigCameras
  rigInstances : m'.rigInstances = m.rigInstances
  shots : ∀ s, (m'.shots.get? s).map (fun st => (st.camera, st.rigInstance, st.rigCamera)) =
        (m.shots.get? s).map (fun st => (st.camera, st.rigInstance, st.rigCamera))

theorem SameFrame.refl (m : SMap Id A X K B P) : SameFrame m m := ⟨rfl, rfl, rfl, rfl, fun _ => rfl⟩

theorem SameFrame.trans {m1 m2 m3 : SMap Id A X K B P} (h : SameFrame m1 m2)
    (h' : SameFrame m2 m3) : SameFrame m1 m3 :=
  ⟨h'.cameras.trans h.cameras, h'.bias.trans h.bias, h'.rigCameras.trans h.rigCameras,
    h'.rigInstances.trans h.rigInstances, fun s => (h'.shots s).trans (h.shots s)⟩

theorem erase_eq_filter {V : Type} (d : Dict Id V) (k : Id) :
    d.erase k = List.filter (fun q => decide (q.1 ≠ k)) d := by
  induction d with
  | nil => rfl
  | cons p t ih =>
    obtain ⟨a, b⟩ := p
    rw [Dict.erase]
    by_cases h : a = k
    · simp [h, ih]
    · simp [h, ih]

theorem removeObservation_spec {m : SMap Id A X K B P} (h : Inv m) {s l : Id} {lm : LmSt Id X}
    (hl : m.landmarks.get? l = some lm) {f : Int} (hf : lm.obs.get? s = some f) :
    ∃ m', m.removeObservation s l = (m', none) ∧ Inv m' ∧ SameFrame m m' ∧
      (∀ l', m'.landmarks.get? l' = if l = l' then some { lm with obs := lm.obs.erase s }
        else m.landmarks.get? l') ∧
      (∀ s' l', m'.shotObservation s' l' = if s = s' ∧ l = l' then none
        else m.shotObservation s' l') := by
  obtain ⟨st, hs, hfeat⟩ := h.lm_feature hl hf
  have hinv := inv_removeObservation h s l
  have e : m.removeObservation s l = ({ m with
      shots := m.shots.set s (st.drop l f)
      landmarks := m.landmarks.set l { lm with obs := lm.obs.erase s } }, none) := by
    simp only [removeObservation, hs, hl, hf, ShotSt.removeFeature_eq hfeat]
  rw [e] at hinv
  refine ⟨_, e, hinv, ⟨rfl, rfl, rfl, rfl, ?_⟩, ?_, ?_⟩
  · intro s'
    simp only [Dict.get?_set]
    by_cases hss : s = s'
    · subst hss; simp [hs, ShotSt.drop]
    · simp [hss]
  · intro l'; simp only [Dict.get?_set]
  · intro s' l'
    simp only [shotObservation, Dict.get?_set]
    by_cases hss : s = s'
    · subst hss; simp [ShotSt.drop, Dict.get?_erase, hs]
    · simp [hss]

/-- What is left of the observations of `l` after the removal of the pairs in `out`. -/
def without (out : List (Id × Id)) (l : Id) (lm : LmSt Id X) : LmSt Id X :=
  { lm with obs := List.filter (fun q => decide ((l, q.1) ∉ out)) lm.obs }

theorem without_cons (l0 s0 : Id) (out : List (Id × Id)) (l : Id) (lm : LmSt Id X) :
    without ((l0, s0) :: out) l lm =
      without out l (if l0 = l then { lm with obs := lm.obs.erase s0 } else lm) := by
  unfold without
  by_cases h : l0 = l
  · subst h
    simp only [if_true, erase_eq_filter, List.filter_filter]
    congr 1
    apply List.filter_congr
    intro q _
    by_cases h1 : q.1 = s0 <;> by_cases h2 : (l0, q.1) ∈ out <;> simp_all
  · simp only [if_neg h]
    congr 1
    apply List.filter_congr
    intro q _
    have : ¬ l = l0 := fun e => h e.symm
    simp [this]

theorem removeAll_spec (out : List (Id × Id)) (hn : out.Nodup) (m : SMap Id A X K B P) (h : Inv m)
    (hob : ∀ q ∈ out, (m.landmarkObservation q.1 q.2).isSome) :
    ∃ m', removeAll m out = (m', none) ∧ Inv m' ∧ SameFrame m m' ∧
      (∀ l, m'.landmarks.get? l = (m.landmarks.get? l).map (without out l)) ∧
      (∀ s l, m'.shotObservation s l = if (l, s) ∈ out then none else m.shotObservation s l) := by
  induction out generalizing m with
  | nil =>
    refine ⟨m, rfl, h, .refl m, ?_, by simp⟩
    intro l
    cases m.landmarks.get? l <;> simp [without]
  | cons p rest ih =>
    obtain ⟨l0, s0⟩ := p
    have h0 := hob (l0, s0) (by simp)
    simp only [landmarkObservation] at h0
    cases hl : m.landmarks.get? l0 with
    | none => simp [hl] at h0
    | some lm =>
      simp only [hl, Option.bind_some] at h0
      obtain ⟨f, hf⟩ := Option.isSome_iff_exists.1 h0
      obtain ⟨m1, e1, i1, f1, g1, o1⟩ := removeObservation_spec h hl hf
      rw [List.nodup_cons] at hn
      obtain ⟨m2, e2, i2, f2, g2, o2⟩ := ih hn.2 m1 i1 (by
        intro q hq
        have hq0 := hob q (by simp [hq])
        simp only [landmarkObservation, g1] at hq0 ⊢
        by_cases hll : l0 = q.1
        · subst hll
          simp only [hl, if_true, Option.bind_some] at hq0 ⊢
          rw [Dict.get?_erase]
          have : s0 ≠ q.2 := by rintro rfl; exact hn.1 hq
          simp [this, hq0]
        · simp only [hll, if_false]; exact hq0)
      refine ⟨m2, by simp only [removeAll, e1, e2], i2, f1.trans f2, ?_, ?_⟩
      · intro l
        rw [g2, g1]
        by_cases hll : l0 = l
        · subst hll
          simp only [if_true, hl, Option.map_some, without_cons]
        · simp only [hll, if_false]
          cases m.landmarks.get? l with
          | none => rfl
          | some lm' => simp only [Option.map_some, without_cons, if_neg hll]
      · intro s l
        rw [o2, o1]
        by_cases h1 : (l, s) ∈ rest
        · simp [h1]
        · simp only [h1, if_false, List.mem_cons, or_false, Prod.mk.injEq]
          by_cases h2 : s0 = s ∧ l0 = l
          · obtain ⟨rfl, rfl⟩ := h2; simp
          · have : ¬ (l = l0 ∧ s = s0) := fun hc => h2 ⟨hc.2.symm, hc.1.symm⟩
            simp [h2, this]

theorem removeLandmark_effect {m : SMap Id A X K B P} (h : Inv m) {l : Id} {lm : LmSt Id X}
    (hl : m.landmarks.get? l = some lm) :
    ∃ m', m.removeLandmark l = (m', none) ∧ Inv m' ∧ SameFrame m m' ∧
      (∀ l', m'.landmarks.get? l' = if l = l' then none else m.landmarks.get? l') ∧
      (∀ s l', m'.shotObservation s l' = if l = l' then none else m.shotObservation s l') := by
  obtain ⟨sh, h1, h2, h3⟩ := removeLandmark_spec h hl
  have hinv := inv_removeLandmark_aux h hl h2 h3
  refine ⟨_, by simp only [removeLandmark, hl, h1], hinv, ⟨rfl, rfl, rfl, rfl, ?_⟩, ?_, ?_⟩
  · intro s
    simp only [h3]
    cases lm.obs.get? s with
    | none => rfl
    | some f => cases m.shots.get? s <;> rfl
  · intro l'; simp only [Dict.get?_erase]
  · intro s l'; exact shotObservation_detach h hl h3 s l'

open Classical in
theorem removeFew_spec (ls : List Id) (hn : ls.Nodup) (m : SMap Id A X K B P) (h : Inv m) :
    ∃ m', removeFew m ls = (m', none) ∧ Inv m' ∧ SameFrame m m' ∧
      (∀ l, m'.landmarks.get? l =
        if l ∈ ls ∧ (∃ lm, m.landmarks.get? l = some lm ∧ lm.obs.length < 2) then none
        else m.landmarks.get? l) ∧
      (∀ s l, m'.shotObservation s l =
        if l ∈ ls ∧ (∃ lm, m.landmarks.get? l = some lm ∧ lm.obs.length < 2) then none
        else m.shotObservation s l) := by
  induction ls generalizing m with
  | nil => exact ⟨m, rfl, h, .refl m, by simp, by simp⟩
  | cons l0 rest ih =>
    rw [List.nodup_cons] at hn
    have skip : (¬ ∃ lm, m.landmarks.get? l0 = some lm ∧ lm.obs.length < 2) →
        removeFew m (l0 :: rest) = removeFew m rest →
        ∃ m', removeFew m (l0 :: rest) = (m', none) ∧ Inv m' ∧ SameFrame m m' ∧
      (∀ l, m'.landmarks.get? l =
        if l ∈ l0 :: rest ∧ (∃ lm, m.landmarks.get? l = some lm ∧ lm.obs.length < 2) then none
        else m.landmarks.get? l) ∧
      (∀ s l, m'.shotObservation s l =
        if l ∈ l0 :: rest ∧ (∃ lm, m.landmarks.get? l = some lm ∧ lm.obs.length < 2) then none
        else m.shotObservation s l) := by
      intro hno hrw
      obtain ⟨m', e, i, f, g, o⟩ := ih hn.2 m h
      have hiff : ∀ l, (l ∈ l0 :: rest ∧
          (∃ lm, m.landmarks.get? l = some lm ∧ lm.obs.length < 2)) ↔
          (l ∈ rest ∧ (∃ lm, m.landmarks.get? l = some lm ∧ lm.obs.length < 2)) := by
        intro l
        constructor
        · rintro ⟨h1, h2⟩
          rcases List.mem_cons.1 h1 with rfl | h1
          · exact absurd h2 hno
          · exact ⟨h1, h2⟩
        · rintro ⟨h1, h2⟩; exact ⟨List.mem_cons_of_mem _ h1, h2⟩
      refine ⟨m', by rw [hrw, e], i, f, ?_, ?_⟩
      · intro l; rw [g]; simp only [hiff]
      · intro s l; rw [o]; simp only [hiff]
    cases hl : m.landmarks.get? l0 with
    | none =>
      apply skip
      · rw [hl]; simp
      · simp only [removeFew, hl]
    | some lm =>
      by_cases hlen : lm.obs.length < 2
      · obtain ⟨m1, e1, i1, f1, g1, o1⟩ := removeLandmark_effect h hl
        obtain ⟨m2, e2, i2, f2, g2, o2⟩ := ih hn.2 m1 i1
        refine ⟨m2, by simp only [removeFew, hl, if_pos hlen, e1, e2], i2, f1.trans f2, ?_, ?_⟩
        · intro l
          rw [g2]
          simp only [g1]
          by_cases hll : l0 = l
          · subst hll
            simp [hl, hlen]
          · simp [hll, Ne.symm hll]
        · intro s l
          rw [o2]
          simp only [g1, o1]
          by_cases hll : l0 = l
          · subst hll
            simp [hl, hlen]
          · simp [hll, Ne.symm hll]
      · apply skip
        · rw [hl]
          rintro ⟨lm', h1, h2⟩
          cases h1
          exact hlen h2
        · simp only [removeFew, hl, if_neg hlen]

theorem collect_spec (m : SMap Id A X K B P) (errs : Dict Id (Dict Id (F × F))) (thr : F)
    (he : ErrorsOk m errs) (points : List Id) (hn : points.Nodup)
    (hp : ∀ p ∈ points, (m.landmarks.get? p).isSome) :
    ∃ out, collectOutliers m errs thr points = some out ∧ out.Nodup ∧
      ∀ l s, (l, s) ∈ out ↔ l ∈ points ∧ Exceeds errs thr l s := by
  induction points with
  | nil => exact ⟨[], rfl, List.nodup_nil, by simp⟩
  | cons p rest ih =>
    rw [List.nodup_cons] at hn
    obtain ⟨out, e, hnd, hmem⟩ := ih hn.2 (fun q hq => hp q (by simp [hq]))
    have hp0 := hp p (by simp)
    have hnone : (m.landmarks.get? p).isNone = false := by
      cases hx : m.landmarks.get? p <;> simp_all
    have hone : ∀ l s, (l, s) ∈ (((errs.get? p).getD []).filter (fun q => isOutlier thr q.2)).map
          (fun q => (p, q.1)) ↔ l = p ∧ Exceeds errs thr l s := by
      intro l s
      rw [List.mem_map]
      constructor
      · rintro ⟨⟨s', ex, ey⟩, hq, heq⟩
        cases heq
        rw [List.mem_filter] at hq
        cases hd : errs.get? p with
        | none => simp [hd] at hq
        | some d =>
          simp only [hd, Option.getD_some] at hq
          refine ⟨rfl, d, ex, ey, hd, Dict.get?_of_mem (he p d hd).1 hq.1, ?_⟩
          simpa [isOutlier] using hq.2
      · rintro ⟨rfl, d, ex, ey, hd, hs, hlt⟩
        refine ⟨(s, ex, ey), ?_, rfl⟩
        rw [List.mem_filter, hd]
        exact ⟨Dict.mem_of_get? hs, by simpa [isOutlier] using hlt⟩
    refine ⟨_, by simp only [collectOutliers, hnone, e]; rfl, ?_, ?_⟩
    · rw [List.nodup_append]
      refine ⟨?_, hnd, ?_⟩
      · cases hd : errs.get? p with
        | none => simp
        | some d =>
          have hw : (d.map Prod.fst).Nodup := (he p d hd).1
          simp only [Option.getD_some]
          have : ((d.filter (fun q => isOutlier thr q.2)).map Prod.fst).Nodup :=
            hw.sublist (List.filter_sublist.map _)
          have h2 : (List.map (fun s => (p, s))
              ((d.filter (fun q => isOutlier thr q.2)).map Prod.fst)).Nodup :=
            List.Nodup.map (f := fun s => (p, s)) (fun a b h => (Prod.mk.inj h).2) this
          rw [List.map_map] at h2
          exact h2
      · rintro ⟨l, s⟩ ha b hb rfl
        have h1 := ((hone l s).1 ha).1
        have h2 := ((hmem l s).1 hb).1
        subst h1
        exact hn.1 h2
    · intro l s
      rw [List.mem_append, hone, hmem, List.mem_cons]
      constructor
      · rintro (⟨h1, h2⟩ | ⟨h1, h2⟩)
        · exact ⟨Or.inl h1, h2⟩
        · exact ⟨Or.inr h1, h2⟩
      · rintro ⟨h1 | h1, h2⟩
        · exact Or.inl ⟨h1, h2⟩
        · exact Or.inr ⟨h1, h2⟩

open Classical in
/-- **C35.** In every state reached by a disciplined history, for every error table, threshold,
set of existing points and iteration order, `remove_outliers` raises nothing and: it returns the
number of pairs (processed point, shot) whose error is longer than the threshold; a point is
deleted exactly when it had such a pair and fewer than two of its observations remain; an
observation survives exactly when its error is not longer than the threshold (or its point is not
processed) and its point is not deleted, on the landmark side and on the shot side; positions,
cameras, rigs and shots do not change. -/
theorem C35_exact [Group P] [DecidableEq P] (b0 : B) (ops : List (Op Id A X K B P))
    (hd : Disciplined b0 ops) (errs : Dict Id (Dict Id (F × F))) (thr : F)
    (he : ErrorsOk (run b0 ops) errs) (points : List Id) (hn : points.Nodup)
    (hp : ∀ p ∈ points, ((run b0 ops).landmarks.get? p).isSome)
    (order : List Id → List Id) (ho : ∀ l, (order l).Perm l) :
    ∃ (m' : SMap Id A X K B P) (out : List (Id × Id)),
      removeOutliers (run b0 ops) errs thr points order = (m', .ok out.length) ∧
      out.Nodup ∧ (∀ l s, (l, s) ∈ out ↔ l ∈ points ∧ Exceeds errs thr l s) ∧
      (∀ l lm, (run b0 ops).landmarks.get? l = some lm →
        let kept := lm.obs.filter (fun q => decide (¬ (l ∈ points ∧ Exceeds errs thr l q.1)))
        m'.landmarks.get? l =
          if (l ∈ points ∧ ∃ s, Exceeds errs thr l s) ∧ kept.length < 2 then none
          else some ⟨lm.pos, kept⟩) ∧
      (∀ l, (run b0 ops).landmarks.get? l = none → m'.landmarks.get? l = none) ∧
      (∀ s l, m'.shotObservation s l =
        if (l ∈ points ∧ Exceeds errs thr l s) ∨ m'.landmarks.get? l = none then none
        else (run b0 ops).shotObservation s l) ∧
      SameFrame (run b0 ops) m' ∧ Inv m' := by
  have h := inv_run b0 ops hd
  generalize run b0 ops = m at *
  obtain ⟨out, e1, hnd, hmem⟩ := collect_spec m errs thr he points hn hp
  obtain ⟨m1, e2, i1, f1, g1, o1⟩ := removeAll_spec out hnd m h (by
    rintro ⟨l, s⟩ hq
    obtain ⟨_, d, ex, ey, hd', hs, _⟩ := (hmem l s).1 hq
    exact (he l d hd').2 s (by simp [hs]))
  have hnt : (order (out.map Prod.fst).dedup).Nodup :=
    (ho _).nodup_iff.2 (List.nodup_dedup _)
  have ht : ∀ l, l ∈ order (out.map Prod.fst).dedup ↔ l ∈ points ∧ ∃ s, Exceeds errs thr l s := by
    intro l
    rw [(ho _).mem_iff, List.mem_dedup, List.mem_map]
    constructor
    · rintro ⟨⟨l', s⟩, hq, rfl⟩
      exact ⟨((hmem _ _).1 hq).1, s, ((hmem _ _).1 hq).2⟩
    · rintro ⟨h1, s, h2⟩
      exact ⟨(l, s), (hmem _ _).2 ⟨h1, h2⟩, rfl⟩
  obtain ⟨m2, e3, i2, f2, g2, o2⟩ := removeFew_spec _ hnt m1 i1
  have hland : ∀ l lm, m.landmarks.get? l = some lm →
        m2.landmarks.get? l =
          if (l ∈ points ∧ ∃ s, Exceeds errs thr l s) ∧
            (lm.obs.filter (fun q => decide (¬ (l ∈ points ∧ Exceeds errs thr l q.1)))).length < 2
          then none
          else some ⟨lm.pos,
            lm.obs.filter (fun q => decide (¬ (l ∈ points ∧ Exceeds errs thr l q.1)))⟩ := by
    intro l lm hl
    have hw : without out l lm = ⟨lm.pos,
            lm.obs.filter (fun q => decide (¬ (l ∈ points ∧ Exceeds errs thr l q.1)))⟩ := by
      unfold without
      congr 1
      apply List.filter_congr
      intro q _
      simp only [hmem]
    rw [g2, g1, hl, Option.map_some, hw]
    simp only [ht, Option.some.injEq, exists_eq_left']
  refine ⟨m2, out, by simp only [removeOutliers, e1, e2, e3], hnd, hmem, hland, ?_, ?_,
    f1.trans f2, i2⟩
  · intro l hl
    rw [g2, g1, hl]
    simp
  · intro s l
    rw [o2, o1]
    cases hl : m.landmarks.get? l with
    | none =>
      have hz : m2.landmarks.get? l = none := by rw [g2, g1, hl]; simp
      have hz' : m.shotObservation s l = none := by
        cases hx : m.shotObservation s l with
        | none => rfl
        | some o =>
          have := (h.sym s l o.feat).2 ⟨o, hx, rfl⟩
          simp [landmarkObservation, hl] at this
      simp [hz, hz']
    | some lm =>
      have hg := g2 l
      rw [g1, hl, Option.map_some] at hg
      simp only [g1, hl, Option.map_some]
      simp only [Option.some.injEq, exists_eq_left'] at hg ⊢
      split
      · rename_i hc
        rw [if_pos hc] at hg
        simp [hg]
      · rename_i hc
        rw [if_neg hc] at hg
        rw [hg]
        simp [hmem]

/-- `FIXED` uses the configured threshold, `AUTO` scales the spread of the errors, anything else
uses one. -/
theorem C35_threshold (fixedThr ratio spread : F) :
    actualThreshold .fixed fixedThr ratio spread = fixedThr ∧
    actualThreshold .auto fixedThr ratio spread = ratio * spread ∧
    actualThreshold .other fixedThr ratio spread = 1 := ⟨rfl, rfl, rfl⟩

/-- Point 200 is seen by shots 100, 101 and 102, point 202 by 100 and 101. Errors of length 5 in
shot 101 with threshold 4 remove both observations, then point 202 but not 200. -/
example : Disciplined 0 sampleOps ∧
    (removeOutliers (run 0 sampleOps) ([(200, [(101, ((3 : Int), 4))]), (202, [(100, (1, 1)), (101, (5, 0))])]) 4
      [200, 202] List.reverse).1.landmarks.keys =
      [200, 201] ∧
    (match (removeOutliers (run 0 sampleOps)
        ([(200, [(101, ((3 : Int), 4))]), (202, [(100, (1, 1)), (101, (5, 0))])]) 4 [200, 202] List.reverse).2 with
      | .ok n => n | .error _ => 99) = 2 := ⟨sample_disciplined, by decide +kernel⟩

example : ErrorsOk (run 0 sampleOps)
    ([(200, [(101, ((3 : Int), 4))]), (202, [(100, (1, 1)), (101, (5, 0))])]) := by
  intro l d h
  simp only [Dict.get?] at h
  have key : (d = [(101, (3, 4))] ∧ l = 200) ∨ (d = [(100, (1, 1)), (101, (5, 0))] ∧ l = 202) := by
    split at h
    · cases h; rename_i e; exact Or.inl ⟨rfl, e.symm⟩
    · split at h
      · cases h; rename_i e; exact Or.inr ⟨rfl, e.symm⟩
      · cases h
  rcases key with ⟨rfl, rfl⟩ | ⟨rfl, rfl⟩
  · refine ⟨by simp [Dict.Wf, Dict.keys], ?_⟩
    intro s hs
    simp only [Dict.get?] at hs
    split at hs
    · rename_i e; subst e; decide +kernel
    · cases hs
  · refine ⟨by simp [Dict.Wf, Dict.keys], ?_⟩
    intro s hs
    simp only [Dict.get?] at hs
    split at hs
    · rename_i e; subst e; decide +kernel
    · split at hs
      · rename_i e; subst e; decide +kernel
      · cases hs

end Verif.SMap
