import Verif.Props.BundleProblem
import Mathlib.Tactic.FieldSimp
import Mathlib.Tactic.Ring

/-!
# C94 — The position priors of rig instances
-/
set_option linter.unusedSectionVars false
set_option linter.unusedSimpArgs false
set_option linter.unusedVariables false
namespace Verif.BundleProblem
open Verif.Superimpose
variable {Id Cam Bias P V O E : Type} [DecidableEq Id]

/-! ### Lemmas -/

theorem mem_priorEntry {cs : List (Call Id Cam Bias P V O)} {i : Id} {x : Vec 3} {s : ℝ} :
    (x, s) ∈ cs.filterMap (priorEntry i) ↔ Call.prior i x s ∈ cs := by
  rw [List.mem_filterMap]
  constructor
  · rintro ⟨a, ha, e⟩
    cases a <;> simp [priorEntry] at e
    obtain ⟨rfl, rfl, rfl⟩ := e
    exact ha
  · intro h; exact ⟨_, h, by simp [priorEntry]⟩

/-- If all priors of an instance are the same, that one is used; if there is none, none. -/
theorem prior_of_mem {identity : Bias} {cs : List (Call Id Cam Bias P V O)} {ba : BA Id Cam Bias P V O} (hb : Built identity cs ba) (i : Id) :
    (∀ x s, Call.prior i x s ∈ cs → (∀ x' s', Call.prior i x' s' ∈ cs → x' = x ∧ s' = s) → ba.priors.get? i = some (x, s)) ∧
    ((∀ x s, Call.prior i x s ∉ cs) → ba.priors.get? i = none) := by
  refine ⟨?_, ?_⟩
  · intro x s h hall
    rw [hb.priors i]
    have hm := mem_priorEntry.2 h
    have hne : cs.filterMap (priorEntry i) ≠ [] := List.ne_nil_of_mem hm
    rw [List.getLast?_eq_some_getLast hne]
    have hl := List.getLast_mem hne
    rcases hq : (cs.filterMap (priorEntry i)).getLast hne with ⟨x', s'⟩
    rw [hq] at hl
    obtain ⟨rfl, rfl⟩ := hall x' s' (mem_priorEntry.1 hl)
    rfl
  · intro h
    rw [hb.priors i]
    rw [List.getLast?_eq_none_iff]
    rw [List.eq_nil_iff_forall_not_mem]
    rintro ⟨x, s⟩ hx
    exact h x s (mem_priorEntry.1 hx)

/-- The measured positions with accuracies of the shots of an instance. -/
def measured (m : BMap Id Cam Bias P V O E) (sh : Dict Id Id) : List (Vec 3 × ℝ) :=
  sh.filterMap (fun e => do
    let st ← m.shots.get? e.1
    let x ← st.gps
    let a ← st.accuracy
    pure (x, a))

theorem gpsOf_eq (m : BMap Id Cam Bias P V O E) (sh : Dict Id Id) : gpsOf m sh = measured m sh := by
  unfold gpsOf measured
  refine List.filterMap_congr ?_
  intro e he
  cases m.shots.get? e.1 with
  | none => rfl
  | some st =>
    simp only
    cases hg : st.gps with
    | none => simp [hg]
    | some x =>
      cases ha : st.accuracy with
      | none => simp [hg, ha]
      | some a => simp [hg, ha]

theorem average_eq (l : List (Vec 3 × ℝ)) : (l = [] → average l = none) ∧
    (l ≠ [] → average l = some ((1 / (l.length : ℝ)) • (l.map Prod.fst).sum, (l.map Prod.snd).sum / l.length)) := by
  unfold average
  refine ⟨?_, ?_⟩
  · rintro rfl; simp
  · intro h
    rw [if_pos (List.length_pos_of_ne_nil h)]

/-! ### `bundle` and `bundle_local` -/

/-- **The prior of `bundle`** for an instance is the mean of the measured positions of its shots, with the mean of their accuracies;
there is none if nothing is measured or GPS is not used. -/
theorem C94_full (identity : Bias) (cfg : Cfg) (m : BMap Id Cam Bias P V O E) (camPrior rigPrior : Id → Bool)
    (gcp : List (Gcp Id V O)) (hi : m.instances.Wf) (ba : BA Id Cam Bias P V O)
    (h : BA.run identity (bundleCalls cfg m camPrior rigPrior gcp) .empty = some ba)
    (i : Id) (p : P) (sh : Dict Id Id) (hm : m.instances.get? i = some (p, sh)) :
    (cfg.useGps = true → measured m sh ≠ [] → ba.priors.get? i =
      some ((1 / ((measured m sh).length : ℝ)) • ((measured m sh).map Prod.fst).sum,
        ((measured m sh).map Prod.snd).sum / (measured m sh).length)) ∧
    (cfg.useGps = false ∨ measured m sh = [] → ba.priors.get? i = none) := by
  obtain ⟨hb, -⟩ := run_built identity _ ba h
  obtain ⟨h1, h2⟩ := prior_of_mem hb i
  have hcall : ∀ x s, Call.prior i x s ∈ bundleCalls cfg m camPrior rigPrior gcp ↔ average (instGps cfg m (i, p, sh)) = some (x, s) := by
    intro x s
    rw [mem_bundleCalls, mem_segCams, mem_segPoints, mem_segRigs, mem_segInsts, mem_segObs, mem_segGcp, mem_segBias]
    simp only [reduceCtorEq, Call.prior.injEq, false_or, or_false, and_false, exists_false]
    constructor
    · rintro ⟨e, he, a, ha, rfl, rfl, rfl⟩
      have := Dict.get?_of_mem hi (k := e.1) (v := e.2) he
      rw [hm] at this
      simp only [Option.some.injEq] at this
      have he' : e = (e.1, p, sh) := Prod.ext rfl this.symm
      rw [← he']
      exact ha
    · intro ha
      exact ⟨(i, p, sh), Dict.mem_of_get? hm, (x, s), ha, rfl, rfl, rfl⟩
  unfold instGps at hcall
  refine ⟨?_, ?_⟩
  · intro hg hne
    rw [if_pos hg] at hcall
    simp only [gpsOf_eq, (average_eq _).2 hne] at hcall
    refine h1 _ _ ((hcall _ _).2 rfl) ?_
    intro x' s' h'
    have := (hcall _ _).1 h'
    simp only [Option.some.injEq, Prod.mk.injEq] at this
    exact ⟨this.1.symm, this.2.symm⟩
  · intro hno
    refine h2 ?_
    intro x s hx
    have := (hcall x s).1 hx
    rcases hno with hg | he
    · rw [if_neg (by rw [hg]; simp), (average_eq _).1 rfl] at this
      exact absurd this (by simp)
    · split at this
      · simp only [gpsOf_eq, he] at this
        rw [(average_eq _).1 rfl] at this
        exact absurd this (by simp)
      · rw [(average_eq _).1 rfl] at this
        exact absurd this (by simp)

/-- The prior of `bundle_local` for an instance of the neighbourhood that may move is the mean of the positions of its shots; a shot
with a position and no accuracy counts with whatever number is in memory. An instance with a shot on the boundary has none. -/
theorem C94_local (identity : Bias) (junk : ℝ) (cfg : Cfg) (m : BMap Id Cam Bias P V O E) (camPrior rigPrior : Id → Bool)
    (interior boundary : List Id) (gcp : List (Gcp Id V O)) (ba : BA Id Cam Bias P V O)
    (h : BA.run identity (localCalls junk cfg m camPrior rigPrior interior boundary gcp).1 .empty = some ba)
    (i : Id) (p : P) (sh : Dict Id Id) (hm : m.instances.get? i = some (p, sh))
    (hin : ∃ s, (s ∈ interior ∨ s ∈ boundary) ∧ ∃ st, m.shots.get? s = some st ∧ st.inst = i)
    (g : List (Vec 3 × ℝ)) (hg : g = sh.filterMap (fun e => do
      let st ← m.shots.get? e.1
      let x ← st.gps
      pure (x, st.accuracy.getD junk))) :
    (cfg.useGps = true → g ≠ [] → (∀ s ∈ sh.keys, s ∉ boundary) →
      ba.priors.get? i = some ((1 / (g.length : ℝ)) • (g.map Prod.fst).sum, (g.map Prod.snd).sum / g.length)) ∧
    (cfg.useGps = false ∨ g = [] ∨ (∃ s ∈ sh.keys, s ∈ boundary) → ba.priors.get? i = none) := by
  obtain ⟨hb, -⟩ := run_built identity _ ba h
  obtain ⟨h1, h2⟩ := prior_of_mem hb i
  have hic := (ic_spec m _ _ (local_points junk cfg m camPrior rigPrior interior boundary gcp identity ba h)).2.2.2.2
  have him : i ∈ instancesOf m (bothOf interior boundary) := by
    rw [mem_instancesOf]
    obtain ⟨s, hs, hst⟩ := hin
    exact ⟨s, (mem_bothOf interior boundary s).2 hs, hst⟩
  have e2 : sh.any (fun s => decide (s.1 ∈ boundary)) = false ↔ ∀ s ∈ sh.keys, s ∉ boundary := by
    rw [List.any_eq_false]
    simp only [decide_eq_true_iff]
    constructor
    · intro h s hs
      obtain ⟨e, he, rfl⟩ := List.mem_map.1 hs
      exact h e he
    · intro h e he
      exact h e.1 (List.mem_map.2 ⟨e, he, rfl⟩)
  have hgl : (∀ s ∈ sh.keys, s ∉ boundary) → gpsLocal junk m boundary sh = g := by
    intro hbd
    rw [hg]
    unfold gpsLocal
    refine List.filterMap_congr ?_
    intro e he
    rw [if_neg (hbd e.1 (List.mem_map.2 ⟨e, he, rfl⟩))]
    cases m.shots.get? e.1 with
    | none => rfl
    | some st =>
      simp only
      cases hx : st.gps with
      | none => simp [hx]
      | some x => simp [hx]
  have hcall : ∀ x s, Call.prior i x s ∈ (localCalls junk cfg m camPrior rigPrior interior boundary gcp).1 ↔
      average (if cfg.useGps then gpsLocal junk m boundary sh else []) = some (x, s) ∧
        sh.any (fun s => decide (s.1 ∈ boundary)) = false := by
    intro x s
    rw [mem_localCalls, mem_locCams, mem_locBoundary, mem_segGcp]
    simp only [mem_locRig, mem_locInst]
    constructor
    · rintro (⟨e, -, h | h⟩ | ⟨r, -, ⟨-, h⟩ | ⟨p, -, h | h⟩⟩ | ⟨j, hj, ⟨-, h⟩ | ⟨p', d, h1, h | ⟨a, ha, hf, h⟩⟩⟩ | h | ⟨b, -, o, -, -, h⟩ |
        ⟨-, g, -, v', -, h | ⟨e, -, -, h⟩⟩)
      all_goals first
        | (simp only [Call.prior.injEq] at h
           obtain ⟨rfl, rfl, rfl⟩ := h
           rw [hm] at h1
           simp only [Option.some.injEq, Prod.mk.injEq] at h1
           obtain ⟨rfl, rfl⟩ := h1
           exact ⟨ha, hf⟩)
        | exact absurd h (by simp)
        | (rcases hic _ h with ⟨q, -, v'', e'', -, h'⟩ | ⟨q, -, h'⟩
           · exact absurd h' (by simp)
           · exact absurd h' (by simp))
    · rintro ⟨ha, hf⟩
      exact Or.inr (Or.inr (Or.inl ⟨i, him, Or.inr ⟨p, sh, hm, Or.inr ⟨(x, s), ha, hf, rfl⟩⟩⟩))
  refine ⟨?_, ?_⟩
  · intro hu hne hbd
    rw [if_pos hu, hgl hbd] at hcall
    simp only [(average_eq _).2 hne] at hcall
    refine h1 _ _ ((hcall _ _).2 ⟨rfl, e2.2 hbd⟩) ?_
    intro x' s' h'
    have := ((hcall _ _).1 h').1
    simp only [Option.some.injEq, Prod.mk.injEq] at this
    exact ⟨this.1.symm, this.2.symm⟩
  · intro hno
    refine h2 ?_
    intro x s hx
    obtain ⟨ha, hf⟩ := (hcall x s).1 hx
    have hbd := e2.1 hf
    rcases hno with hu | he | ⟨s', hs', hsb⟩
    · rw [if_neg (by rw [hu]; simp), (average_eq _).1 rfl] at ha
      exact absurd ha (by simp)
    · rw [hgl hbd, he] at ha
      split at ha <;> (rw [(average_eq _).1 rfl] at ha; exact absurd ha (by simp))
    · exact hbd s' hs' hsb

/-! ### `bundle_shot_poses` -/

/-- One more shot: add its position, and divide by the number of positions so far. -/
noncomputable def running (q : Vec 3 × ℝ × ℕ) (g : Option (Vec 3 × ℝ)) : Vec 3 × ℝ × ℕ :=
  let n := match g with | none => q.2.2 | some _ => q.2.2 + 1
  let x := match g with | none => q.1 | some g => q.1 + g.1
  let a := match g with | none => q.2.1 | some g => q.2.1 + g.2
  if n = 0 then (x, a, n) else ((1 / (n : ℝ)) • x, a / n, n)

theorem pose_priors (cfg : Cfg) (m : BMap Id Cam Bias P V O E) (shotIds : List Id) (i : Id) (pose : P) :
    ∀ (l : List (Id × Id)) (q : PoseAcc Id), q.fixed = false → (∀ e ∈ l, e.1 ∈ shotIds ∧ ∃ st, m.shots.get? e.1 = some st) →
    ∀ gs : List (Option (Vec 3 × ℝ)), gs = l.map (fun e => (m.shots.get? e.1).bind (fun st => poseGps cfg shotIds e.1 st)) →
    ((poseCalls cfg m shotIds i pose l q : List (Call Id Cam Bias P V O)).filterMap (priorEntry i)).getLast? =
      (if l = [] ∨ (gs.foldl running (q.position, q.std, q.count)).2.2 = 0 then none
       else some ((gs.foldl running (q.position, q.std, q.count)).1, (gs.foldl running (q.position, q.std, q.count)).2.1)) := by
  intro l
  induction l with
  | nil => intro q _ _ gs hgs; simp [poseCalls]
  | cons e l ih =>
    obtain ⟨s, r⟩ := e
    intro q hq hex gs hgs
    obtain ⟨hs, st, hst⟩ := hex (s, r) (by simp)
    simp only at hs hst
    subst hgs
    have hfx : (poseAdd cfg shotIds s r st q).fixed = false := by rw [poseAdd_fixed, hq]; simp [hs]
    have hstep : ((poseDiv (poseAdd cfg shotIds s r st q)).position, (poseDiv (poseAdd cfg shotIds s r st q)).std,
        (poseDiv (poseAdd cfg shotIds s r st q)).count) = running (q.position, q.std, q.count) (poseGps cfg shotIds s st) := by
      unfold poseDiv running
      cases hg : poseGps cfg shotIds s st with
      | none =>
        have e0 : poseAdd cfg shotIds s r st q = ⟨q.shots ++ [(s, st.camera, r)], q.position, q.std, q.count, q.fixed || decide (s ∉ shotIds)⟩ := by
          unfold poseAdd; rw [hg]
        rw [e0]
        by_cases hc : q.count = 0
        · simp [hq, hs, hc]
        · simp [hq, hs, hc, Nat.pos_of_ne_zero hc]
      | some g =>
        have e0 : poseAdd cfg shotIds s r st q = ⟨q.shots ++ [(s, st.camera, r)], q.position + g.1, q.std + g.2, q.count + 1,
            q.fixed || decide (s ∉ shotIds)⟩ := by
          unfold poseAdd; rw [hg]
        rw [e0]
        simp [hq, hs]
    have hcount : (poseDiv (poseAdd cfg shotIds s r st q)).count = (poseAdd cfg shotIds s r st q).count := by
      unfold poseDiv; split <;> rfl
    have ihq := ih (poseDiv (poseAdd cfg shotIds s r st q)) (by rw [poseDiv_fixed]; exact hfx)
      (fun e he => hex e (List.mem_cons_of_mem _ he)) _ rfl
    rw [hstep] at ihq
    unfold poseCalls
    rw [hst]
    simp only [List.filterMap_append, List.map_cons, List.foldl_cons, hst, Option.bind_some]
    have hinst : List.filterMap (priorEntry i) [(Call.inst i pose (poseAdd cfg shotIds s r st q).shots
        (poseAdd cfg shotIds s r st q).fixed : Call Id Cam Bias P V O)] = [] := rfl
    rw [hinst, List.nil_append, List.getLast?_append, ihq]
    generalize hQ : running (q.position, q.std, q.count) (poseGps cfg shotIds s st) = Q at *
    have hQ3 : (poseAdd cfg shotIds s r st q).count = Q.2.2 := by
      rw [← hcount]
      exact congrArg (fun x => x.2.2) hstep
    have hQ1 : (poseDiv (poseAdd cfg shotIds s r st q)).position = Q.1 := congrArg (fun x => x.1) hstep
    have hQ2 : (poseDiv (poseAdd cfg shotIds s r st q)).std = Q.2.1 := congrArg (fun x => x.2.1) hstep
    have hmono : ∀ (gs : List (Option (Vec 3 × ℝ))) (Q : Vec 3 × ℝ × ℕ), Q.2.2 ≤ (gs.foldl running Q).2.2 := by
      intro gs
      induction gs with
      | nil => intro Q; exact le_refl _
      | cons g gs ihg =>
        intro Q
        refine le_trans ?_ (ihg (running Q g))
        unfold running
        cases g with
        | none => simp only; split <;> exact le_refl _
        | some g => simp only; split <;> exact Nat.le_succ _
    by_cases hl : l = []
    · subst hl
      simp only [List.map_nil, List.foldl_nil, true_or, if_true, Option.none_or]
      by_cases hc : Q.2.2 = 0
      · rw [if_neg (by rw [hQ3]; simp [hc]), if_pos (Or.inr hc)]
        rfl
      · rw [if_pos ⟨hfx, by rw [hQ3]; exact Nat.pos_of_ne_zero hc⟩, if_neg (by simp [hc]), hQ1, hQ2]
        simp [priorEntry]
    · by_cases hc : ((l.map (fun e => (m.shots.get? e.1).bind (fun st => poseGps cfg shotIds e.1 st))).foldl running Q).2.2 = 0
      · have hc0 : Q.2.2 = 0 := by have := hmono (l.map (fun e => (m.shots.get? e.1).bind (fun st => poseGps cfg shotIds e.1 st))) Q; omega
        rw [if_pos (Or.inr hc), if_pos (Or.inr hc), if_neg (by rw [hQ3]; simp [hc0])]
        rfl
      · generalize ((l.map (fun e => (m.shots.get? e.1).bind (fun st => poseGps cfg shotIds e.1 st))).foldl running Q) = W at *
        rw [if_neg (show ¬(l = [] ∨ W.2.2 = 0) from fun h => h.elim hl hc), if_neg (show ¬((s, r) :: l = [] ∨ W.2.2 = 0) from fun h => h.elim (by simp) hc)]
        rfl

theorem poseGps_eq (cfg : Cfg) (shotIds : List Id) (s : Id) (st : Shot Id O) (hu : cfg.useGps = true) (hs : s ∈ shotIds) :
    poseGps cfg shotIds s st = (do let x ← st.gps; let a ← st.accuracy; pure (x, a)) := by
  unfold poseGps
  rw [if_pos ⟨hs, hu⟩]
  cases st.gps with
  | none => rfl
  | some x =>
    cases st.accuracy with
    | none => rfl
    | some a => rfl

/-- **The prior of `bundle_shot_poses`** for an instance all of whose shots are adjusted: the sum is divided with every shot, not once.
`running` is what one shot does. -/
theorem C94_shots (identity : Bias) (cfg : Cfg) (m : BMap Id Cam Bias P V O E) (camPrior rigPrior : Id → Bool)
    (shotIds : List Id) (ba : BA Id Cam Bias P V O)
    (h : BA.run identity (shotPosesCalls cfg m camPrior rigPrior shotIds) .empty = some ba) (hu : cfg.useGps = true)
    (i : Id) (p : P) (sh : Dict Id Id) (hm : m.instances.get? i = some (p, sh)) (hne : sh ≠ [])
    (hin : ∃ s ∈ shotIds, ∃ st, m.shots.get? s = some st ∧ st.inst = i) (hall : ∀ e ∈ sh, e.1 ∈ shotIds)
    (gs : List (Option (Vec 3 × ℝ))) (hgs : gs = sh.map (fun e => do
      let st ← m.shots.get? e.1
      let x ← st.gps
      let a ← st.accuracy
      pure (x, a))) :
    ba.priors.get? i = (if (gs.foldl running (0, 0, 0)).2.2 = 0 then none
      else some ((gs.foldl running (0, 0, 0)).1, (gs.foldl running (0, 0, 0)).2.1)) := by
  obtain ⟨hb, -⟩ := run_built identity _ ba h
  have him := (mem_instancesOf m shotIds i).2 hin
  have hex : ∀ e ∈ sh, ∃ st, m.shots.get? e.1 = some st := by
    intro e he
    cases hs : m.shots.get? e.1 with
    | some st => exact ⟨st, rfl⟩
    | none =>
      exfalso
      have : Call.need false ∈ shotPosesCalls cfg m camPrior rigPrior shotIds := by
        rw [mem_shotPosesCalls]
        refine Or.inr (Or.inr (Or.inr (Or.inl ⟨i, him, ?_⟩)))
        unfold spInst
        rw [hm]
        exact pose_need cfg m shotIds i p sh .zero ⟨e, he, hs⟩
      rw [run_need_false identity _ this] at h
      exact absurd h (by simp)
  rw [hb.priors i, shotPosesCalls_eq]
  simp only [List.filterMap_append]
  have z : ∀ (l : List (Call Id Cam Bias P V O)), (∀ c ∈ l, priorEntry i c = none) → l.filterMap (priorEntry i) = [] := by
    intro l hl
    rw [List.filterMap_eq_nil_iff]
    exact hl
  rw [z (((matesOf m shotIds).map (·.2)).dedup.flatMap (locRig m rigPrior)),
    z (((matesOf m shotIds).filterMap (fun e => (m.shots.get? e.1).map (·.camera))).dedup.flatMap (spCam m camPrior)),
    z (((shotIds.flatMap (shotObs m)).map (·.2.1)).dedup.flatMap (spPoint m)), z (spObs m shotIds)]
  · simp only [List.nil_append, List.append_nil]
    -- only the calls of this instance count
    have hone : ∀ (l : List Id), l.Nodup → ((l.flatMap (spInst cfg m shotIds) : List (Call Id Cam Bias P V O)).filterMap (priorEntry i)) =
        if i ∈ l then (spInst cfg m shotIds i : List (Call Id Cam Bias P V O)).filterMap (priorEntry i) else [] := by
      intro l
      induction l with
      | nil => intro _; simp
      | cons j l ih =>
        intro hn
        rw [List.nodup_cons] at hn
        rw [List.flatMap_cons, List.filterMap_append, ih hn.2]
        by_cases hj : i = j
        · subst hj
          rw [if_neg hn.1, if_pos (by simp), List.append_nil]
        · have hz : (spInst cfg m shotIds j : List (Call Id Cam Bias P V O)).filterMap (priorEntry i) = [] := by
            refine z _ ?_
            intro c hc
            unfold spInst at hc
            cases hg : m.instances.get? j with
            | none => rw [hg] at hc; simp only [List.mem_singleton] at hc; rw [hc]; rfl
            | some e =>
              rw [hg] at hc
              rcases pose_kinds cfg m shotIds j e.1 e.2 .zero _ hc with rfl | ⟨sh', f', rfl⟩ | ⟨x, s, rfl⟩
              · rfl
              · rfl
              · simp [priorEntry, Ne.symm hj]
          rw [hz, List.nil_append]
          simp [hj]
    rw [hone _ (show (instancesOf m shotIds).Nodup from List.nodup_dedup _), if_pos him]
    unfold spInst
    rw [hm]
    simp only
    rw [pose_priors cfg m shotIds i p sh .zero rfl (fun e he => ⟨hall e he, hex e he⟩) gs ?_]
    · simp only [hne, false_or]
      rfl
    · rw [hgs]
      refine List.map_congr_left ?_
      intro e he
      obtain ⟨st, hst⟩ := hex e he
      rw [hst]
      simp only [Option.bind_some]
      rw [poseGps_eq cfg shotIds e.1 st hu (hall e he)]
      rfl
  · intro c hc
    unfold spObs at hc
    obtain ⟨o, -, rfl⟩ := List.mem_map.1 hc
    rfl
  · intro c hc
    obtain ⟨i, -, hc⟩ := List.mem_flatMap.1 hc
    rcases (mem_spPoint m i).1 hc with ⟨-, rfl⟩ | ⟨p, -, rfl⟩ <;> rfl
  · intro c hc
    obtain ⟨i, -, hc⟩ := List.mem_flatMap.1 hc
    rcases (mem_spCam m camPrior i).1 hc with ⟨-, rfl⟩ | ⟨p, -, rfl | rfl⟩ <;> rfl
  · intro c hc
    obtain ⟨i, -, hc⟩ := List.mem_flatMap.1 hc
    rcases (mem_locRig m rigPrior i).1 hc with ⟨-, rfl⟩ | ⟨p, -, rfl | rfl⟩ <;> rfl

/-- With one shot, or two measured ones, the running average is the mean. -/
theorem C94_running_mean (x y : Vec 3) (a b : ℝ) :
    [some (x, a)].foldl running (0, 0, 0) = (x, a, 1) ∧
    [some (x, a), none].foldl running (0, 0, 0) = (x, a, 1) ∧
    [some (x, a), some (y, b)].foldl running (0, 0, 0) = ((1 / 2 : ℝ) • (x + y), (a + b) / 2, 2) := by
  refine ⟨?_, ?_, ?_⟩
  · simp [running]
  · simp [running]
  · simp only [List.foldl_cons, List.foldl_nil, running]
    norm_num

/-- With more it is not: three positions weigh 1/6, 1/6 and 1/3, and a third shot without GPS halves the mean of the first two. -/
theorem C94_running_wrong (x y z : Vec 3) (a b c : ℝ) :
    ([some (x, a), some (y, b), some (z, c)].foldl running (0, 0, 0)).1 = (1 / 6 : ℝ) • x + (1 / 6 : ℝ) • y + (1 / 3 : ℝ) • z ∧
    ([some (x, a), some (y, b), none].foldl running (0, 0, 0)).1 = (1 / 4 : ℝ) • (x + y) := by
  refine ⟨?_, ?_⟩
  · simp only [List.foldl_cons, List.foldl_nil, running]
    norm_num
    funext k
    simp only [Pi.add_apply, Pi.smul_apply, smul_eq_mul]
    ring
  · simp only [List.foldl_cons, List.foldl_nil, running]
    norm_num
    funext k
    simp only [Pi.add_apply, Pi.smul_apply, smul_eq_mul]
    ring

/-- `n` shots that are all measured at `x` give a prior at a multiple of `x` that is at most `2 / n`: the prior goes to the origin of the
reference as rigs get larger. -/
theorem C94_running_shrinks (x : Vec 3) (a : ℝ) (n : ℕ) (hn : 0 < n) :
    ∃ c : ℝ, (List.replicate n (some (x, a))).foldl running (0, 0, 0) = (c • x, c * a, n) ∧ 0 < c ∧ c ≤ 1 ∧ c * n ≤ 2 ∧
      (3 ≤ n → c < 1) := by
  induction n with
  | zero => exact absurd hn (by simp)
  | succ n ih =>
    by_cases h0 : n = 0
    · subst h0
      refine ⟨1, ?_, by norm_num, by norm_num, by norm_num, by norm_num⟩
      simp [running]
    · obtain ⟨c, hc, c1, c2, c3, -⟩ := ih (Nat.pos_of_ne_zero h0)
      have hnpos : (0 : ℝ) < n := by exact_mod_cast Nat.pos_of_ne_zero h0
      refine ⟨(c + 1) / (n + 1), ?_, by positivity, ?_, ?_, ?_⟩
      · rw [List.replicate_succ', List.foldl_append, hc]
        simp only [List.foldl_cons, List.foldl_nil, running]
        rw [if_neg (Nat.succ_ne_zero n)]
        simp only [Prod.mk.injEq, and_true]
        refine ⟨?_, ?_⟩
        · funext k
          simp only [Pi.add_apply, Pi.smul_apply, smul_eq_mul]
          push_cast
          field_simp
        · push_cast
          field_simp
      · rw [div_le_one (by positivity)]
        have : (1 : ℝ) ≤ n := by exact_mod_cast Nat.pos_of_ne_zero h0
        linarith
      · push_cast
        rw [div_mul_cancel₀ _ (by positivity)]
        linarith
      · intro h3
        rw [div_lt_one (by positivity)]
        have : (2 : ℝ) ≤ n := by exact_mod_cast (by omega : 2 ≤ n)
        linarith

/-! ### Examples -/

/-- Three shots of one instance, all measured at the same place. -/
def rigShot (r : ℕ) : Shot ℕ ℕ := ⟨7, 1, r, some ![6, 0, 12], some 3, []⟩
def rigMap : BMap ℕ ℕ ℕ ℕ ℕ ℕ ℕ :=
  ⟨[(7, 70)], [(7, 71)], [(7, 72), (8, 80), (9, 90)], [(1, 10, [(1, 7), (2, 8), (3, 9)])],
    [(1, rigShot 7), (2, rigShot 8), (3, rigShot 9)], []⟩

theorem rigConsistent : Consistent rigMap where
  shots := by unfold Dict.Wf; decide
  rigCameras := by unfold Dict.Wf; decide
  members := by
    intro i p sh s r h1 h2
    simp only [rigMap, List.mem_cons, List.not_mem_nil, or_false, Prod.mk.injEq] at h1
    obtain ⟨rfl, rfl, rfl⟩ := h1
    simp only [List.mem_cons, List.not_mem_nil, or_false, Prod.mk.injEq] at h2
    rcases h2 with ⟨rfl, rfl⟩ | ⟨rfl, rfl⟩ | ⟨rfl, rfl⟩
    · exact ⟨rigShot 7, rfl, by decide, by decide⟩
    · exact ⟨rigShot 8, rfl, by decide, by decide⟩
    · exact ⟨rigShot 9, rfl, by decide, by decide⟩
  owner := by
    intro s st h
    have := Dict.mem_of_get? h
    simp only [rigMap, List.mem_cons, List.not_mem_nil, or_false, Prod.mk.injEq] at this
    rcases this with ⟨rfl, rfl⟩ | ⟨rfl, rfl⟩ | ⟨rfl, rfl⟩
    · exact ⟨10, _, rfl, by simp [rigShot]⟩
    · exact ⟨10, _, rfl, by simp [rigShot]⟩
    · exact ⟨10, _, rfl, by simp [rigShot]⟩
  observed := by
    intro s st l o h hl
    have := Dict.mem_of_get? h
    simp only [rigMap, List.mem_cons, List.not_mem_nil, or_false, Prod.mk.injEq] at this
    rcases this with ⟨rfl, rfl⟩ | ⟨rfl, rfl⟩ | ⟨rfl, rfl⟩ <;> simp [rigShot] at hl

/-- The prior of the rig in `bundle`: where its shots were measured. -/
example : ∃ ba, BA.run 0 (bundleCalls ⟨true, true, false, false⟩ rigMap (fun _ => true) (fun _ => true) []) .empty = some ba ∧
    ba.priors.get? 1 = some (![6, 0, 12], 3) := by
  obtain ⟨ba, h⟩ := full_runs 0 ⟨true, true, false, false⟩ rigMap rigConsistent (fun _ => true) (fun _ => true) []
    (fun _ _ => rfl) (fun _ _ => rfl) (by
      intro _ s st x a h _ ha
      have := Dict.mem_of_get? h
      simp only [rigMap, List.mem_cons, List.not_mem_nil, or_false, Prod.mk.injEq] at this
      rcases this with ⟨rfl, rfl⟩ | ⟨rfl, rfl⟩ | ⟨rfl, rfl⟩ <;>
        (simp only [rigShot, Option.some.injEq] at ha; rw [← ha]; norm_num))
    (by intro h; exact absurd h (by simp))
  refine ⟨ba, h, ?_⟩
  have hmeas : measured rigMap [(1, 7), (2, 8), (3, 9)] = [(![6, 0, 12], 3), (![6, 0, 12], 3), (![6, 0, 12], 3)] := rfl
  have := (C94_full 0 _ rigMap _ _ [] (by unfold Dict.Wf; decide) ba h 1 10 _ rfl).1 rfl (by rw [hmeas]; simp)
  rw [this, hmeas]
  simp only [List.length_cons, List.length_nil, List.map_cons, List.map_nil, List.sum_cons, List.sum_nil, Option.some.injEq, Prod.mk.injEq]
  refine ⟨?_, by norm_num⟩
  funext k
  fin_cases k <;> simp <;> norm_num

/-- The prior of the same rig in `bundle_shot_poses`: a third of the way to the origin, and taken for more precise than measured. -/
example : ∃ ba, BA.run 0 (shotPosesCalls ⟨true, true, false, false⟩ rigMap (fun _ => true) (fun _ => true) [1, 2, 3]) .empty = some ba ∧
    ba.priors.get? 1 = some (![4, 0, 8], 2) := by
  rcases C93_shots_returns 0 ⟨true, true, false, false⟩ rigMap rigConsistent (fun _ => true) (fun _ => true) [1, 2, 3]
    exSol (fun _ _ => rfl) (fun _ _ => rfl) with ⟨⟨s, h1, h2⟩, -⟩ | ⟨-, m', h⟩
  · exfalso
    simp only [List.mem_cons, List.not_mem_nil, or_false] at h1
    rcases h1 with rfl | rfl | rfl <;> exact h2 (by decide)
  obtain ⟨ba, sol, hrun, -⟩ := C93_shots 0 _ rigMap m' _ _ _ exSol h
  refine ⟨ba, hrun, ?_⟩
  rw [C94_shots 0 _ rigMap _ _ [1, 2, 3] ba hrun rfl 1 10 _ rfl (by simp) ⟨1, by simp, rigShot 7, rfl, rfl⟩ (by decide)
    [some (![6, 0, 12], 3), some (![6, 0, 12], 3), some (![6, 0, 12], 3)] rfl]
  simp only [List.foldl_cons, List.foldl_nil, running]
  norm_num

end Verif.BundleProblem
