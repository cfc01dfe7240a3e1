import Mathlib.Tactic.FinCases
import Verif.Model.DenseStage
import Mathlib.Data.List.Nodup
import Mathlib.Data.List.Perm.Lattice

/-!
# C82: the stage that computes depthmaps
-/
set_option linter.unusedSectionVars false
set_option linter.unusedSimpArgs false
namespace Verif.DenseStage
variable {N R C P : Type} [DecidableEq N]

/-! ### One phase in general -/

section phase
variable {α : Type}

/-- The outcome of a job for its file: `none` kills the process, `absent` writes nothing. -/
def stepFile (out : Job N → Option (File α)) (f : N → File α) (j : Job N) : Option (N → File α) :=
  if (f j.shot).exists' then some f else (out j).map (fun v => Function.update f j.shot v)

def phaseFile (out : Job N → Option (File α)) : List (Job N) → (N → File α) → Option (N → File α)
  | [], f => some f
  | j :: js, f => (stepFile out f j).bind (phaseFile out js)

/-- The file of a shot after the phase. -/
def finalFile (out : Job N → Option (File α)) (l : List (Job N)) (f : N → File α) (s : N) : File α :=
  if (f s).exists' then f s
  else
    match l.find? (fun j => decide (j.shot = s)) with
    | none => f s
    | some j => (out j).getD (f s)

theorem not_exists {x : File α} (h : x.exists' = false) : x = .absent := by
  cases x with
  | absent => rfl
  | torn => cases h
  | ok a => cases h

theorem phaseFile_some (out : Job N → Option (File α)) (l : List (Job N)) : ∀ (f : N → File α),
    (l.map Job.shot).Nodup → (∀ j ∈ l, (f j.shot).exists' = false → (out j).isSome) →
    phaseFile out l f = some (finalFile out l f) := by
  induction l with
  | nil =>
    intro f _ _
    unfold phaseFile
    congr 1
    funext s
    unfold finalFile
    simp
  | cons j l ih =>
    intro f hn ho
    rw [List.map_cons, List.nodup_cons] at hn
    unfold phaseFile stepFile
    by_cases he : (f j.shot).exists'
    · rw [if_pos he, Option.bind_some, ih f hn.2 (fun k hk => ho k (List.mem_cons_of_mem _ hk))]
      congr 1
      funext s
      unfold finalFile
      by_cases hs : (f s).exists'
      · rw [if_pos hs, if_pos hs]
      · rw [if_neg hs, if_neg hs]
        have hne : ¬j.shot = s := fun h => hs (h ▸ he)
        rw [List.find?_cons_of_neg (by simpa using hne)]
    · rw [if_neg he]
      have he' : (f j.shot).exists' = false := by simpa using he
      obtain ⟨v, hv⟩ := Option.isSome_iff_exists.1 (ho j (List.mem_cons_self ..) he')
      rw [hv, Option.map_some, Option.bind_some, ih _ hn.2]
      · congr 1
        funext s
        unfold finalFile
        by_cases hjs : j.shot = s
        · subst hjs
          rw [if_neg he]
          have hf : List.find? (fun k => decide (k.shot = j.shot)) (j :: l) = some j :=
            List.find?_cons_of_pos (by simp)
          have hf' : List.find? (fun k => decide (k.shot = j.shot)) l = none := by
            rw [List.find?_eq_none]
            intro k hk hkj
            simp only [decide_eq_true_eq] at hkj
            exact hn.1 (hkj ▸ List.mem_map.2 ⟨k, hk, rfl⟩)
          rw [hf, hf']
          simp only [Function.update_self, hv, Option.getD_some]
          split_ifs <;> rfl
        · have hu : Function.update f j.shot v s = f s := Function.update_of_ne (Ne.symm hjs) _ _
          rw [hu, List.find?_cons_of_neg (by simpa using hjs)]
      · intro k hk hkf
        have hne : k.shot ≠ j.shot := fun h => hn.1 (h ▸ List.mem_map.2 ⟨k, hk, rfl⟩)
        rw [Function.update_of_ne hne] at hkf
        exact ho k (List.mem_cons_of_mem _ hk) hkf

theorem phaseFile_none (out : Job N → Option (File α)) (l : List (Job N)) : ∀ (f : N → File α),
    (l.map Job.shot).Nodup → (∃ j ∈ l, (f j.shot).exists' = false ∧ out j = none) → phaseFile out l f = none := by
  induction l with
  | nil => rintro f _ ⟨j, hj, -⟩; cases hj
  | cons j l ih =>
    rintro f hn ⟨k, hk, hkf, hko⟩
    rw [List.map_cons, List.nodup_cons] at hn
    unfold phaseFile stepFile
    rcases List.mem_cons.1 hk with h | h
    · subst h
      rw [if_neg (by simp [hkf]), hko]
      rfl
    · have hne : k.shot ≠ j.shot := fun h' => hn.1 (h' ▸ List.mem_map.2 ⟨k, h, rfl⟩)
      by_cases he : (f j.shot).exists'
      · rw [if_pos he, Option.bind_some]
        exact ih f hn.2 ⟨k, h, hkf, hko⟩
      · rw [if_neg he]
        cases hv : out j with
        | none => rfl
        | some v =>
          rw [Option.map_some, Option.bind_some]
          exact ih _ hn.2 ⟨k, h, by rw [Function.update_of_ne hne]; exact hkf, hko⟩

theorem find_of_mem (l : List (Job N)) (hn : (l.map Job.shot).Nodup) (j : Job N) (hj : j ∈ l) :
    l.find? (fun k => decide (k.shot = j.shot)) = some j := by
  induction l with
  | nil => cases hj
  | cons k l ih =>
    rw [List.map_cons, List.nodup_cons] at hn
    by_cases hk : k.shot = j.shot
    · rw [List.find?_cons_of_pos (by simpa using hk)]
      rcases List.mem_cons.1 hj with h | h
      · rw [h]
      · exact absurd (List.mem_map.2 ⟨j, h, hk.symm⟩) hn.1
    · rw [List.find?_cons_of_neg (by simpa using hk)]
      rcases List.mem_cons.1 hj with h | h
      · exact absurd (h ▸ rfl) hk
      · exact ih hn.2 h

theorem find_none (l : List (Job N)) (s : N) (hs : s ∉ l.map Job.shot) :
    l.find? (fun k => decide (k.shot = s)) = none := by
  rw [List.find?_eq_none]
  intro k hk h
  simp only [decide_eq_true_eq] at h
  exact hs (List.mem_map.2 ⟨k, hk, h⟩)

theorem find_perm (l m : List (Job N)) (hp : l.Perm m) (hn : (l.map Job.shot).Nodup) (s : N) :
    l.find? (fun k => decide (k.shot = s)) = m.find? (fun k => decide (k.shot = s)) := by
  have hm : (m.map Job.shot).Nodup := ((hp.map Job.shot).nodup_iff).1 hn
  by_cases h : s ∈ l.map Job.shot
  · obtain ⟨j, hj, rfl⟩ := List.mem_map.1 h
    rw [find_of_mem l hn j hj, find_of_mem m hm j (hp.subset hj)]
  · rw [find_none l s h, find_none m s (fun h' => h ((hp.map Job.shot).symm.subset h'))]

theorem finalFile_perm (out : Job N → Option (File α)) (l m : List (Job N)) (hp : l.Perm m)
    (hn : (l.map Job.shot).Nodup) (f : N → File α) : finalFile out l f = finalFile out m f := by
  funext s
  unfold finalFile
  rw [find_perm l m hp hn s]

theorem phaseFile_perm (out : Job N → Option (File α)) (l m : List (Job N)) (hp : l.Perm m)
    (hn : (l.map Job.shot).Nodup) (f : N → File α) : phaseFile out l f = phaseFile out m f := by
  have hm : (m.map Job.shot).Nodup := ((hp.map Job.shot).nodup_iff).1 hn
  by_cases h : ∃ j ∈ l, (f j.shot).exists' = false ∧ out j = none
  · rw [phaseFile_none out l f hn h]
    obtain ⟨j, hj, h'⟩ := h
    rw [phaseFile_none out m f hm ⟨j, hp.subset hj, h'⟩]
  · have hs : ∀ j ∈ l, (f j.shot).exists' = false → (out j).isSome := by
      intro j hj he
      rw [Option.isSome_iff_ne_none]
      exact fun ho => h ⟨j, hj, he, ho⟩
    rw [phaseFile_some out l f hn hs, phaseFile_some out m f hm (fun j hj => hs j (hp.symm.subset hj)),
      finalFile_perm out l m hp hn]

/-- Jobs done before make no difference. -/
theorem phaseFile_again (out : Job N → Option (File α)) (l pre : List (Job N)) (hn : (l.map Job.shot).Nodup)
    (hpn : (pre.map Job.shot).Nodup) (hpre : ∀ j ∈ pre, j ∈ l) (f g : N → File α)
    (hg : phaseFile out pre f = some g) : phaseFile out l g = phaseFile out l f := by
  have hpo : ∀ j ∈ pre, (f j.shot).exists' = false → (out j).isSome := by
    intro j hj he
    rw [Option.isSome_iff_ne_none]
    intro ho
    rw [phaseFile_none out pre f hpn ⟨j, hj, he, ho⟩] at hg
    cases hg
  rw [phaseFile_some out pre f hpn hpo] at hg
  injection hg with hg
  subst hg
  have hle : ∀ s, (finalFile out pre f s).exists' = false → (f s).exists' = false := by
    intro s h
    by_contra hc
    rw [Bool.not_eq_false] at hc
    unfold finalFile at h
    rw [if_pos hc, hc] at h
    cases h
  by_cases h : ∃ j ∈ l, (f j.shot).exists' = false ∧ out j = none
  · rw [phaseFile_none out l f hn h]
    obtain ⟨j, hj, he, ho⟩ := h
    refine phaseFile_none out l _ hn ⟨j, hj, ?_, ho⟩
    unfold finalFile
    rw [if_neg (by simp [he])]
    by_cases hjp : j.shot ∈ pre.map Job.shot
    · obtain ⟨k, hk, hkj⟩ := List.mem_map.1 hjp
      have : k = j := by
        have h1 := find_of_mem l hn j hj
        have h2 := find_of_mem l hn k (hpre k hk)
        rw [hkj] at h2
        rw [h1] at h2
        injection h2 with h2
        exact h2.symm
      subst this
      rw [find_of_mem pre hpn k hk]
      simp only [ho, Option.getD_none, he]
    · rw [find_none pre _ hjp]
      exact he
  · have hs : ∀ j ∈ l, (f j.shot).exists' = false → (out j).isSome := by
      intro j hj he
      rw [Option.isSome_iff_ne_none]
      exact fun ho => h ⟨j, hj, he, ho⟩
    rw [phaseFile_some out l f hn hs, phaseFile_some out l _ hn (fun j hj he => hs j hj (hle _ he))]
    congr 1
    funext s
    unfold finalFile
    by_cases he : (f s).exists'
    · rw [if_pos he, if_pos he]
    · rw [if_neg he, if_neg he]
      by_cases hsp : s ∈ pre.map Job.shot
      · obtain ⟨k, hk, rfl⟩ := List.mem_map.1 hsp
        rw [find_of_mem pre hpn k hk, find_of_mem l hn k (hpre k hk)]
        have he' : (f k.shot).exists' = false := by simpa using he
        obtain ⟨v, hv⟩ := Option.isSome_iff_exists.1 (hpo k hk he')
        simp only [hv, Option.getD_some]
        split_ifs <;> rfl
      · rw [find_none pre s hsp]
        simp only
        rw [if_neg he]

end phase

/-! ### The three phases -/

def File.ofOption {α : Type} : Option α → File α
  | none => .absent
  | some a => .ok a

def outRaw (w : Work N R C P) (j : Job N) : Option (File R) := some (File.ofOption (w.est j.shot))

def outClean (w : Work N R C P) (raw : N → File R) (j : Job N) : Option (File C) :=
  match loadAll raw j.neighbors with
  | none => some .absent
  | some [] => none
  | some (v :: vs) =>
    match raw j.shot with
    | .ok r => some (File.ofOption (w.clean (v :: vs) r))
    | _ => some .absent

def outPruned (w : Work N R C P) (clean : N → File C) (j : Job N) : Option (File P) :=
  match loadAll clean j.neighbors with
  | none => some .absent
  | some [] => none
  | some (v :: vs) => some (File.ofOption (w.prune (v :: vs)))

theorem update_absent {α : Type} (f : N → File α) (s : N) (h : (f s).exists' = false) :
    Function.update f s .absent = f := by
  rw [← not_exists h]; exact Function.update_eq_self s f

theorem rawTask_eq (w : Work N R C P) (st : State N R C P) (j : Job N) :
    rawTask w st j = (stepFile (outRaw w) st.raw j).map (fun f => { st with raw := f }) := by
  unfold rawTask stepFile outRaw
  by_cases he : (st.raw j.shot).exists'
  · rw [if_pos he, if_pos he]; rfl
  · rw [if_neg he, if_neg he]
    have he' : (st.raw j.shot).exists' = false := by simpa using he
    cases w.est j.shot with
    | none => simp only [File.ofOption, Option.map_some, update_absent _ _ he']
    | some r => rfl

theorem cleanTask_eq (w : Work N R C P) (st : State N R C P) (j : Job N) :
    cleanTask w st j = (stepFile (outClean w st.raw) st.clean j).map (fun f => { st with clean := f }) := by
  unfold cleanTask stepFile outClean saveClean
  by_cases he : (st.clean j.shot).exists'
  · rw [if_pos he, if_pos he]; rfl
  · rw [if_neg he, if_neg he]
    have he' : (st.clean j.shot).exists' = false := by simpa using he
    cases loadAll st.raw j.neighbors with
    | none => simp only [Option.map_some, update_absent _ _ he']
    | some l =>
      cases l with
      | nil => rfl
      | cons v vs =>
        cases st.raw j.shot with
        | absent => simp only [Option.map_some, update_absent _ _ he']
        | torn => simp only [Option.map_some, update_absent _ _ he']
        | ok r =>
          simp only
          cases w.clean (v :: vs) r with
          | none => simp only [File.ofOption, Option.map_some, update_absent _ _ he']
          | some c => rfl

theorem pruneTask_eq (w : Work N R C P) (st : State N R C P) (j : Job N) :
    pruneTask w st j = (stepFile (outPruned w st.clean) st.pruned j).map (fun f => { st with pruned := f }) := by
  unfold pruneTask stepFile outPruned savePruned
  by_cases he : (st.pruned j.shot).exists'
  · rw [if_pos he, if_pos he]; rfl
  · rw [if_neg he, if_neg he]
    have he' : (st.pruned j.shot).exists' = false := by simpa using he
    cases loadAll st.clean j.neighbors with
    | none => simp only [Option.map_some, update_absent _ _ he']
    | some l =>
      cases l with
      | nil => rfl
      | cons v vs =>
        simp only
        cases w.prune (v :: vs) with
        | none => simp only [File.ofOption, Option.map_some, update_absent _ _ he']
        | some c => rfl

theorem phase_raw (w : Work N R C P) (l : List (Job N)) : ∀ st : State N R C P,
    phase (rawTask w) l st = (phaseFile (outRaw w) l st.raw).map (fun f => { st with raw := f }) := by
  induction l with
  | nil => intro st; rfl
  | cons j l ih =>
    intro st
    unfold phase phaseFile
    rw [rawTask_eq]
    cases stepFile (outRaw w) st.raw j with
    | none => rfl
    | some f => simp only [Option.map_some, Option.bind_some]; rw [ih]

theorem phase_clean (w : Work N R C P) (l : List (Job N)) : ∀ st : State N R C P,
    phase (cleanTask w) l st = (phaseFile (outClean w st.raw) l st.clean).map (fun f => { st with clean := f }) := by
  induction l with
  | nil => intro st; rfl
  | cons j l ih =>
    intro st
    unfold phase phaseFile
    rw [cleanTask_eq]
    cases stepFile (outClean w st.raw) st.clean j with
    | none => rfl
    | some f => simp only [Option.map_some, Option.bind_some]; rw [ih]

theorem phase_pruned (w : Work N R C P) (l : List (Job N)) : ∀ st : State N R C P,
    phase (pruneTask w) l st = (phaseFile (outPruned w st.clean) l st.pruned).map (fun f => { st with pruned := f }) := by
  induction l with
  | nil => intro st; rfl
  | cons j l ih =>
    intro st
    unfold phase phaseFile
    rw [pruneTask_eq]
    cases stepFile (outPruned w st.clean) st.pruned j with
    | none => rfl
    | some f => simp only [Option.map_some, Option.bind_some]; rw [ih]

/-! ### Properties -/

/-- C82. The order in which the threads take the jobs of a phase does not matter. -/
theorem C82_order (w : Work N R C P) (l l1 l2 l3 : List (Job N)) (hn : (l.map Job.shot).Nodup) (h1 : l1.Perm l)
    (h2 : l2.Perm l) (h3 : l3.Perm l) (st : State N R C P) : run w l1 l2 l3 st = run w l l l st := by
  have p1 : ∀ st, phase (rawTask w) l1 st = phase (rawTask w) l st := by
    intro st
    rw [phase_raw, phase_raw, phaseFile_perm _ l1 l h1 (((h1.map Job.shot).nodup_iff).2 hn)]
  have p2 : phase (cleanTask w) l2 = phase (cleanTask w) l := by
    funext st
    rw [phase_clean, phase_clean, phaseFile_perm _ l2 l h2 (((h2.map Job.shot).nodup_iff).2 hn)]
  have p3 : phase (pruneTask w) l3 = phase (pruneTask w) l := by
    funext st
    rw [phase_pruned, phase_pruned, phaseFile_perm _ l3 l h3 (((h3.map Job.shot).nodup_iff).2 hn)]
  unfold run
  rw [p1, p2, p3]

/-- The states in which a run may be interrupted between two jobs: some jobs of a phase, in any order, after all jobs
of the phases before. -/
inductive Interrupted (w : Work N R C P) (l : List (Job N)) (st : State N R C P) : State N R C P → Prop
  | raw (pre : List (Job N)) (h : pre.Subperm l) (st' : State N R C P) :
      phase (rawTask w) pre st = some st' → Interrupted w l st st'
  | clean (pre : List (Job N)) (h : pre.Subperm l) (st1 st' : State N R C P) :
      phase (rawTask w) l st = some st1 → phase (cleanTask w) pre st1 = some st' → Interrupted w l st st'
  | pruned (pre : List (Job N)) (h : pre.Subperm l) (st1 st2 st' : State N R C P) :
      phase (rawTask w) l st = some st1 → phase (cleanTask w) l st1 = some st2 →
      phase (pruneTask w) pre st2 = some st' → Interrupted w l st st'

theorem subperm_nodup {l pre : List (Job N)} (h : pre.Subperm l) (hn : (l.map Job.shot).Nodup) :
    (pre.map Job.shot).Nodup := by
  obtain ⟨m, hp, hs⟩ := h
  exact ((hp.map Job.shot).nodup_iff).1 ((hs.map Job.shot).nodup hn)

/-- C82. A run that was interrupted between two jobs, at any point, and is started again ends as the run would have
ended without interruption. -/
theorem C82_resume (w : Work N R C P) (l : List (Job N)) (hn : (l.map Job.shot).Nodup) (st st' : State N R C P)
    (h : Interrupted w l st st') : run w l l l st' = run w l l l st := by
  have again : ∀ (pre : List (Job N)), pre.Subperm l → ∀ s s', phase (rawTask w) pre s = some s' →
      phase (rawTask w) l s' = phase (rawTask w) l s := by
    intro pre hp s s' hs
    rw [phase_raw] at hs
    obtain ⟨g, hg, rfl⟩ := Option.map_eq_some_iff.1 hs
    rw [phase_raw, phase_raw, phaseFile_again _ l pre hn (subperm_nodup hp hn) hp.subset _ _ hg]
  have again2 : ∀ (pre : List (Job N)), pre.Subperm l → ∀ s s', phase (cleanTask w) pre s = some s' →
      phase (cleanTask w) l s' = phase (cleanTask w) l s ∧ s'.raw = s.raw := by
    intro pre hp s s' hs
    rw [phase_clean] at hs
    obtain ⟨g, hg, rfl⟩ := Option.map_eq_some_iff.1 hs
    refine ⟨?_, rfl⟩
    rw [phase_clean, phase_clean, phaseFile_again _ l pre hn (subperm_nodup hp hn) hp.subset _ _ hg]
  have again3 : ∀ (pre : List (Job N)), pre.Subperm l → ∀ s s', phase (pruneTask w) pre s = some s' →
      phase (pruneTask w) l s' = phase (pruneTask w) l s ∧ s'.raw = s.raw ∧ s'.clean = s.clean := by
    intro pre hp s s' hs
    rw [phase_pruned] at hs
    obtain ⟨g, hg, rfl⟩ := Option.map_eq_some_iff.1 hs
    refine ⟨?_, rfl, rfl⟩
    rw [phase_pruned, phase_pruned, phaseFile_again _ l pre hn (subperm_nodup hp hn) hp.subset _ _ hg]
  -- a whole phase is idempotent, also in a state that differs in later files
  have rawDone : ∀ s s1 : State N R C P, phase (rawTask w) l s = some s1 → ∀ s2 : State N R C P, s2.raw = s1.raw →
      phase (rawTask w) l s2 = some s2 := by
    intro s s1 h1 s2 h2
    have h3 := again l (List.Subperm.refl l) s s1 h1
    rw [h1, phase_raw] at h3
    obtain ⟨g, hg, hg'⟩ := Option.map_eq_some_iff.1 h3
    rw [phase_raw, h2, hg]
    have : g = s2.raw := by rw [h2, ← hg']
    rw [this]; rfl
  have cleanDone : ∀ s s1 : State N R C P, phase (cleanTask w) l s = some s1 → ∀ s2 : State N R C P,
      s2.raw = s1.raw → s2.clean = s1.clean → phase (cleanTask w) l s2 = some s2 := by
    intro s s1 h1 s2 h2 h2'
    have h3 := (again2 l (List.Subperm.refl l) s s1 h1).1
    rw [h1, phase_clean] at h3
    obtain ⟨g, hg, hg'⟩ := Option.map_eq_some_iff.1 h3
    rw [phase_clean, h2, h2', hg]
    have : g = s2.clean := by rw [h2', ← hg']
    rw [this, ← h2]; rfl
  cases h with
  | raw pre hp _ h1 =>
    unfold run
    rw [again pre hp st st' h1]
  | clean pre hp st1 _ h1 h2 =>
    have a2 := again2 pre hp st1 st' h2
    unfold run
    rw [rawDone st st1 h1 st' a2.2, Option.bind_some, a2.1, h1, Option.bind_some]
  | pruned pre hp st1 st2 _ h1 h2 h3 =>
    have a3 := again3 pre hp st2 st' h3
    have r2 : st2.raw = st1.raw := (again2 l (List.Subperm.refl l) st1 st2 h2).2
    unfold run
    rw [rawDone st st1 h1 st' (by rw [a3.2.1, r2]), Option.bind_some,
      cleanDone st1 st2 h2 st' a3.2.1 a3.2.2, Option.bind_some, a3.1, h1, Option.bind_some, h2, Option.bind_some]

/-- The files of a run in terms of those before it. -/
theorem run_eq (w : Work N R C P) (l : List (Job N)) (hn : (l.map Job.shot).Nodup) (st st' : State N R C P)
    (h : run w l l l st = some st') :
    st'.raw = finalFile (outRaw w) l st.raw ∧ st'.clean = finalFile (outClean w st'.raw) l st.clean ∧
    st'.pruned = finalFile (outPruned w st'.clean) l st.pruned := by
  unfold run at h
  rw [phase_raw, phaseFile_some (outRaw w) l st.raw hn (fun j _ _ => rfl), Option.map_some, Option.bind_some,
    phase_clean] at h
  have key : ∀ {α : Type} (out : Job N → Option (File α)) (f g : N → File α), phaseFile out l f = some g →
      g = finalFile out l f := by
    intro α out f g hg
    by_cases hc : ∃ j ∈ l, (f j.shot).exists' = false ∧ out j = none
    · rw [phaseFile_none out l f hn hc] at hg; cases hg
    · rw [phaseFile_some out l f hn (fun j hj he => by
        rw [Option.isSome_iff_ne_none]
        exact fun ho => hc ⟨j, hj, he, ho⟩)] at hg
      injection hg with hg
      exact hg.symm
  obtain ⟨s2, h2, h3⟩ := Option.bind_eq_some_iff.1 h
  obtain ⟨g, hg, rfl⟩ := Option.map_eq_some_iff.1 h2
  rw [phase_pruned] at h3
  obtain ⟨g', hg', rfl⟩ := Option.map_eq_some_iff.1 h3
  exact ⟨rfl, key _ _ _ hg, key _ _ _ hg'⟩

/-- C82. A run never changes a file that exists, whole or torn. -/
theorem C82_kept (w : Work N R C P) (l : List (Job N)) (hn : (l.map Job.shot).Nodup) (st st' : State N R C P)
    (h : run w l l l st = some st') (s : N) :
    ((st.raw s).exists' → st'.raw s = st.raw s) ∧ ((st.clean s).exists' → st'.clean s = st.clean s) ∧
    ((st.pruned s).exists' → st'.pruned s = st.pruned s) := by
  obtain ⟨h1, h2, h3⟩ := run_eq w l hn st st' h
  have key : ∀ {α : Type} (out : Job N → Option (File α)) (f : N → File α), (f s).exists' →
      finalFile out l f s = f s := by
    intro α out f hf
    unfold finalFile
    rw [if_pos hf]
  exact ⟨fun he => by rw [h1, key _ _ he], fun he => by rw [h2, key _ _ he], fun he => by rw [h3, key _ _ he]⟩

/-- The shots of a list that have a file, with what is in it. -/
def present {α : Type} (f : N → File α) (ns : List N) : List (N × α) :=
  ns.filterMap (fun n => match f n with
    | .ok a => some (n, a)
    | _ => none)

theorem loadAll_eq {α : Type} (f : N → File α) (ns : List N) (h : ∀ n ∈ ns, f n ≠ .torn) :
    loadAll f ns = some (present f ns) := by
  unfold present
  induction ns with
  | nil => rfl
  | cons n ns ih =>
    have ih' := ih (fun m hm => h m (List.mem_cons_of_mem _ hm))
    unfold loadAll
    cases hf : f n with
    | absent => simp only [List.filterMap_cons, hf]; exact ih'
    | torn => exact absurd hf (h n (List.mem_cons_self ..))
    | ok a => simp only [List.filterMap_cons, hf]; rw [ih']; rfl

theorem loadAll_torn {α : Type} (f : N → File α) (ns : List N) (n : N) (hn : n ∈ ns) (h : f n = .torn) :
    loadAll f ns = none := by
  induction ns with
  | nil => cases hn
  | cons m ns ih =>
    unfold loadAll
    rcases List.mem_cons.1 hn with h' | h'
    · subst h'; rw [h]
    · cases hf : f m with
      | absent => exact ih h'
      | torn => rfl
      | ok a => simp only; rw [ih h']; rfl

theorem finalFile_torn {α : Type} (out : Job N → Option (File α)) (l : List (Job N)) (hn : (l.map Job.shot).Nodup)
    (f : N → File α) (hf : ∀ s, f s ≠ .torn) (ho : ∀ j ∈ l, out j ≠ some .torn) (s : N) :
    finalFile out l f s ≠ .torn := by
  unfold finalFile
  split_ifs with he
  · exact hf s
  · split
    · exact hf s
    · rename_i j hj
      have hm := List.mem_of_find?_eq_some hj
      cases ho' : out j with
      | none => simp only [Option.getD_none]; exact hf s
      | some v =>
        simp only [Option.getD_some]
        intro hv
        exact ho j hm (hv ▸ ho')

theorem ofOption_torn {α : Type} (o : Option α) : File.ofOption o ≠ .torn := by
  cases o <;> intro h <;> cases h

theorem outClean_torn (w : Work N R C P) (raw : N → File R) (j : Job N) : outClean w raw j ≠ some .torn := by
  unfold outClean
  split
  · intro h; cases h
  · intro h; cases h
  · split
    · intro h; injection h with h; exact ofOption_torn _ h
    · intro h; cases h

theorem outPruned_torn (w : Work N R C P) (cl : N → File C) (j : Job N) : outPruned w cl j ≠ some .torn := by
  unfold outPruned
  split
  · intro h; cases h
  · intro h; cases h
  · intro h; injection h with h; exact ofOption_torn _ h

/-- C82. Without torn files and if the numerical work raises for no shot, a run ends, and afterwards every shot with
neighbors has its three files. Each was there before or was made in this run: the raw depthmap by the estimator; the
clean one from the raw ones of the shot and of the neighbors that have one, the shot first; the cloud from the clean
ones likewise. Merging succeeds and gives one cloud for each shot that has one, in the order of the shots. -/
theorem C82_complete (w : Work N R C P) (l : List (Job N)) (hn : (l.map Job.shot).Nodup)
    (hfirst : ∀ j ∈ l, ∃ ns, j.neighbors = j.shot :: ns) (st : State N R C P)
    (ht : ∀ s, st.raw s ≠ .torn ∧ st.clean s ≠ .torn ∧ st.pruned s ≠ .torn)
    (he : ∀ j ∈ l, (w.est j.shot).isSome) (hc : ∀ vs r, (w.clean vs r).isSome) (hp : ∀ vs, (w.prune vs).isSome) :
    ∃ st', run w l l l st = some st' ∧
      (∀ j ∈ l, ∃ r c p, st'.raw j.shot = .ok r ∧ st'.clean j.shot = .ok c ∧ st'.pruned j.shot = .ok p ∧
        (st.raw j.shot = .ok r ∨ w.est j.shot = some r) ∧
        (st.clean j.shot = .ok c ∨
          ∃ vs, present st'.raw j.neighbors = (j.shot, r) :: vs ∧ w.clean ((j.shot, r) :: vs) r = some c) ∧
        (st.pruned j.shot = .ok p ∨
          ∃ vs, present st'.clean j.neighbors = (j.shot, c) :: vs ∧ w.prune ((j.shot, c) :: vs) = some p)) ∧
      ∀ shots, merge st' shots = some (present st'.pruned shots) := by
  -- raw
  set raw' := finalFile (outRaw w) l st.raw with hraw'
  have rawT : ∀ s, raw' s ≠ .torn := finalFile_torn _ l hn _ (fun s => (ht s).1)
    (fun j _ h => by unfold outRaw at h; injection h with h; exact ofOption_torn _ h)
  have rawOk : ∀ j ∈ l, ∃ r, raw' j.shot = .ok r ∧ (st.raw j.shot = .ok r ∨ w.est j.shot = some r) := by
    intro j hj
    rw [hraw']
    unfold finalFile
    by_cases hex : (st.raw j.shot).exists'
    · rw [if_pos hex]
      cases hr : st.raw j.shot with
      | absent => rw [hr] at hex; cases hex
      | torn => exact absurd hr (ht j.shot).1
      | ok r => exact ⟨r, rfl, Or.inl rfl⟩
    · rw [if_neg hex, find_of_mem l hn j hj]
      obtain ⟨r, hr⟩ := Option.isSome_iff_exists.1 (he j hj)
      exact ⟨r, by simp only [outRaw, hr, Option.getD_some, File.ofOption], Or.inr hr⟩
  have p1 : phase (rawTask w) l st = some { st with raw := raw' } := by
    rw [phase_raw, phaseFile_some (outRaw w) l st.raw hn (fun j _ _ => rfl), Option.map_some]
  -- clean
  have cleanOut : ∀ j ∈ l, ∃ r vs c, raw' j.shot = .ok r ∧ present raw' j.neighbors = (j.shot, r) :: vs ∧
      w.clean ((j.shot, r) :: vs) r = some c ∧ outClean w raw' j = some (.ok c) := by
    intro j hj
    obtain ⟨r, hr, -⟩ := rawOk j hj
    obtain ⟨ns, hns⟩ := hfirst j hj
    have hpres : present raw' j.neighbors = (j.shot, r) :: present raw' ns := by
      rw [hns]
      unfold present
      rw [List.filterMap_cons, hr]
    obtain ⟨c, hcc⟩ := Option.isSome_iff_exists.1 (hc ((j.shot, r) :: present raw' ns) r)
    refine ⟨r, present raw' ns, c, hr, hpres, hcc, ?_⟩
    unfold outClean
    rw [loadAll_eq raw' _ (fun n _ => rawT n), hpres]
    simp only [hr, hcc, File.ofOption]
  set clean' := finalFile (outClean w raw') l st.clean with hclean'
  have cleanT : ∀ s, clean' s ≠ .torn := finalFile_torn _ l hn _ (fun s => (ht s).2.1) (fun j _ => outClean_torn w raw' j)
  have cleanOk : ∀ j ∈ l, ∃ r c, raw' j.shot = .ok r ∧ clean' j.shot = .ok c ∧ (st.clean j.shot = .ok c ∨
      ∃ vs, present raw' j.neighbors = (j.shot, r) :: vs ∧ w.clean ((j.shot, r) :: vs) r = some c) := by
    intro j hj
    obtain ⟨r, vs, c, h1, h2, h3, h4⟩ := cleanOut j hj
    rw [hclean']
    unfold finalFile
    by_cases hex : (st.clean j.shot).exists'
    · rw [if_pos hex]
      cases hr : st.clean j.shot with
      | absent => rw [hr] at hex; cases hex
      | torn => exact absurd hr (ht j.shot).2.1
      | ok c' => exact ⟨r, c', h1, rfl, Or.inl rfl⟩
    · rw [if_neg hex, find_of_mem l hn j hj]
      exact ⟨r, c, h1, by simp only [h4, Option.getD_some], Or.inr ⟨vs, h2, h3⟩⟩
  have p2 : phase (cleanTask w) l { st with raw := raw' } = some { st with raw := raw', clean := clean' } := by
    rw [phase_clean, phaseFile_some (outClean w raw') l st.clean hn (fun j hj _ => by
      obtain ⟨r, vs, c, -, -, -, h4⟩ := cleanOut j hj
      rw [h4]; rfl), Option.map_some]
  -- pruned
  have prunedOut : ∀ j ∈ l, ∃ c vs p, clean' j.shot = .ok c ∧ present clean' j.neighbors = (j.shot, c) :: vs ∧
      w.prune ((j.shot, c) :: vs) = some p ∧ outPruned w clean' j = some (.ok p) := by
    intro j hj
    obtain ⟨r, c, -, hcc, -⟩ := cleanOk j hj
    obtain ⟨ns, hns⟩ := hfirst j hj
    have hpres : present clean' j.neighbors = (j.shot, c) :: present clean' ns := by
      rw [hns]
      unfold present
      rw [List.filterMap_cons, hcc]
    obtain ⟨p, hpp⟩ := Option.isSome_iff_exists.1 (hp ((j.shot, c) :: present clean' ns))
    refine ⟨c, present clean' ns, p, hcc, hpres, hpp, ?_⟩
    unfold outPruned
    rw [loadAll_eq clean' _ (fun n _ => cleanT n), hpres]
    simp only [hpp, File.ofOption]
  set pruned' := finalFile (outPruned w clean') l st.pruned with hpruned'
  have prunedT : ∀ s, pruned' s ≠ .torn :=
    finalFile_torn _ l hn _ (fun s => (ht s).2.2) (fun j _ => outPruned_torn w clean' j)
  have p3 : phase (pruneTask w) l { st with raw := raw', clean := clean' } =
      some { raw := raw', clean := clean', pruned := pruned' } := by
    rw [phase_pruned, phaseFile_some (outPruned w clean') l st.pruned hn (fun j hj _ => by
      obtain ⟨r, vs, c, -, -, -, h4⟩ := prunedOut j hj
      rw [h4]; rfl), Option.map_some]
  refine ⟨{ raw := raw', clean := clean', pruned := pruned' }, ?_, ?_, ?_⟩
  · unfold run
    rw [p1, Option.bind_some, p2, Option.bind_some, p3]
  · intro j hj
    obtain ⟨r, hr, hr'⟩ := rawOk j hj
    obtain ⟨r2, c, hr2, hcc, hc'⟩ := cleanOk j hj
    obtain ⟨c2, vs, p, hc2, hpres, hpp, hout⟩ := prunedOut j hj
    rw [hr] at hr2
    injection hr2 with hr2
    subst hr2
    rw [hcc] at hc2
    injection hc2 with hc2
    subst hc2
    show ∃ r c p, raw' j.shot = .ok r ∧ clean' j.shot = .ok c ∧ pruned' j.shot = .ok p ∧ _
    by_cases hex : (st.pruned j.shot).exists'
    · cases hq : st.pruned j.shot with
      | absent => rw [hq] at hex; cases hex
      | torn => exact absurd hq (ht j.shot).2.2
      | ok p' =>
        refine ⟨r, c, p', hr, hcc, ?_, hr', hc', Or.inl rfl⟩
        rw [hpruned']
        unfold finalFile
        rw [if_pos hex, hq]
    · refine ⟨r, c, p, hr, hcc, ?_, hr', hc', Or.inr ⟨vs, hpres, hpp⟩⟩
      rw [hpruned']
      unfold finalFile
      rw [if_neg hex, find_of_mem l hn j hj]
      simp only [hout, Option.getD_some]
  · intro shots
    exact loadAll_eq pruned' shots (fun n _ => prunedT n)

/-- C82. A torn raw file is never repaired, and no shot that has its shot among its neighbors ever gets a clean
depthmap, in this run or any later one. -/
theorem C82_torn_raw (w : Work N R C P) (l : List (Job N)) (hn : (l.map Job.shot).Nodup) (st st' : State N R C P)
    (h : run w l l l st = some st') (s : N) (hs : st.raw s = .torn) (j : Job N) (hj : j ∈ l) (hjs : s ∈ j.neighbors)
    (hc : st.clean j.shot = .absent) : st'.raw s = .torn ∧ st'.clean j.shot = .absent := by
  obtain ⟨h1, h2, -⟩ := run_eq w l hn st st' h
  have hr : st'.raw s = .torn := by
    rw [(C82_kept w l hn st st' h s).1 (by rw [hs]; rfl), hs]
  refine ⟨hr, ?_⟩
  rw [h2]
  unfold finalFile
  rw [if_neg (by rw [hc]; simp [File.exists']), find_of_mem l hn j hj]
  show (outClean w st'.raw j).getD _ = _
  unfold outClean
  rw [loadAll_torn st'.raw j.neighbors s hjs hr, hc]
  rfl

/-- C82. A torn cloud of a shot makes merging fail, in this run and every later one. -/
theorem C82_torn_cloud (w : Work N R C P) (l : List (Job N)) (hn : (l.map Job.shot).Nodup) (st st' : State N R C P)
    (h : run w l l l st = some st') (s : N) (hs : st.pruned s = .torn) (shots : List N) (hm : s ∈ shots) :
    st'.pruned s = .torn ∧ merge st' shots = none := by
  have hr : st'.pruned s = .torn := by
    rw [(C82_kept w l hn st st' h s).2.2 (by rw [hs]; rfl), hs]
  exact ⟨hr, loadAll_torn _ _ s hm hr⟩

/-- C82. A shot whose own depthmap could not be computed gets the cloud of a neighbor: if a run ends with no clean
depthmap for the shot but one for a neighbor, its cloud is made from views of which the first is another shot, and the
points of that one are in the merged cloud twice. -/
theorem C82_wrong_cloud (w : Work N R C P) (l : List (Job N)) (hn : (l.map Job.shot).Nodup) (st st' : State N R C P)
    (h : run w l l l st = some st') (j : Job N) (hj : j ∈ l) (hpr : st.pruned j.shot = .absent)
    (ht : ∀ s ∈ j.neighbors, st'.clean s ≠ .torn) (hown : st'.clean j.shot = .absent)
    (n : N) (hnj : n ∈ j.neighbors) (c : C) (hnc : st'.clean n = .ok c) (hp : ∀ vs, (w.prune vs).isSome) :
    ∃ v vs p, v.1 ≠ j.shot ∧ v.1 ∈ j.neighbors ∧ st'.clean v.1 = .ok v.2 ∧ w.prune (v :: vs) = some p ∧
      st'.pruned j.shot = .ok p := by
  obtain ⟨-, -, h3⟩ := run_eq w l hn st st' h
  have hpres : (n, c) ∈ present st'.clean j.neighbors := by
    unfold present
    rw [List.mem_filterMap]
    exact ⟨n, hnj, by rw [hnc]⟩
  cases hl : present st'.clean j.neighbors with
  | nil => rw [hl] at hpres; cases hpres
  | cons v vs =>
    have hv : v ∈ present st'.clean j.neighbors := by rw [hl]; exact List.mem_cons_self ..
    unfold present at hv
    rw [List.mem_filterMap] at hv
    obtain ⟨m, hm, hmv⟩ := hv
    have hv2 : v.1 = m ∧ st'.clean m = .ok v.2 := by
      cases hcm : st'.clean m with
      | absent => rw [hcm] at hmv; cases hmv
      | torn => rw [hcm] at hmv; cases hmv
      | ok a => rw [hcm] at hmv; injection hmv with hmv; subst hmv; exact ⟨rfl, rfl⟩
    obtain ⟨p, hpp⟩ := Option.isSome_iff_exists.1 (hp (v :: vs))
    refine ⟨v, vs, p, ?_, hv2.1 ▸ hm, hv2.1 ▸ hv2.2, hpp, ?_⟩
    · intro he
      rw [hv2.1] at he
      rw [he, hown] at hv2
      cases hv2.2
    · rw [h3]
      unfold finalFile
      rw [if_neg (by rw [hpr]; simp [File.exists']), find_of_mem l hn j hj]
      show (outPruned w st'.clean j).getD _ = _
      unfold outPruned
      rw [loadAll_eq st'.clean j.neighbors ht, hl]
      simp only [hpp, File.ofOption, Option.getD_some]

/-- C82. If the estimator raises for every shot, as with an unknown method in the configuration, the process does not
report it but is killed by the cleaner, which reads the first of no views. -/
theorem C82_no_raw (w : Work N R C P) (l : List (Job N)) (hn : (l.map Job.shot).Nodup) (hl : l ≠ [])
    (he : ∀ s, w.est s = none) : run w l l l ⟨fun _ => .absent, fun _ => .absent, fun _ => .absent⟩ = none := by
  have h1 : finalFile (outRaw w) l (fun _ => File.absent) = fun _ => File.absent := by
    funext s
    unfold finalFile outRaw
    rw [if_neg (by simp [File.exists'])]
    split
    · rfl
    · rw [he]; rfl
  unfold run
  rw [phase_raw, phaseFile_some (outRaw w) l _ hn (fun j _ _ => rfl), Option.map_some, Option.bind_some, h1, phase_clean]
  obtain ⟨j, hj⟩ := List.exists_mem_of_ne_nil l hl
  have hout : outClean w (fun _ => File.absent) j = none := by
    unfold outClean
    rw [loadAll_eq _ _ (fun n _ h => by cases h)]
    have : present (fun _ : N => (File.absent : File R)) j.neighbors = [] := by
      unfold present
      simp
    rw [this]
  rw [phaseFile_none _ l _ hn ⟨j, hj, rfl, hout⟩]
  rfl

/-- C82. A shot whose only neighbor is itself gets no file; one with another neighbor is a job. -/
theorem C82_alone (w : Work N R C P) (all : List (Job N)) (hn : (all.map Job.shot).Nodup) (st st' : State N R C P)
    (h : run w (jobs all) (jobs all) (jobs all) st = some st') (j : Job N) (hj : j ∈ all) (n : N) :
    (j.neighbors = [n] → st'.raw j.shot = st.raw j.shot ∧ st'.clean j.shot = st.clean j.shot ∧
      st'.pruned j.shot = st.pruned j.shot) ∧
    (∀ m ns, j.neighbors = n :: m :: ns → j ∈ jobs all) := by
  have hsub : (jobs all).Sublist all := List.filter_sublist
  have hn' : ((jobs all).map Job.shot).Nodup := (hsub.map Job.shot).nodup hn
  constructor
  · intro h1
    obtain ⟨a, b, c⟩ := run_eq w (jobs all) hn' st st' h
    have hno : j.shot ∉ (jobs all).map Job.shot := by
      intro hm
      obtain ⟨k, hk, hks⟩ := List.mem_map.1 hm
      have hkl : k = j := by
        have e1 := find_of_mem all hn k (hsub.subset hk)
        have e2 := find_of_mem all hn j hj
        rw [hks, e2] at e1
        injection e1 with e1
        exact e1.symm
      unfold jobs at hk
      have := (List.mem_filter.1 hk).2
      rw [hkl, h1] at this
      simp at this
    have key : ∀ {α : Type} (out : Job N → Option (File α)) (f : N → File α),
        finalFile out (jobs all) f j.shot = f j.shot := by
      intro α out f
      unfold finalFile
      rw [find_none _ _ hno]
      split_ifs <;> rfl
    exact ⟨by rw [a, key], by rw [b, key], by rw [c, key]⟩
  · intro m ns h1
    unfold jobs
    rw [List.mem_filter]
    exact ⟨hj, by rw [h1]; simp⟩

/-! ### Cases in which the hypotheses hold -/

/-- Three shots in a row; the estimator fails for the second one. -/
def exWork : Work ℕ ℕ ℕ (List ℕ) := ⟨fun s => if s = 2 then none else some s, fun _ r => some r, fun vs => some (vs.map Prod.fst)⟩
def exJobs : List (Job ℕ) := [⟨1, [1, 2]⟩, ⟨2, [2, 1, 3]⟩, ⟨3, [3, 2]⟩]
def exEmpty : State ℕ ℕ ℕ (List ℕ) := ⟨fun _ => .absent, fun _ => .absent, fun _ => .absent⟩

/-- The cloud of shot 1 is saved for shot 2 as well. -/
example : (exJobs.map Job.shot).Nodup ∧
    ((run exWork exJobs exJobs exJobs exEmpty).bind (fun st => merge st [1, 2, 3])) =
      some [(1, [1]), (2, [1, 3]), (3, [3])] := by
  constructor
  · decide
  · rfl

/-- With an estimator that does not fail everything is complete. -/
example : (∀ j ∈ exJobs, ∃ ns, j.neighbors = j.shot :: ns) ∧
    ((run ⟨fun s => some s, fun _ r => some r, fun vs => some (vs.map Prod.fst)⟩ exJobs exJobs exJobs exEmpty).bind
      (fun st => merge st [1, 2, 3])) = some [(1, [1, 2]), (2, [2, 1, 3]), (3, [3, 2])] := by
  constructor
  · intro j hj
    fin_cases hj
    · exact ⟨[2], rfl⟩
    · exact ⟨[1, 3], rfl⟩
    · exact ⟨[2], rfl⟩
  · rfl

end Verif.DenseStage
